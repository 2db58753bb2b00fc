import Verif.Lemmas.SysVars
import Verif.Props.C63
import Verif.Props.C76

/-!
# C105: what a template says about the build

The variables for resource usage and system information have the documented values when they are used for the first time,
and keep them until the end of the run.
-/

namespace Blogc.C105

open Blogc Blogc.Render Blogc.SysVars Blogc.Spec.SysVars

/-! ## One variable -/

/-- What is computed for one of the names. -/
def computed (sys : Sys) (name : Str) : Option Str :=
  if name = cpuTime then sys.rusage.map Prod.fst
  else if name = memory then sys.rusage.map Prod.snd
  else if name = host then sys.hostname
  else if name = user then sys.username
  else if name = date then sys.datetime
  else if name = docker then if sys.insideDocker then some b!"1" else none
  else none

theorem lookup_set (t : Table) (a k v : Str) (ha : NulFree a) (hk : NulFree k) :
    (t.insert a v).1.lookup k = if k = a then some v else t.lookup k := Trie.lookup_insert t a k v ha hk

theorem funcvars_first (sys : Sys) (g : Table) (name : Str) (hn : name ∈ names) (hg : g.lookup name = none) :
    (funcvarsEval sys g name).lookup name = computed sys name := by
  unfold funcvarsEval
  rw [hg]
  simp only
  unfold names at hn
  simp only [List.mem_cons, List.not_mem_nil, or_false] at hn
  rcases hn with rfl | rfl | rfl | rfl | rfl | rfl
  · show (insertAll g (match sys.rusage with
      | some (cpu, mem) => [(b!"BLOGC_RUSAGE_CPU_TIME", cpu), (b!"BLOGC_RUSAGE_MEMORY", mem)]
      | none => [])).lookup cpuTime = sys.rusage.map Prod.fst
    cases sys.rusage with
    | none => exact hg
    | some p =>
      simp only [insertAll]
      rw [lookup_set _ _ _ _ (by decide) (by decide), if_neg (by decide), lookup_set _ _ _ _ (by decide) (by decide),
        if_pos (by decide)]
      rfl
  · show (insertAll g (match sys.rusage with
      | some (cpu, mem) => [(b!"BLOGC_RUSAGE_CPU_TIME", cpu), (b!"BLOGC_RUSAGE_MEMORY", mem)]
      | none => [])).lookup memory = sys.rusage.map Prod.snd
    cases sys.rusage with
    | none => exact hg
    | some p =>
      simp only [insertAll]
      rw [lookup_set _ _ _ _ (by decide) (by decide), if_pos (by decide)]
      rfl
  · show (insertAll g (sys.hostname.toList.map fun v => (host, v))).lookup host = sys.hostname
    cases sys.hostname with
    | none => exact hg
    | some p =>
      simp only [Option.toList_some, List.map_cons, List.map_nil, insertAll]
      rw [lookup_set _ _ _ _ (by decide) (by decide), if_pos rfl]
  · show (insertAll g (sys.username.toList.map fun v => (user, v))).lookup user = sys.username
    cases sys.username with
    | none => exact hg
    | some p =>
      simp only [Option.toList_some, List.map_cons, List.map_nil, insertAll]
      rw [lookup_set _ _ _ _ (by decide) (by decide), if_pos rfl]
  · show (insertAll g (sys.datetime.toList.map fun v => (date, v))).lookup date = sys.datetime
    cases sys.datetime with
    | none => exact hg
    | some p =>
      simp only [Option.toList_some, List.map_cons, List.map_nil, insertAll]
      rw [lookup_set _ _ _ _ (by decide) (by decide), if_pos rfl]
  · show (insertAll g (if sys.insideDocker then [(docker, b!"1")] else [])).lookup docker =
      if sys.insideDocker then some b!"1" else none
    cases sys.insideDocker with
    | false => exact hg
    | true =>
      simp only [if_true, insertAll]
      rw [lookup_set _ _ _ _ (by decide) (by decide), if_pos rfl]

theorem plain_names : ∀ name ∈ names, splitSize name = .ok (name, -1) ∧ splitFormatted name = (name, false) ∧
    name ≠ b!"FOREACH_ITEM" ∧ name ≠ b!"FOREACH_VALUE" ∧ startsWith name b!"DATE_" = false := by
  unfold names
  simp only [List.forall_mem_cons]
  refine ⟨?_, ?_, ?_, ?_, ?_, ?_, fun _ h => by cases h⟩ <;> exact ⟨rfl, by decide, by decide, by decide, by decide⟩

/-- The first use of a variable. -/
theorem first_use (sys : Sys) (g : Table) (loc : Option Table) (it : Item) (name : Str) (hn : name ∈ names)
    (hg : getVariable name g loc = none) :
    formatVariable sys g loc it name = .ok (funcvarsEval sys g name, computed sys name) := by
  obtain ⟨h1, h2, h3, h4, h5⟩ := plain_names name hn
  have hgl : g.lookup name = none := by
    cases loc with
    | none => exact hg
    | some l =>
      simp only [getVariable] at hg
      cases hl : l.lookup name with
      | some w => rw [hl] at hg; cases hg
      | none => rw [hl] at hg; exact hg
  have hb : baseValue sys g loc it name = (funcvarsEval sys g name, computed sys name) := by
    have hv : getVariable name (funcvarsEval sys g name) loc = computed sys name := by
      cases loc with
      | none => exact funcvars_first sys g name hn hgl
      | some l =>
        simp only [getVariable] at hg ⊢
        cases hl : l.lookup name with
        | some w => rw [hl] at hg; cases hg
        | none => exact funcvars_first sys g name hn hgl
    unfold baseValue
    cases it.item with
    | none => simp only [hv]
    | some i => simp only [hv, h3, h4, false_and, if_false]
  unfold formatVariable derived
  rw [hg]
  simp only [h3, h4, if_false, h1, Res.bind, h2, hb]
  have hd : ∀ v, dress sys (funcvarsEval sys g name) loc name v false (-1) = v := fun v => by
    simp [dress]
  simp only [hd, Option.map_id']

/-! ## The values -/

theorem short_self (h : Str) (hd : c!"." ∉ h) : short h = h := by
  unfold short
  induction h with
  | nil => rfl
  | cons b h ih =>
    rw [List.takeWhile_cons_of_pos (by simp only [decide_eq_true_eq]; rintro rfl; exact hd (by simp)),
      ih fun h => hd (List.mem_cons_of_mem _ h)]

theorem contains_infix (s : Str) : SysInfo.contains b!"/docker/" s = true ↔ b!"/docker/" <:+: s := by
  rw [C63.contains_iff]
  constructor
  · rintro ⟨a, b, rfl⟩; exact ⟨a, b, rfl⟩
  · rintro ⟨a, b, e⟩; exact ⟨a, b, e.symm⟩

/-- **The variables have the documented values when they are used for the first time**, if the template's user has not
defined them. Missing: less than a millisecond or less than a megabyte (`tiny_violated`), more than two hours or 8 TB
(`long_violated`), and hosts with a longer name (`fqdn_violated`). -/
theorem shown_partial (m : Machine) (h : Usual m) (format : Str → DateTime.Tm → Option Str) :
    ∃ sys, sysOf m format = .ok sys ∧
      ∀ (g : Table) (loc : Option Table) (it : Item) (name : Str), name ∈ names → getVariable name g loc = none →
        ∃ g' v, formatVariable sys g loc it name = .ok (g', v) ∧ Says m name v ∧ g'.lookup name = v := by
  have hr : ∃ r, rusage m = .ok r ∧ ((m.rusage = none ∧ r = none) ∨ ∃ u a b, m.rusage = some u ∧ r = some (a, b) ∧
      CpuShown ((u.userSec + u.systemSec) * 1000000 + (u.userUsec + u.systemUsec)) a ∧ MemoryShown u.maxrss b) := by
    unfold rusage
    cases hu : m.rusage with
    | none => exact ⟨none, rfl, .inl ⟨rfl, rfl⟩⟩
    | some u =>
      obtain ⟨h1, h2, h3, h4⟩ := h.usage u hu
      have e : u.cpuTime = (u.userSec + u.systemSec) * 1000000 + (u.userUsec + u.systemUsec) := by
        unfold Usage.cpuTime; omega
      rw [← e] at h1 h2
      obtain ⟨a, ea, ha⟩ := cpu_shown _ h1 h2
      obtain ⟨b, eb, hb⟩ := memory_shown _ h3 h4
      exact ⟨some (a, b), by simp only [ea, eb]; rfl, .inr ⟨u, a, b, rfl, rfl, e ▸ ha, hb⟩⟩
  obtain ⟨r, er, hr⟩ := hr
  refine ⟨_, by unfold sysOf; rw [er]; rfl, fun g loc it name hn hg => ?_⟩
  generalize hs : Sys.mk r (hostname m) (datetime m) (username m) (SysInfo.getInsideDocker m.cgroup .init).1 format = sys
  refine ⟨_, _, first_use sys g loc it name hn hg, ?_, funcvars_first sys g name hn ?_⟩
  · subst hs
    refine ⟨?_, ?_, ?_, ?_, ?_, ?_⟩
    · rintro rfl
      show _ ∨ _
      rcases hr with ⟨h1, rfl⟩ | ⟨u, a, b, h1, rfl, h3, h4⟩
      · exact .inl ⟨h1, rfl⟩
      · exact .inr ⟨u, a, h1, rfl, h3⟩
    · rintro rfl
      rcases hr with ⟨h1, rfl⟩ | ⟨u, a, b, h1, rfl, h3, h4⟩
      · exact .inl ⟨h1, rfl⟩
      · exact .inr ⟨u, b, h1, rfl, h4⟩
    · rintro rfl
      show hostname m = _
      unfold hostname
      cases hh : m.gethostname with
      | none => rfl
      | some w =>
        obtain ⟨h1, h2⟩ := h.host w hh
        simp only [Option.map_some, short_self w h1]
        cases hn : m.gethostbyname w with
        | none => rfl
        | some n => simp only [h2 n hn]
    · rintro rfl; rfl
    · rintro rfl
      show datetime m = _
      unfold datetime
      cases m.now with
      | none => rfl
      | some t => simp only [h.dates]; simp [strf, conversion]
    · rintro rfl
      have e : computed ⟨r, hostname m, datetime m, username m, (SysInfo.getInsideDocker m.cgroup .init).1, format⟩ docker =
          if (SysInfo.getInsideDocker m.cgroup .init).1 then some b!"1" else none := rfl
      have e2 : (SysInfo.getInsideDocker m.cgroup .init).1 = true ↔
          ∃ text, m.cgroup = some text ∧ b!"/docker/" <:+: cstr text := by
        cases hc : m.cgroup with
        | none => simp [SysInfo.getInsideDocker, SysInfo.Statics.init]
        | some text =>
          simp only [SysInfo.getInsideDocker, SysInfo.Statics.init, Bool.false_eq_true, if_false, Option.some.injEq]
          rw [contains_infix]
          constructor
          · exact fun h => ⟨text, rfl, h⟩
          · rintro ⟨_, rfl, h⟩; exact h
      rw [e, ← e2]
      cases (SysInfo.getInsideDocker m.cgroup .init).1 <;> simp
  · cases loc with
    | none => exact hg
    | some l =>
      simp only [getVariable] at hg
      cases hl : l.lookup name with
      | some w => rw [hl] at hg; cases hg
      | none => rw [hl] at hg; exact hg

/-- Defined variables are shown as they are. -/
theorem given (sys : Sys) (g : Table) (loc : Option Table) (it : Item) (name v : Str)
    (h : getVariable name g loc = some v) : formatVariable sys g loc it name = .ok (g, some v) := by
  unfold formatVariable; rw [h]

/-! ## Later uses -/

theorem eval_kept (sys : Sys) (g : Table) (n name v : Str) (hn : name ∈ names) (hv : g.lookup name = some v)
    (hc : name = cpuTime → g.lookup memory ≠ none) (hm : name = memory → g.lookup cpuTime ≠ none) :
    (funcvarsEval sys g n).lookup name = some v := by
  unfold funcvarsEval
  cases hg : g.lookup n with
  | some w => exact hv
  | none =>
    simp only
    have hf : ∀ x ∈ names, NulFree x := by decide
    refine (C76.insertAll_lookup _ name (hf _ hn) (fun p hp => ?_) g).trans hv
    have hne : n ≠ name := by rintro rfl; rw [hg] at hv; cases hv
    unfold injected at hp
    split at hp
    · rename_i hcase
      have key : name ≠ cpuTime ∧ name ≠ memory := by
        constructor
        · rintro rfl
          rcases hcase with rfl | rfl
          · exact hne rfl
          · exact hc rfl hg
        · rintro rfl
          rcases hcase with rfl | rfl
          · exact hm rfl hg
          · exact hne rfl
      cases hr : sys.rusage with
      | none => rw [hr] at hp; cases hp
      | some q =>
        rw [hr] at hp
        simp only [List.mem_cons, List.not_mem_nil, or_false] at hp
        rcases hp with rfl | rfl
        · exact ⟨(by decide : NulFree b!"BLOGC_RUSAGE_CPU_TIME"), fun e => key.1 e.symm⟩
        · exact ⟨(by decide : NulFree b!"BLOGC_RUSAGE_MEMORY"), fun e => key.2 e.symm⟩
    have one : ∀ {l : List Str}, p ∈ l.map (fun v => (n, v)) → p.1 = n := fun h => by
      obtain ⟨_, _, rfl⟩ := List.mem_map.1 h; rfl
    have done : ∀ m, n = m → NulFree m → p.1 = n → NulFree p.1 ∧ p.1 ≠ name := fun m e hf' h => by
      rw [h]; exact ⟨e ▸ hf', hne⟩
    split at hp
    · exact done _ (by assumption) (by decide) (one hp)
    split at hp
    · exact done _ (by assumption) (by decide) (one hp)
    split at hp
    · exact done _ (by assumption) (by decide) (one hp)
    split at hp
    · split at hp
      · simp only [List.mem_cons, List.not_mem_nil, or_false] at hp
        subst hp
        exact done _ (by assumption) (by decide) rfl
      · cases hp
    · cases hp

/-- The table after the use of a variable. -/
theorem use_table (sys : Sys) (g g' : Table) (loc : Option Table) (it : Item) (name : Str) (v : Option Str)
    (h : formatVariable sys g loc it name = .ok (g', v)) : g' = g ∨ ∃ n, g' = funcvarsEval sys g n := by
  unfold formatVariable at h
  split at h
  · cases h; exact .inl rfl
  split at h
  · cases h; exact .inl rfl
  split at h
  · cases h; exact .inl rfl
  unfold derived at h
  cases hs : splitSize name with
  | ub => rw [hs] at h; cases h
  | ok p =>
    rw [hs] at h
    simp only [Res.bind, Res.ok.injEq, Prod.mk.injEq] at h
    obtain ⟨rfl, -⟩ := h
    unfold baseValue
    split
    · split
      · exact .inl rfl
      split
      · exact .inl rfl
      · exact .inr ⟨_, rfl⟩
    · exact .inr ⟨_, rfl⟩

/-- **A value stays until the end of the run**, whatever the system says later, whether blogc has computed it or the user
has defined it. The user has to define both of the variables for resource usage, or none (`overwritten_violated`). -/
theorem kept_partial (g g' : Table) (h : Later g g') (name v : Str) (hn : name ∈ names) (hv : g.lookup name = some v)
    (hc : name = cpuTime → g.lookup memory ≠ none) (hm : name = memory → g.lookup cpuTime ≠ none) :
    g'.lookup name = some v := by
  induction h with
  | refl => exact hv
  | @use g g₁ g₂ sys loc it n w hu _ ih =>
    rcases use_table _ _ _ _ _ _ _ hu with rfl | ⟨k, rfl⟩
    · exact ih hv hc hm
    · refine ih (eval_kept sys g k name v hn hv hc hm) (fun e => ?_) (fun e => ?_)
      · cases hx : g.lookup memory with
        | none => exact absurd hx (hc e)
        | some x =>
          rw [eval_kept sys g k memory x (by decide) hx (fun h => absurd h (by decide))
            (fun _ => by subst e; rw [hv]; simp)]
          simp
      · cases hx : g.lookup cpuTime with
        | none => exact absurd hx (hm e)
        | some x =>
          rw [eval_kept sys g k cpuTime x (by decide) hx (fun _ => by subst e; rw [hv]; simp)
            (fun h => absurd h (by decide))]
          simp

/-- A use computes both variables for resource usage. -/
theorem both (sys : Sys) (g : Table) (name v : Str) (hg : g.lookup name = none) (hv : computed sys name = some v)
    (hn : name = cpuTime ∨ name = memory) :
    (funcvarsEval sys g name).lookup cpuTime ≠ none ∧ (funcvarsEval sys g name).lookup memory ≠ none := by
  have hr : ∃ p, sys.rusage = some p := by
    cases hr : sys.rusage with
    | some p => exact ⟨p, rfl⟩
    | none =>
      rcases hn with rfl | rfl
      · have : computed sys cpuTime = sys.rusage.map Prod.fst := rfl
        rw [this, hr] at hv; cases hv
      · have : computed sys memory = sys.rusage.map Prod.snd := rfl
        rw [this, hr] at hv; cases hv
  obtain ⟨p, hr⟩ := hr
  have e : funcvarsEval sys g name = insertAll g [(cpuTime, p.1), (memory, p.2)] := by
    unfold funcvarsEval
    rw [hg]
    simp only
    congr 1
    unfold injected
    split
    case isFalse h => exact absurd hn h
    rw [hr]
    rfl
  rw [e]
  simp only [insertAll]
  rw [lookup_set _ _ _ _ (by decide) (by decide), if_neg (by decide), lookup_set _ _ _ _ (by decide) (by decide),
    if_pos rfl, lookup_set _ _ _ _ (by decide) (by decide), if_pos rfl]
  simp

/-- **Every later use shows the value of the first one**, whatever the system says by then. -/
theorem cached (sys : Sys) (g g' g'' : Table) (loc : Option Table) (it : Item) (name v : Str) (hn : name ∈ names)
    (hg : getVariable name g loc = none)
    (h : formatVariable sys g loc it name = .ok (g', some v)) (hl : Later g' g'') (sys' : Sys) (it' : Item) :
    formatVariable sys' g'' none it' name = .ok (g'', some v) := by
  rw [first_use sys g loc it name hn hg] at h
  simp only [Res.ok.injEq, Prod.mk.injEq] at h
  obtain ⟨rfl, hv⟩ := h
  have hgl : g.lookup name = none := by
    cases loc with
    | none => exact hg
    | some l =>
      simp only [getVariable] at hg
      cases hl : l.lookup name with
      | some w => rw [hl] at hg; cases hg
      | none => rw [hl] at hg; exact hg
  have hf := funcvars_first sys g name hn hgl
  rw [hv] at hf
  refine given _ _ _ _ _ _ (kept_partial _ _ hl name v hn hf (fun e => ?_) (fun e => ?_))
  · exact (both sys g name v hgl hv (.inl e)).2
  · exact (both sys g name v hgl hv (.inr e)).1

/-! ## An example -/

/-- A build on a small machine. -/
def sample : Machine where
  rusage := some ⟨0, 9345, 0, 3000, 4096⟩
  gethostname := some b!"bolha"
  gethostbyname := fun _ => some b!"bolha"
  logname := some b!"rafael"
  now := some ⟨119, 1, 10, 22, 0, 0⟩
  strftime := fun f t => some (strf t f)
  cgroup := some b!"1:name=systemd:/docker/4f2c\n"

theorem sample_usual : Usual sample where
  dates := fun _ _ => rfl
  host := by
    intro h hh
    cases hh
    refine ⟨by decide, ?_⟩
    rintro n ⟨⟩
    rfl
  usage := by
    rintro u ⟨⟩
    decide

/-- The examples of the manual. -/
example : formatCpuTime 12345 = .ok b!"12.345ms" ∧ formatCpuTime 12000 = .ok b!"12ms" ∧
    formatMemory 4096 = .ok b!"4.000MB" ∧ formatMemory 1264 = .ok b!"1.234MB" ∧
    formatCpuTime 1234567 = .ok b!"1.235s" ∧ formatMemory 1572864 = .ok b!"1.500GB" := ⟨rfl, rfl, rfl, rfl, rfl, rfl⟩

example : datetime sample = some b!"2019-02-10 22:00:00" := by decide

/-! ## What the code violates -/

/-- A CPU time below a millisecond, and memory below a megabyte, are printed with `%d` although they are a `long long`
and a `long`: undefined behaviour. -/
theorem tiny_violated (n : Nat) : (n < 1000 → formatCpuTime n = .ub) ∧ (n < 1024 → formatMemory n = .ub) := by
  constructor
  · intro h
    unfold formatCpuTime
    rw [if_neg (by omega), if_neg (by omega)]
  · intro h
    unfold formatMemory
    rw [if_neg (by omega), if_neg (by omega)]

/-- Long times are first converted to single precision: after a bit more than 19 hours the time shown is four milliseconds
short. -/
theorem long_violated : formatCpuTime 68719480831 = .ok (thousandths 68719477 ++ b!"s") ∧
    ¬ CpuShown 68719480831 (thousandths 68719477 ++ b!"s") := by
  have e1 : thousandths 68719477 ++ b!"s" = b!"68719.477s" := by decide +kernel
  have e2 : formatCpuTime 68719480831 = .ok b!"68719.477s" := rfl
  refine ⟨by rw [e1, e2], fun h => ?_⟩
  rw [e1] at h
  generalize hs : b!"68719.477s" = s at h
  cases h with
  | whole h1 h2 h3 => omega
  | milliseconds h1 h2 => omega
  | @seconds k _ _ h3 =>
    obtain ⟨h4, h5⟩ := h3
    have hk : k = 68719480 ∨ k = 68719481 := by omega
    rcases hk with rfl | rfl
    · exact absurd hs (by decide +kernel)
    · exact absurd hs (by decide +kernel)

/-- The manual says that the host name is "short hostname only, not FQDN". If the resolver knows a longer name, that one
is shown. -/
theorem fqdn_violated : ∃ m : Machine, hostname m = some b!"bolha.example.org" ∧
    ¬ Says m host (hostname m) :=
  ⟨{ sample with gethostbyname := fun _ => some b!"bolha.example.org" }, rfl, fun h =>
    absurd (h.2.2.1 rfl) (by decide)⟩

/-- A template that shows the CPU time replaces the value that the user has given for the memory. -/
theorem overwritten_violated : ∃ (sys : Sys) (g g' : Table), Later g g' ∧ g.lookup memory = some b!"mine" ∧
    g'.lookup memory = some b!"4.000MB" :=
  let sys : Sys := ⟨some (b!"12ms", b!"4.000MB"), none, none, none, false, fun _ _ => none⟩
  ⟨sys, (Trie.inserts [(memory, b!"mine")]).1, _,
    .use sys none ⟨none, none⟩ cpuTime _ rfl (.refl _), by decide +kernel, by decide +kernel⟩

/-- The manual says that the memory is measured when its variable is used for the first time. It is measured when the CPU
time is used, if that comes first. -/
theorem early_violated : ∃ (before after : Sys) (g : Table),
    before.rusage = some (b!"12ms", b!"4.000MB") ∧ after.rusage = some (b!"15ms", b!"5.000MB") ∧
    ∃ g', formatVariable before g none ⟨none, none⟩ cpuTime = .ok (g', some b!"12ms") ∧
      formatVariable after g' none ⟨none, none⟩ memory = .ok (g', some b!"4.000MB") :=
  ⟨⟨some (b!"12ms", b!"4.000MB"), none, none, none, false, fun _ _ => none⟩,
    ⟨some (b!"15ms", b!"5.000MB"), none, none, none, false, fun _ _ => none⟩, (Trie.inserts []).1, rfl, rfl, _, rfl, rfl⟩

end Blogc.C105
