import Verif.Lemmas.MakeMemoryMain

/-!
# C116: a run of blogc-make gives back all it takes

`MakeMem.mainEvents` are the allocations, uses and releases of a run, for any script of what it meets;
`Spec.MakeAccount.inUse` keeps account of them: it gives nothing if something is used or released that is not in use, or
acquired twice.
-/

namespace Blogc.C116

open Blogc Blogc.Spec.MakeAccount Blogc.MakeMem

/-- Whatever happens, nothing is used or released that is not in use. -/
theorem safe (w : World) (args : List Str) : ∃ l, inUse (mainEvents w args) nothing = some l :=
  ⟨_, main_ok w args⟩

/-! ## The end of a run -/

theorem plus_nothing {xs : List Thing} {x : Thing} : plus nothing xs x = true ↔ x ∈ xs := by
  rw [plus_true]
  simp [nothing]

theorem mem_lost {m : Nat} {x : Thing} (h : x ∈ lost m) : ∃ i, i + 1 < m ∧ x = .blogcfile i := by
  obtain ⟨i, _, h2, h3⟩ := mem_numbered.mp h
  exact ⟨i, by omega, h3.symm⟩

theorem executed_colon (runs : Nat → RuleRun) (rules : List Str) (c : Now) (i j : Nat) (h : j ∈ executed runs c i rules) :
    i ≤ j ∧ ∃ r, rules[j - i]? = some r ∧ hasArgs r = true := by
  induction rules generalizing c i with
  | nil => cases h
  | cons r rules ih =>
    rw [executed, List.mem_append] at h
    have next (c' : Now) (h : j ∈ executed runs c' (i + 1) rules) :
        i ≤ j ∧ ∃ r', (r :: rules)[j - i]? = some r' ∧ hasArgs r' = true := by
      obtain ⟨h1, r', h2, h3⟩ := ih c' (i + 1) h
      refine ⟨by omega, r', ?_, h3⟩
      rw [show j - i = (j - (i + 1)) + 1 by omega, List.getElem?_cons_succ]
      exact h2
    rcases h with h | h
    · split at h
      · next hr =>
        rw [List.mem_singleton] at h
        subst h
        exact ⟨Nat.le_refl j, r, by simp, hr⟩
      · cases h
    · split at h
      · split at h
        · exact next _ h
        · cases h
      · exact next _ h

theorem mem_argsLeft {w : World} {rules : List Str} {x : Thing} (h : x ∈ argsLeft w rules) :
    ∃ i r, (rulesOf rules)[i]? = some r ∧ hasArgs r = true ∧ x = .args i := by
  unfold argsLeft at h
  split at h
  · cases h
  · split at h
    · cases h
    · obtain ⟨i, hi, rfl⟩ := List.mem_map.mp h
      obtain ⟨_, r, h1, h2⟩ := executed_colon _ _ _ _ _ hi
      exact ⟨i, r, by simpa using h1, h2, rfl⟩

/-- The number of `-f` on a command line is at least the number of names kept. -/
theorem names_le (e : Bool) : ∀ (args : List Str) (p : Bool) (n m : Nat),
    (argumentCount e p n m args).2 ≤ m + (if p then 1 else 0) + (args.filter (b!"-f").isPrefixOf).length
  | [], p, n, m => by cases p <;> simp [argumentCount]
  | a :: rest, true, n, m => by
    have := names_le e rest false n (m + 1)
    rw [argumentCount]
    have h2 : (rest.filter (b!"-f").isPrefixOf).length ≤ ((a :: rest).filter (b!"-f").isPrefixOf).length :=
      (List.Sublist.filter _ (List.sublist_cons_self a rest)).length_le
    simp only [Bool.false_eq_true, if_false, if_true] at this ⊢
    omega
  | a :: rest, false, n, m => by
    have h1 := names_le e rest false n m
    have h2 := names_le e rest false n (m + 1)
    have h3 := names_le e rest true n m
    have h4 := names_le e rest false (n + 1) m
    have hs : (rest.filter (b!"-f").isPrefixOf).length ≤ ((a :: rest).filter (b!"-f").isPrefixOf).length :=
      (List.Sublist.filter _ (List.sublist_cons_self a rest)).length_le
    simp only [Bool.false_eq_true, if_false, if_true] at h1 h2 h3 h4 ⊢
    rw [argumentCount]
    by_cases c1 : a.head? = some c!"-"
    · rw [if_pos c1]
      cases ht : a.tail with
      | nil => simp only; omega
      | cons c attached =>
        simp only
        by_cases c2 : c = c!"h" ∨ c = c!"v"
        · rw [if_pos c2]; simp only; omega
        · rw [if_neg c2]
          by_cases c3 : c = c!"D"
          · rw [if_pos c3]; omega
          · rw [if_neg c3]
            by_cases c4 : c = c!"V"
            · rw [if_pos c4]; omega
            · rw [if_neg c4]
              by_cases c5 : c = c!"f"
              · have hp : (b!"-f").isPrefixOf a = true := by
                  cases a with
                  | nil => cases ht
                  | cons x a =>
                    simp only [List.head?_cons, Option.some.injEq] at c1
                    simp only [List.tail_cons] at ht
                    subst c1 ht c5
                    simp
                have hl : ((a :: rest).filter (b!"-f").isPrefixOf).length = (rest.filter (b!"-f").isPrefixOf).length + 1 := by
                  rw [List.filter_cons_of_pos hp, List.length_cons]
                rw [if_pos c5, hl]
                split <;> omega
              · rw [if_neg c5]
                split
                · omega
                · simp only; omega
    · rw [if_neg c1]; omega

/-- The rules of an accepted command line are among its arguments. -/
theorem rules_sub (e : Bool) : ∀ (args : List Str) (p : Bool) (o0 o : MakeMain.Opts),
    MakeMain.argLoop e p args o0 = .ok o → ∀ r ∈ o.rules, r ∈ o0.rules ∨ r ∈ args
  | [], p, o0, o, h => by
    cases p <;> simp only [MakeMain.argLoop, Except.ok.injEq] at h <;> subst h <;> exact fun r hr => .inl hr
  | v :: rest, true, o0, o, h => fun r hr => by
    rcases rules_sub e rest false { o0 with blogcfile := some v } o h r hr with h | h
    · exact .inl h
    · exact .inr (List.mem_cons_of_mem _ h)
  | a :: rest, false, o0, o, h => fun r hr => by
    have key (p : Bool) (o1 : MakeMain.Opts) (h1 : o1.rules = o0.rules) (h : MakeMain.argLoop e p rest o1 = .ok o) :
        r ∈ o0.rules ∨ r ∈ a :: rest := by
      rcases rules_sub e rest p o1 o h r hr with h | h
      · exact .inl (h1 ▸ h)
      · exact .inr (List.mem_cons_of_mem _ h)
    rw [MakeMain.argLoop] at h
    by_cases c1 : a.head? = some c!"-"
    · rw [if_pos c1] at h
      cases ht : a.tail with
      | nil => rw [ht] at h; cases h
      | cons c attached =>
        rw [ht] at h
        simp only at h
        repeat' split at h
        all_goals first | exact key _ { o0 with dev := true } rfl h | exact key _ { o0 with verbose := true } rfl h |
          exact key _ { o0 with blogcfile := some attached } rfl h | exact key _ o0 rfl h | cases h
    · rw [if_neg c1] at h
      rcases rules_sub e rest false { o0 with rules := o0.rules ++ [a] } o h r hr with h | h
      · rcases List.mem_append.mp h with h | h
        · exact .inl h
        · exact .inr (by rw [List.mem_singleton] at h; simp [h])
      · exact .inr (List.mem_cons_of_mem _ h)

theorem strchr_mem {c : Byte} : ∀ {s : Str} {p : Str × Str}, Make.strchr c s = some p → c ∈ s
  | [], _, h => by cases h
  | x :: r, p, h => by
    rw [Make.strchr] at h
    split at h
    · next e => simp [e]
    · cases hr : Make.strchr c r with
      | none => rw [hr] at h; cases h
      | some q => exact List.mem_cons_of_mem _ (strchr_mem hr)

/-- A rule that keeps a table has a colon. -/
theorem hasArgs_mem {r : Str} (h : hasArgs r = true) : c!":" ∈ r := by
  cases hc : Make.strchr c!":" r with
  | none => rw [hasArgs_colon hc] at h; cases h
  | some p => exact strchr_mem hc

/-- Unless the process is killed, what is left is a table of arguments of a rule with a colon, or the name of a settings
file after which another one was given. -/
theorem leftover_partial (w : World) (args : List Str) (hk : killed w args = false) (l : InUse)
    (h : inUse (mainEvents w args) nothing = some l) (x : Thing) (hx : l x = true) :
    (∃ i, x = .args i ∧ ∃ r ∈ args, c!":" ∈ r)
      ∨ ∃ i, x = .blogcfile i ∧ i + 1 < (args.filter (b!"-f").isPrefixOf).length := by
  rw [main_ok, Option.some.injEq] at h
  rw [← h, plus_nothing] at hx
  have hlost (h : x ∈ lost (argumentCount w.embedded false 0 0 args).2) :
      ∃ i, x = .blogcfile i ∧ i + 1 < (args.filter (b!"-f").isPrefixOf).length := by
    obtain ⟨i, h1, h2⟩ := mem_lost h
    have := names_le w.embedded args false 0 0
    simp only [Bool.false_eq_true, if_false] at this
    exact ⟨i, h2, by omega⟩
  unfold leftOver at hx
  unfold killed at hk
  cases ho : MakeMain.argLoop w.embedded false args {} with
  | error st => rw [ho] at hx; exact .inr (hlost hx)
  | ok o =>
    rw [ho] at hx hk
    simp only at hx hk
    unfold remains at hx
    cases hs : w.load.shape with
    | none => rw [hs] at hx; exact .inr (hlost hx)
    | some s =>
      rw [hs] at hx hk
      simp only at hx hk
      cases hm : w.notMake with
      | true => rw [hm, if_pos rfl] at hx; exact .inr (hlost hx)
      | false =>
        rw [hm] at hx hk
        have hend : (endCtx w o.rules s).2 = false := by simpa [endCtx] using hk
        rw [hend] at hx
        simp only [Bool.false_eq_true, if_false] at hx
        rcases List.mem_append.mp hx with hx | hx
        · obtain ⟨i, r, h1, h2, rfl⟩ := mem_argsLeft hx
          have hc := hasArgs_mem h2
          refine .inl ⟨i, rfl, r, ?_, hc⟩
          have hr : r ∈ rulesOf o.rules := List.mem_of_getElem? h1
          unfold rulesOf at hr
          split at hr
          · rw [List.mem_singleton] at hr
            subst hr
            exact absurd hc (by decide)
          · rcases rules_sub _ _ _ _ _ ho r hr with h | h
            · cases h
            · exact h
        · exact .inr (hlost hx)

/-- Unless the process is killed, a run without arguments of rules and with `-f` at most once gives back all it took. -/
theorem returned_partial (w : World) (args : List Str) (hk : killed w args = false) (h1 : ∀ r ∈ args, c!":" ∉ r)
    (h2 : (args.filter (b!"-f").isPrefixOf).length ≤ 1) : inUse (mainEvents w args) nothing = some nothing := by
  obtain ⟨l, hl⟩ := safe w args
  rw [hl]
  refine congrArg some (funext fun x => ?_)
  cases hx : l x with
  | false => rfl
  | true =>
    rcases leftover_partial w args hk l hl x hx with ⟨_, _, r, hr, hc⟩ | ⟨i, _, hi⟩
    · exact absurd hc (h1 r hr)
    · omega

/-- Unless the process is killed, no temporary file is left behind. -/
theorem no_file_partial (w : World) (args : List Str) (hk : killed w args = false) (l : InUse)
    (h : inUse (mainEvents w args) nothing = some l) (x : Thing) (hx : l x = true) : outlives x = false := by
  rcases leftover_partial w args hk l h x hx with ⟨_, rfl, _⟩ | ⟨_, rfl, _⟩ <;> rfl

/-! ## Watching -/

theorem ofContext_iff {g : Nat} {s : Shape} {x : Thing} : x ∈ outer ++ inner g s ↔ OfContext g s x := by
  simp only [outer, inner, List.mem_append, mem_numbered]
  cases x <;> cases hs : s.ownAtom <;> cases he : s.entry <;> simp [OfContext, hs, he]

theorem watchEnd_shape (rounds : List Round) (c : Now) :
    (watchEnd c rounds).s = c.s
      ∨ ∃ r ∈ rounds, ∃ load, r.reread = some load ∧ load.shape = some (watchEnd c rounds).s := by
  induction rounds generalizing c with
  | nil => exact .inl rfl
  | cons r rounds ih =>
    rw [watchEnd]
    cases hn : c.next r.reread with
    | none => exact .inl rfl
    | some c' =>
      simp only
      rcases ih c' with h | ⟨r', h1, h2⟩
      · cases hr : r.reread with
        | none =>
          rw [hr] at hn
          cases hn
          exact .inl h
        | some load =>
          rw [hr] at hn
          simp only [Now.next] at hn
          cases hs : load.shape with
          | none => rw [hs] at hn; cases hn
          | some s =>
            rw [hs] at hn
            cases hn
            exact .inr ⟨r, by simp, load, hr, by rw [h, hs]⟩
      · exact .inr ⟨r', by simp [h1], h2⟩

/-- After any number of rounds of watching, what is in use is the name of the rule and one context, made from the first
settings or from those of one of the rounds: it does not grow with the number of rounds. -/
theorem watching (w : World) (rounds : List Round) (good : Bool) (s : Shape) (hs : w.load.shape = some s)
    (hm : w.notMake = false) (hr : w.runs 0 = .watch rounds true good) :
    ∃ l g s', inUse (mainEvents w [b!"watch"]) nothing = some l
      ∧ (s' = s ∨ ∃ r ∈ rounds, ∃ load, r.reread = some load ∧ load.shape = some s')
      ∧ ∀ x, l x = true ↔ x = .rule 0 ∨ OfContext g s' x := by
  refine ⟨_, (watchEnd ⟨0, s⟩ rounds).g, (watchEnd ⟨0, s⟩ rounds).s, main_ok w _, watchEnd_shape rounds ⟨0, s⟩, fun x => ?_⟩
  have h1 : MakeMain.argLoop w.embedded false [b!"watch"] {} = .ok { rules := [b!"watch"] } := by
    cases w.embedded <;> rfl
  have h2 : argumentCount w.embedded false 0 0 [b!"watch"] = (1, 0) := by cases w.embedded <;> decide +kernel
  have h3 : isRule b!"watch" = true := by decide +kernel
  have h4 : hasArgs b!"watch" = false := by decide +kernel
  have h5 : rulesOf [b!"watch"] = [b!"watch"] := rfl
  have h6 : endCtx w [b!"watch"] s = (watchEnd ⟨0, s⟩ rounds, true) := by
    rw [endCtx, h5, executorEnd, if_pos h3, hr]
    rfl
  have h7 : argsLeft w [b!"watch"] = [] := by
    simp only [argsLeft, hs, hm, h5, Bool.false_eq_true, if_false]
    rw [executed, if_pos h3, hr, h4]
    rfl
  rw [plus_nothing, leftOver, h1]
  simp only [h2]
  rw [remains, hs]
  simp only [hm, h6, h7, h5, Bool.false_eq_true, if_false, if_true, List.nil_append, List.append_assoc]
  rw [List.mem_append, ofContext_iff, mem_kept]
  constructor
  · rintro ((⟨i, _, h, rfl⟩ | ⟨i, _, h, _⟩) | h)
    · exact .inl (by rw [show i = 0 by simpa using h])
    · omega
    · exact .inr h
  · rintro (rfl | h)
    · exact .inl (.inl ⟨0, by simp⟩)
    · exact .inr h

/-- The rule `clean` succeeds just if every file it looks at is removed or cannot be read: `l` says which of the files are
there. -/
theorem clean_status (rs : Nat → Removed) (l : List Bool) :
    cleanGood rs 0 l = true ↔ ∀ i, l[i]? = some true → (rs i).good = true := by
  suffices h : ∀ k, cleanGood rs k l = true ↔ ∀ i, l[i]? = some true → (rs (k + i)).good = true by
    simpa using h 0
  induction l with
  | nil => simp [cleanGood]
  | cons b l ih =>
    intro k
    have hnext : (∀ i, l[i]? = some true → (rs (k + 1 + i)).good = true) ↔
        ∀ i, l[i]? = some true → (rs (k + (i + 1))).good = true := by
      simp only [show ∀ i, k + 1 + i = k + (i + 1) by omega]
    cases b with
    | false =>
      rw [cleanGood, ih, hnext]
      constructor
      · intro h i hi
        cases i with
        | zero => simp at hi
        | succ i => exact h i hi
      · intro h i hi
        exact h (i + 1) hi
    | true =>
      rw [cleanGood]
      by_cases hk : (rs k).good
      · rw [if_pos hk, ih, hnext]
        constructor
        · intro h i hi
          cases i with
          | zero => exact hk
          | succ i => exact h i hi
        · intro h i hi
          exact h (i + 1) hi
      · rw [if_neg hk]
        constructor
        · intro h; cases h
        · intro h; exact absurd (h 0 rfl) hk

example : cleanGood (fun i => if i = 2 then .noUnlink else .removed [] (.top true)) 0 [true, false, true] = false ∧
    cleanGood (fun i => if i = 1 then .noUnlink else .removed [] (.top true)) 0 [true, false, true] = true := by
  decide

/-- At whatever moment a run is broken off, nothing was used or released until then that was not in use. -/
theorem any_moment (w : World) (args : List Str) (before after : List Event) (h : mainEvents w args = before ++ after) :
    ∃ l, inUse before nothing = some l := by
  obtain ⟨l, hl⟩ := safe w args
  rw [h, inUse_append] at hl
  cases hb : inUse before nothing with
  | none => rw [hb] at hl; cases hl
  | some l' => exact ⟨l', rfl⟩

/-! ## A sample -/

/-- Two posts, a page and a directory with a file to copy. -/
def shape : Shape where
  ownAtom := false
  locale := true
  tags := true
  entry := true
  posts := 2
  pages := 1
  copy := [.dir (.cons .file .nil), .gone]

/-- The listing is made anew, and the posts are copied, one of them not. -/
def builds : List Build :=
  [.listing false 2 [.made true (.ended true false 0)], .pairs false 1 [.fresh, .made false (.ended false false 0)],
    .paginationTags 1 (fun _ => 1) [(.ended true false 0, [.made true (.ended false false 0)])],
    .copy [.made false .done]]

def world : World where
  embedded := true
  blogc := ⟨true, true⟩
  runserver := ⟨true, false⟩
  load := .good true shape
  notMake := false
  runs
    | 0 => .all builds
    | 1 => .watch [⟨none, builds⟩, ⟨some (.good true shape), builds⟩, ⟨some .badConfig, []⟩] false true
    | _ => .clean builds (fun _ => .removed [true] (.top true)) true

example : killed world [b!"-f", b!"site", b!"all", b!"watch", b!"clean"] = false := by decide +kernel

example : 100 < (mainEvents world [b!"-f", b!"site", b!"all", b!"watch", b!"clean"]).length := by decide +kernel

example : inUse (mainEvents world [b!"-f", b!"site", b!"all", b!"watch", b!"clean"]) nothing = some nothing :=
  returned_partial world _ (by decide +kernel) (by decide +kernel) (by decide +kernel)

/-- A world where watching is interrupted. -/
def watched : World :=
  { world with runs := fun _ => .watch [⟨none, builds⟩, ⟨some (.good true shape), builds⟩] true true }

example : ∃ rounds good s, watched.load.shape = some s ∧ watched.notMake = false
    ∧ watched.runs 0 = .watch rounds true good := ⟨_, _, _, rfl, rfl, rfl⟩

/-! ## Where it does not hold -/

/-- The table of the arguments of a rule is never freed. -/
theorem arguments_violated :
    (inUse (mainEvents world [b!"all:a=b"]) nothing).map (fun l => (l (.args 0), l .ctx)) = some (true, false) := by
  decide +kernel

/-- A second `-f`: the first name is lost. -/
theorem names_violated :
    (inUse (mainEvents world [b!"-f", b!"a", b!"-fb"]) nothing).map (fun l => (l (.blogcfile 0), l (.blogcfile 1)))
      = some (true, false) := by
  decide +kernel

/-- An interrupt while watching: the temporary file with the Atom template stays. -/
theorem interrupted_violated :
    ∃ l x, inUse (mainEvents watched [b!"watch"]) nothing = some l ∧ killed watched [b!"watch"] = true ∧ l x = true
      ∧ outlives x = true := by
  obtain ⟨l, g, s', h1, h2, h3⟩ := watching watched _ _ shape rfl rfl rfl
  refine ⟨l, .atomFile g, h1, by decide +kernel, (h3 _).mpr (.inr ⟨rfl, ?_⟩), rfl⟩
  rcases h2 with rfl | ⟨r, hr, load, h4, h5⟩
  · rfl
  · simp only [List.mem_cons, List.not_mem_nil, or_false] at hr
    rcases hr with rfl | rfl
    · cases h4
    · cases h4
      cases h5
      rfl

end Blogc.C116
