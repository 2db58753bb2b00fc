import Verif.Model.MakeCommand
import Verif.Model.MakeSite

/-!
# C99: running a command leaves no descriptor and no process behind
-/

namespace Blogc.C99

open Blogc Blogc.Command

/-! ## Specification -/

/-- No pipe of `bm_exec_command` is open. -/
def NoPipes (t : Fds) : Prop := ∀ fd f, t fd = some f → ∃ n, f = .inherited n

/-- A process whose standard streams are the pipes. It has the files that were open
with the descriptors from 3 on, and no end of a pipe that belongs to its parent. -/
structure Connected (t c : Fds) : Prop where
  input : c 0 = some (.readEnd .input)
  output : c 1 = some (.writeEnd .output)
  error : c 2 = some (.writeEnd .error)
  kept : ∀ fd f, 3 ≤ fd → t fd = some f → c fd = some f
  own : ∀ fd, c fd ≠ some (.writeEnd .input) ∧ c fd ≠ some (.readEnd .output) ∧ c fd ≠ some (.readEnd .error)

/-- All the bytes that were read; NULL if there are none. -/
def Collected (r : Reads) (v : Option Str) : Prop :=
  v = if r.chunks = [] then none else some r.chunks.flatten

/-- The status a shell would show. -/
def Shows : Wait → Nat → Prop
  | .exited n, v => v = n
  | .killed s, v => v = 128 + s

/-- `n` more descriptors can be opened. -/
def Free (limit n : Nat) (t : Fds) : Prop :=
  ∃ l : List Nat, l.Nodup ∧ l.length = n ∧ ∀ fd ∈ l, fd < limit ∧ t fd = none

/-- Why running a command failed. -/
def Cause (env : Env) (input : Option Str) (t : Fds) : Failure → Prop
  | .pipe .input => env.pipeIn = false ∨ ¬ Free env.limit 6 t
  | .pipe .output => env.pipeOut = false ∨ ¬ Free env.limit 6 t
  | .pipe .error => env.pipeErr = false ∨ ¬ Free env.limit 6 t
  | .fork => env.fork = false
  | .write => env.write = false ∧ input ≠ none
  | .read .input => False
  | .read .output => env.out.ok = false
  | .read .error => env.err.ok = false

/-- The command was started before this failure. -/
def Started : Failure → Prop
  | .pipe _ | .fork => False
  | .write | .read _ => True

/-! ## Proof -/

theorem find?_range_some {p : Nat → Bool} {n i : Nat} (h : (List.range n).find? p = some i) :
    p i = true ∧ ∀ j < i, p j = false := by
  obtain ⟨hp, as, bs, heq, hall⟩ := List.find?_eq_some_iff_append.1 h
  refine ⟨hp, fun j hj => ?_⟩
  have hlen : as.length = i := by
    have h1 : (List.range n)[as.length]? = some i := by rw [heq]; simp
    rw [List.getElem?_range] at h1
    · simpa using h1
    · have := congrArg List.length heq
      simp at this
      omega
  have hj' : j < as.length := by omega
  have h2 : (List.range n)[j]? = as[j]? := by rw [heq, List.getElem?_append_left hj']
  have hn : j < n := by
    have := congrArg List.length heq
    simp at this
    omega
  rw [List.getElem?_range hn] at h2
  have h3 : j ∈ as := List.mem_of_getElem? h2.symm
  simpa using hall j h3

theorem lowest_some {limit : Nat} {t : Fds} {i : Nat} (h : lowest limit t = some i) :
    t i = none ∧ ∀ j < i, t j ≠ none := by
  obtain ⟨h1, h2⟩ := find?_range_some h
  refine ⟨by simpa using h1, fun j hj => ?_⟩
  have := h2 j hj
  intro e
  rw [e] at this
  cases this

/-- What `pipe` does. -/
theorem pipe_some {limit : Nat} {ok : Bool} {p : Pipe} {t t' : Fds} {r w : Nat}
    (h : pipe limit ok p t = some (r, w, t')) :
    t r = none ∧ t w = none ∧ r < w ∧ (∀ j < w, t j ≠ none ∨ j = r) ∧ (∀ j < r, t j ≠ none) ∧
      t' = opened (opened t r (.readEnd p)) w (.writeEnd p) := by
  unfold pipe at h
  split at h
  · cases h
  cases h1 : lowest limit t with
  | none => simp [h1] at h
  | some r' =>
    cases h2 : lowest limit (opened t r' (.readEnd p)) with
    | none => simp [h1, h2] at h
    | some w' =>
      simp only [h1, h2, bind, Option.bind, pure, Option.some.injEq, Prod.mk.injEq] at h
      obtain ⟨rfl, rfl, rfl⟩ := h
      obtain ⟨a1, a2⟩ := lowest_some h1
      obtain ⟨b1, b2⟩ := lowest_some h2
      have hne : w' ≠ r' := by
        rintro rfl
        simp [opened] at b1
      have b1' : t w' = none := by simpa [opened, hne] using b1
      have hlt : r' < w' := by
        rcases Nat.lt_or_ge r' w' with h | h
        · exact h
        · exact absurd b1' (a2 w' (by omega))
      refine ⟨a1, b1', hlt, fun j hj => ?_, a2, rfl⟩
      by_cases e : j = r'
      · exact .inr e
      · exact .inl (by simpa [opened, e] using b2 j hj)

theorem opened_none {t : Fds} {i fd : Nat} {f : File} : opened t i f fd = none ↔ fd ≠ i ∧ t fd = none := by
  simp only [opened]
  split <;> simp_all

theorem dup2_open {t : Fds} {fd fd' : Nat} {f : File} (h : t fd = some f) : dup2 t fd fd' = opened t fd' f := by
  simp only [dup2, h]

theorem collect_fds (env : Env) (t : Fds) (inW outR errR : Nat) (c : Fds) (w : List (Option File × Str)) :
    (collect env t inW outR errR c w).fds = close (close (close t inW) outR) errR := by
  unfold collect
  split
  · rfl
  · split
    · rfl
    · split <;> rfl

theorem collect_child (env : Env) (t : Fds) (inW outR errR : Nat) (c : Fds) (w : List (Option File × Str)) :
    (collect env t inW outR errR c w).child = some c := by
  unfold collect
  split
  · rfl
  · split
    · rfl
    · split <;> rfl

theorem collect_wrote (env : Env) (t : Fds) (inW outR errR : Nat) (c : Fds) (w : List (Option File × Str)) :
    (collect env t inW outR errR c w).wrote = w := by
  unfold collect
  split
  · rfl
  · split
    · rfl
    · split <;> rfl

/-- Whatever fails, the process has the descriptors it had before. -/
theorem restored (env : Env) (input : Option Str) (t : Fds) : (command env input t).fds = t := by
  unfold command
  split
  · rfl
  rename_i i0 i1 t1 h1
  obtain ⟨a1, a2, a3, -, -, rfl⟩ := pipe_some h1
  split
  · funext fd; simp only [failed, close, opened]; grind
  rename_i o0 o1 t2 h2
  obtain ⟨b1, b2, b3, -, -, rfl⟩ := pipe_some h2
  simp only [opened_none] at b1 b2
  split
  · clear h1 h2
    funext fd; simp only [failed, close, opened]; grind
  rename_i e0 e1 t3 h3
  obtain ⟨c1, c2, c3, -, -, rfl⟩ := pipe_some h3
  simp only [opened_none] at c1 c2
  clear h1 h2 h3
  split
  · funext fd; simp only [failed, close, opened]; grind
  dsimp only
  split
  · rw [collect_fds]; funext fd; simp only [close, opened]; grind
  · split
    · funext fd; simp only [close, opened]; grind
    · rw [collect_fds]; funext fd; simp only [close, opened]; grind

theorem connected_child {limit : Nat} {k1 k2 k3 : Bool} {t t1 t2 t3 : Fds} {i0 i1 o0 o1 e0 e1 : Nat} (hn : NoPipes t)
    (h1 : pipe limit k1 .input t = some (i0, i1, t1)) (h2 : pipe limit k2 .output t1 = some (o0, o1, t2))
    (h3 : pipe limit k3 .error t2 = some (e0, e1, t3)) : Connected t (child t3 i0 i1 o0 o1 e0 e1) := by
  obtain ⟨a1, a2, a3, a4, a5, rfl⟩ := pipe_some h1
  obtain ⟨b1, b2, b3, b4, b5, rfl⟩ := pipe_some h2
  obtain ⟨c1, c2, c3, c4, c5, rfl⟩ := pipe_some h3
  simp only [opened_none] at b1 b2 b5 c1 c2 c5
  have hio : i1 < o0 := by grind
  have hoe : o1 < e0 := by
    rcases Nat.lt_or_ge o1 e0 with h | h
    · exact h
    · rcases b4 e0 (by omega) with h' | h'
      · exact absurd (opened_none.2 ⟨c1.2.2.1, opened_none.2 ⟨c1.2.2.2.1, c1.2.2.2.2⟩⟩) h'
      · exact absurd h' c1.2.1
  clear h1 h2 h3 b4 b5 c4 c5
  have key : child (opened (opened (opened (opened (opened (opened t i0 (.readEnd .input)) i1 (.writeEnd .input))
        o0 (.readEnd .output)) o1 (.writeEnd .output)) e0 (.readEnd .error)) e1 (.writeEnd .error)) i0 i1 o0 o1 e0 e1 =
      fun fd => if fd = 2 then some (.writeEnd .error) else if fd = 1 then some (.writeEnd .output)
        else if fd = 0 then some (.readEnd .input) else if fd = e1 then some (.writeEnd .error)
        else if fd = o1 then some (.writeEnd .output) else if fd = i0 then some (.readEnd .input)
        else if fd = i1 ∨ fd = o0 ∨ fd = e0 then none else t fd := by
    have hT : close (close (close (opened (opened (opened (opened (opened (opened t i0 (.readEnd .input)) i1
        (.writeEnd .input)) o0 (.readEnd .output)) o1 (.writeEnd .output)) e0 (.readEnd .error)) e1 (.writeEnd .error))
        i1) o0) e0 = fun fd => if fd = e1 then some (.writeEnd .error)
        else if fd = o1 then some (.writeEnd .output) else if fd = i0 then some (.readEnd .input)
        else if fd = i1 ∨ fd = o0 ∨ fd = e0 then none else t fd := by
      funext fd
      simp only [close, opened]
      grind
    simp only [child]
    rw [hT, dup2_open (fd' := 0) (f := .readEnd .input), dup2_open (fd' := 1) (f := .writeEnd .output),
      dup2_open (fd' := 2) (f := .writeEnd .error)]
    · funext fd
      simp only [opened]
    · simp only [opened]
      grind
    · simp only [opened]
      grind
    · grind
  rw [key]
  have hp : ∀ fd p, t fd ≠ some (.readEnd p) ∧ t fd ≠ some (.writeEnd p) := by
    intro fd p
    constructor <;> intro e <;> obtain ⟨n, hn⟩ := hn fd _ e <;> cases hn
  constructor
  · simp
  · simp
  · simp
  · intro fd f hfd hf
    grind
  · intro fd
    have := hp fd
    grind

/-- The command is connected to the pipes, whatever was open before: also when
blogc-make has no standard streams. -/
theorem connected (env : Env) (input : Option Str) (t : Fds) (hn : NoPipes t) (c : Fds)
    (h : (command env input t).child = some c) : Connected t c := by
  unfold command at h
  split at h
  · cases h
  rename_i h1
  split at h
  · cases h
  rename_i h2
  split at h
  · cases h
  rename_i h3
  split at h
  · cases h
  dsimp only at h
  have hc := connected_child hn h1 h2 h3
  split at h
  · rw [collect_child] at h
    cases h
    exact hc
  · split at h
    · cases h
      exact hc
    · rw [collect_child] at h
      cases h
      exact hc

theorem readLoop_ok (chunks : List Str) (h : ∀ c ∈ chunks, c ≠ []) (out : Option Str) :
    readLoop true chunks out = some (if chunks = [] then out else some (out.getD [] ++ chunks.flatten)) := by
  induction chunks generalizing out with
  | nil => rfl
  | cons c rest ih =>
    rw [readLoop, if_neg (h c (by simp)), ih (fun x hx => h x (by simp [hx]))]
    by_cases hr : rest = []
    · subst hr; simp
    · rw [if_neg hr, if_neg (by simp)]; simp

theorem readLoop_some (ok : Bool) (chunks : List Str) (out v : Option Str) (h : ∀ c ∈ chunks, c ≠ [])
    (hv : readLoop ok chunks out = some v) : ok = true := by
  induction chunks generalizing out with
  | nil => cases ok with
    | true => rfl
    | false => simp [readLoop] at hv
  | cons c rest ih =>
    rw [readLoop, if_neg (h c (by simp))] at hv
    exact ih _ (fun x hx => h x (by simp [hx])) hv

/-- What a command that could be run leaves. -/
theorem finished (env : Env) (input : Option Str) (t : Fds) (rv : Nat)
    (ho : ∀ c ∈ env.out.chunks, c ≠ []) (he : ∀ c ∈ env.err.chunks, c ≠ [])
    (h : (command env input t).result = .ok (.ok rv)) :
    (∃ w, env.waited = some w ∧ Shows w rv) ∧ (command env input t).orphan = false ∧
    (∃ c, (command env input t).child = some c) ∧
    Collected env.out (command env input t).output ∧ Collected env.err (command env input t).error ∧
    (command env input t).wrote = input.toList.map fun text => (some (.writeEnd .input), text) := by
  have main : ∀ (t : Fds) (inW outR errR : Nat) (c : Fds) (w : List (Option File × Str)),
      (collect env t inW outR errR c w).result = .ok (.ok rv) →
      (∃ w, env.waited = some w ∧ Shows w rv) ∧ (collect env t inW outR errR c w).orphan = false ∧
      Collected env.out (collect env t inW outR errR c w).output ∧
      Collected env.err (collect env t inW outR errR c w).error := by
    intro t inW outR errR c w h
    unfold collect at h ⊢
    cases h1 : readLoop env.out.ok env.out.chunks none with
    | none => simp [h1] at h
    | some out =>
      cases h2 : readLoop env.err.ok env.err.chunks none with
      | none => simp [h1, h2] at h
      | some err =>
        cases h3 : env.waited with
        | none => simp [h1, h2, h3] at h
        | some w =>
          simp only [h1, h2, h3, Except.ok.injEq, Res.ok.injEq] at h ⊢
          have k1 := readLoop_some _ _ _ _ ho h1
          have k2 := readLoop_some _ _ _ _ he h2
          rw [k1, readLoop_ok _ ho] at h1
          rw [k2, readLoop_ok _ he] at h2
          cases h1
          cases h2
          refine ⟨⟨w, rfl, ?_⟩, trivial, rfl, rfl⟩
          subst h
          cases w with
          | exited n => rfl
          | killed s => exact Nat.add_comm _ _
  have hw : ∀ {t1 t2 t3 : Fds} {i0 i1 o0 o1 e0 e1 : Nat}, pipe env.limit env.pipeIn .input t = some (i0, i1, t1) →
      pipe env.limit env.pipeOut .output t1 = some (o0, o1, t2) →
      pipe env.limit env.pipeErr .error t2 = some (e0, e1, t3) →
      close (close (close t3 i0) o1) e1 i1 = some (.writeEnd .input) := by
    intro t1 t2 t3 i0 i1 o0 o1 e0 e1 h1 h2 h3
    obtain ⟨a1, a2, a3, a4, a5, rfl⟩ := pipe_some h1
    obtain ⟨b1, b2, b3, b4, b5, rfl⟩ := pipe_some h2
    obtain ⟨c1, c2, c3, c4, c5, rfl⟩ := pipe_some h3
    simp only [opened_none] at b1 b2 c1 c2
    simp only [close, opened]
    grind
  unfold command at h ⊢
  cases h1 : pipe env.limit env.pipeIn .input t with
  | none => simp [h1, failed] at h
  | some x =>
    obtain ⟨i0, i1, t1⟩ := x
    simp only [h1] at h ⊢
    cases h2 : pipe env.limit env.pipeOut .output t1 with
    | none => simp [h2, failed] at h
    | some x =>
      obtain ⟨o0, o1, t2⟩ := x
      simp only [h2] at h ⊢
      cases h3 : pipe env.limit env.pipeErr .error t2 with
      | none => simp [h3, failed] at h
      | some x =>
        obtain ⟨e0, e1, t3⟩ := x
        simp only [h3] at h ⊢
        cases h4 : env.fork with
        | false => simp [h4, failed] at h
        | true =>
          simp only [h4, Bool.not_true, Bool.false_eq_true, if_false] at h ⊢
          cases input with
          | none =>
            obtain ⟨m1, m2, m3, m4⟩ := main _ _ _ _ _ _ h
            exact ⟨m1, m2, ⟨_, collect_child ..⟩, m3, m4, collect_wrote ..⟩
          | some text =>
            simp only at h ⊢
            cases h5 : env.write with
            | false => simp [h5] at h
            | true =>
              simp only [h5, Bool.not_true, Bool.false_eq_true, if_false] at h ⊢
              obtain ⟨m1, m2, m3, m4⟩ := main _ _ _ _ _ _ h
              refine ⟨m1, m2, ⟨_, collect_child ..⟩, m3, m4, ?_⟩
              rw [collect_wrote, hw h1 h2 h3]
              rfl

theorem lowest_free {limit n : Nat} {t : Fds} (h : Free limit (n + 1) t) :
    ∃ fd, lowest limit t = some fd ∧ ∀ f, Free limit n (opened t fd f) := by
  obtain ⟨l, hd, hl, hall⟩ := h
  obtain ⟨x, hx⟩ : ∃ x, x ∈ l := List.exists_mem_of_length_pos (by omega)
  cases hfd : lowest limit t with
  | none =>
    have := List.find?_eq_none.1 hfd x (by simpa using (hall x hx).1)
    simp [(hall x hx).2] at this
  | some fd =>
    refine ⟨fd, rfl, fun f => ?_⟩
    by_cases hm : fd ∈ l
    · refine ⟨l.erase fd, hd.erase fd, by rw [List.length_erase_of_mem hm]; omega, fun y hy => ?_⟩
      obtain ⟨h1, h2⟩ := (List.Nodup.mem_erase_iff hd).1 hy
      exact ⟨(hall y h2).1, opened_none.2 ⟨h1, (hall y h2).2⟩⟩
    · refine ⟨l.tail, hd.tail, by rw [List.length_tail]; omega, fun y hy => ?_⟩
      have h2 := List.mem_of_mem_tail hy
      exact ⟨(hall y h2).1, opened_none.2 ⟨fun e => hm (e ▸ h2), (hall y h2).2⟩⟩

theorem pipe_free {limit n : Nat} {p : Pipe} {t : Fds} (h : Free limit (n + 2) t) :
    ∃ r w t', pipe limit true p t = some (r, w, t') ∧ Free limit n t' := by
  obtain ⟨r, h1, h2⟩ := lowest_free h
  obtain ⟨w, h3, h4⟩ := lowest_free (h2 (.readEnd p))
  exact ⟨r, w, opened (opened t r (.readEnd p)) w (.writeEnd p), by simp [pipe, h1, h3], h4 _⟩

theorem readLoop_isSome (chunks : List Str) (out : Option Str) : ∃ v, readLoop true chunks out = some v := by
  induction chunks generalizing out with
  | nil => exact ⟨_, rfl⟩
  | cons c rest ih =>
    rw [readLoop]
    split
    · exact ⟨_, rfl⟩
    · exact ih _

/-- A command is run to its end when there are descriptors for the pipes and no call
fails. -/
theorem runs (env : Env) (input : Option Str) (t : Fds) (w : Wait) (hfree : Free env.limit 6 t)
    (hp : env.pipeIn = true ∧ env.pipeOut = true ∧ env.pipeErr = true) (hf : env.fork = true)
    (hw : env.write = true) (ho : env.out.ok = true) (he : env.err.ok = true) (hwait : env.waited = some w) :
    ∃ rv, (command env input t).result = .ok (.ok rv) ∧ Shows w rv := by
  obtain ⟨i0, i1, t1, h1, f1⟩ := pipe_free (p := .input) hfree
  obtain ⟨o0, o1, t2, h2, f2⟩ := pipe_free (p := .output) f1
  obtain ⟨e0, e1, t3, h3, -⟩ := pipe_free (p := .error) f2
  obtain ⟨out, ho'⟩ := readLoop_isSome env.out.chunks none
  obtain ⟨err, he'⟩ := readLoop_isSome env.err.chunks none
  refine ⟨statusCode w, ?_, ?_⟩
  · unfold command
    simp only [hp.1, hp.2.1, hp.2.2, h1, h2, h3, hf, hw, Bool.not_true, Bool.false_eq_true, if_false]
    cases input with
    | none => simp only [collect, ho, he, ho', he', hwait]
    | some text => simp only [collect, ho, he, ho', he', hwait]
  · cases w with
    | exited n => rfl
    | killed s => exact Nat.add_comm _ _

/-- A failure that is reported has happened. Before the command is started, there is
no process. -/
theorem failure (env : Env) (input : Option Str) (t : Fds) (f : Failure) (h : (command env input t).result = .error f) :
    Cause env input t f ∧
    (¬ Started f → (command env input t).child = none ∧ (command env input t).orphan = false) := by
  have main : ∀ (t : Fds) (inW outR errR : Nat) (c : Fds) (w : List (Option File × Str)),
      (collect env t inW outR errR c w).result = .error f →
      f = .read .output ∧ env.out.ok = false ∨ f = .read .error ∧ env.err.ok = false := by
    intro t inW outR errR c w h
    unfold collect at h
    cases h1 : readLoop env.out.ok env.out.chunks none with
    | none =>
      simp only [h1] at h
      cases h
      refine .inl ⟨rfl, ?_⟩
      cases ho : env.out.ok with
      | false => rfl
      | true =>
        obtain ⟨v, hv⟩ := readLoop_isSome env.out.chunks none
        rw [ho, hv] at h1
        cases h1
    | some out =>
      cases h2 : readLoop env.err.ok env.err.chunks none with
      | none =>
        simp only [h1, h2] at h
        cases h
        refine .inr ⟨rfl, ?_⟩
        cases ho : env.err.ok with
        | false => rfl
        | true =>
          obtain ⟨v, hv⟩ := readLoop_isSome env.err.chunks none
          rw [ho, hv] at h2
          cases h2
      | some err =>
        cases h3 : env.waited with
        | none => simp [h1, h2, h3] at h
        | some w => simp [h1, h2, h3] at h
  have key : ∀ {n : Nat} {ok : Bool} {p : Pipe} {t' : Fds}, pipe env.limit ok p t' = none →
      (Free env.limit 6 t → Free env.limit (n + 2) t') → ok = false ∨ ¬ Free env.limit 6 t := by
    intro n ok p t' hn hf
    cases ok with
    | false => exact .inl rfl
    | true =>
      refine .inr fun h => ?_
      obtain ⟨r, w, t'', h', -⟩ := pipe_free (p := p) (hf h)
      rw [hn] at h'
      cases h'
  have step : ∀ {n : Nat} {ok : Bool} {p : Pipe} {t1 t2 : Fds} {r w : Nat}, pipe env.limit ok p t1 = some (r, w, t2) →
      (Free env.limit 6 t → Free env.limit (n + 2) t1) → Free env.limit 6 t → Free env.limit n t2 := by
    intro n ok p t1 t2 r w hs hf h
    obtain ⟨r', w', t'', h', hfree⟩ := pipe_free (p := p) (hf h)
    cases ok with
    | false => cases hs
    | true =>
      rw [hs] at h'
      cases h'
      exact hfree
  unfold command at h ⊢
  cases h1 : pipe env.limit env.pipeIn .input t with
  | none =>
    simp only [h1, failed] at h ⊢
    cases h
    exact ⟨key h1 id, fun _ => ⟨trivial, trivial⟩⟩
  | some x =>
    obtain ⟨i0, i1, t1⟩ := x
    simp only [h1] at h ⊢
    have f1 := step (n := 4) h1 id
    cases h2 : pipe env.limit env.pipeOut .output t1 with
    | none =>
      simp only [h2, failed] at h ⊢
      cases h
      exact ⟨key h2 f1, fun _ => ⟨trivial, trivial⟩⟩
    | some x =>
      obtain ⟨o0, o1, t2⟩ := x
      simp only [h2] at h ⊢
      have f2 := step (n := 2) h2 f1
      cases h3 : pipe env.limit env.pipeErr .error t2 with
      | none =>
        simp only [h3, failed] at h ⊢
        cases h
        exact ⟨key h3 f2, fun _ => ⟨trivial, trivial⟩⟩
      | some x =>
        obtain ⟨e0, e1, t3⟩ := x
        simp only [h3] at h ⊢
        cases h4 : env.fork with
        | false =>
          simp only [h4, failed, Bool.not_false, if_true] at h ⊢
          cases h
          exact ⟨h4, fun _ => ⟨trivial, trivial⟩⟩
        | true =>
          simp only [h4, Bool.not_true, Bool.false_eq_true, if_false] at h ⊢
          cases input with
          | none => rcases main _ _ _ _ _ _ h with ⟨rfl, hh⟩ | ⟨rfl, hh⟩ <;> exact ⟨hh, fun hs => absurd trivial hs⟩
          | some text =>
            simp only at h ⊢
            cases h5 : env.write with
            | false =>
              simp only [h5, Bool.not_false, if_true] at h ⊢
              cases h
              exact ⟨⟨h5, by simp⟩, fun hs => absurd trivial hs⟩
            | true =>
              simp only [h5, Bool.not_true, Bool.false_eq_true, if_false] at h ⊢
              rcases main _ _ _ _ _ _ h with ⟨rfl, hh⟩ | ⟨rfl, hh⟩ <;> exact ⟨hh, fun hs => absurd trivial hs⟩

/-- A command that was started is left behind if and only if a failure is reported or
its status could not be had. -/
theorem left_behind (env : Env) (input : Option Str) (t : Fds) :
    (command env input t).orphan = true ↔
      (command env input t).child.isSome ∧ ∀ rv, (command env input t).result ≠ .ok (.ok rv) := by
  have main : ∀ (t : Fds) (inW outR errR : Nat) (c : Fds) (w : List (Option File × Str)),
      (collect env t inW outR errR c w).orphan = true ↔
        (collect env t inW outR errR c w).child.isSome ∧
          ∀ rv, (collect env t inW outR errR c w).result ≠ .ok (.ok rv) := by
    intro t inW outR errR c w
    unfold collect
    cases readLoop env.out.ok env.out.chunks none with
    | none => simp
    | some out =>
      cases readLoop env.err.ok env.err.chunks none with
      | none => simp
      | some err =>
        cases env.waited with
        | none => simp
        | some w => simp
  unfold command
  cases pipe env.limit env.pipeIn .input t with
  | none => simp [failed]
  | some x =>
    obtain ⟨i0, i1, t1⟩ := x
    simp only
    cases pipe env.limit env.pipeOut .output t1 with
    | none => simp [failed]
    | some x =>
      obtain ⟨o0, o1, t2⟩ := x
      simp only
      cases pipe env.limit env.pipeErr .error t2 with
      | none => simp [failed]
      | some x =>
        obtain ⟨e0, e1, t3⟩ := x
        simp only
        cases env.fork with
        | false => simp [failed]
        | true =>
          simp only [Bool.not_true, Bool.false_eq_true, if_false]
          cases input with
          | none => exact main _ _ _ _ _ _
          | some text =>
            simp only
            cases env.write with
            | false => simp
            | true =>
              simp only [Bool.not_true, Bool.false_eq_true, if_false]
              exact main _ _ _ _ _ _

/-! ## What the user sees -/

/-- The status of the command is the status of the run; a command that is not found
is an error of blogc-make. What the command says on its standard error is shown; if it
fails and more is asked for, so are its status, what it was given and what it printed. -/
theorem shown (verbose : Bool) (input : Str) (rv : Nat) (output error : Option Str) :
    (blogcReport verbose input (.ok rv) output error).2 = (if rv = 127 then 1 else rv) ∧
    (rv = 0 ∨ verbose = false →
      (error = none → (blogcReport verbose input (.ok rv) output error).1 = .nothing) ∧
      ∀ e, error = some e → (blogcReport verbose input (.ok rv) output error).1 = .plain e) ∧
    (rv ≠ 0 → verbose = true → ∃ i, (blogcReport verbose input (.ok rv) output error).1 =
        .verbose rv i (output.map strip) (error.map strip) ∧
      (input = [] → i = none) ∧ (input ≠ [] → i = some (strip input))) := by
  refine ⟨rfl, fun h => ?_, fun h1 h2 => ?_⟩
  · have h : ¬ (rv ≠ 0 ∧ verbose = true) := by
      rintro ⟨h1, h2⟩
      rcases h with h | h
      · exact h1 h
      · rw [h2] at h; cases h
    simp only [blogcReport, if_neg h]
    exact ⟨by rintro rfl; rfl, by rintro e rfl; rfl⟩
  · simp only [blogcReport, if_pos (show rv ≠ 0 ∧ verbose = true from ⟨h1, h2⟩)]
    refine ⟨_, rfl, ?_, fun h => ?_⟩
    · rintro rfl; rfl
    · rw [if_pos (List.length_pos_iff.2 h)]

/-- The rules of blogc-make go on with this status and this value (C86); a command that
could not be run makes the rule fail with status 1, and why is said. -/
theorem passed_on (verbose : Bool) (input : Str) (rv : Nat) (output error : Option Str) :
    Make.blogcStatus (some (rv, output)) = ((blogcReport verbose input (.ok rv) output error).2 : Int) ∧
    (∀ f, Make.blogcStatus none = ((blogcReport verbose input (.error f) output error).2 : Int)) ∧
    (∀ f, (blogcReport verbose input (.error f) output error).1 = .failure f) ∧
    Make.blogcStatus none = 1 ∧
    ∀ r v, variableReport (.ok rv) output error = .ok (r, v) → Make.variableValue (some (rv, output)) = v := by
  refine ⟨?_, fun _ => rfl, fun _ => rfl, rfl, ?_⟩
  · simp only [Make.blogcStatus, blogcReport]
    split <;> split <;> first | rfl | (exfalso; omega)
  · intro r v h
    simp only [variableReport] at h
    simp only [Make.variableValue]
    split at h
    · rename_i h0
      rw [if_pos (by omega)]
      split at h
      · cases error with
        | none => cases h
        | some e => cases h; rfl
      · cases h; rfl
    · rename_i h0
      rw [if_neg (by omega)]
      cases h
      rfl

/-- The value of a variable is asked for without undefined behaviour, if a command
that fails says why. -/
theorem asked_partial (result : Except Failure Nat) (output error : Option Str)
    (h : ∀ rv, result = .ok rv → rv ≠ 0 → error ≠ none) : variableReport result output error ≠ .ub := by
  cases result with
  | error f => simp [variableReport]
  | ok rv =>
    simp only [variableReport]
    split
    · rename_i h0
      split
      · cases error with
        | none => exact absurd rfl (h rv rfl h0)
        | some e => simp
      · simp
    · simp

/-! ## Violations -/

/-- Descriptors 0, 1 and 2 are open. -/
def usual : Fds := fun i => if i < 3 then some (.inherited i) else none

/-- If writing or reading fails, nobody waits for the command (`left_behind`). -/
theorem reaped_violated : ∃ env input, (command env input usual).result = .error .write ∧
    (command env input usual).orphan = true :=
  ⟨⟨16, true, true, true, true, false, ⟨[], true⟩, ⟨[], true⟩, some (.exited 0)⟩, some b!"a.txt\n", rfl, rfl⟩

/-- If `waitpid` fails, as it does when the parent of blogc-make ignores `SIGCHLD`,
the status is a value that was never set. -/
theorem status_violated : ∃ env input, (command env input usual).result = .ok .ub :=
  ⟨⟨16, true, true, true, true, true, ⟨[], true⟩, ⟨[], true⟩, none⟩, none, rfl⟩

/-- A command that is killed without a word, while it is asked for a variable: NULL is
printed. -/
theorem asked_violated : variableReport (.ok (statusCode (.killed 11))) none none = .ub := rfl

/-! ## Non-vacuity -/

/-- A run that prints in two pieces, warns and ends with status 3. -/
def sample : Env :=
  ⟨16, true, true, true, true, true, ⟨[b!"ab", b!"c"], true⟩, ⟨[b!"w"], true⟩, some (.exited 3)⟩

example : (command sample (some b!"x") usual).output = some b!"abc" := by decide +kernel
example : NoPipes usual := by
  intro fd f h
  simp only [usual] at h
  split at h
  · cases h; exact ⟨_, rfl⟩
  · cases h
example : Free sample.limit 6 usual := ⟨[3, 4, 5, 6, 7, 8], by decide, rfl, by decide⟩
/-- Without standard streams, the pipes have the descriptors 0 to 5. -/
example : (command sample none fun _ => none).child.map (fun c => (c 0, c 1, c 2)) =
    some (some (.readEnd .input), some (.writeEnd .output), some (.writeEnd .error)) := by decide +kernel
/-- The limit is reached with the second pipe. -/
example : ∃ f, (command { sample with limit := 6 } none usual).result = .error f ∧ f = .pipe .output :=
  ⟨_, rfl, rfl⟩

end Blogc.C99
