import Verif.Model.MakePipe

/-!
# C58: running a child process never deadlocks
-/

namespace Blogc.C58

open Blogc Blogc.Pipe

/-! ## The statement -/

/-- The call has returned, or the parent was stopped. -/
def Final (s : State) : Prop :=
  match s.parent with
  | .done _ _ => True
  | .broken => True
  | _ => False

/-- Nobody can go on, and the call has not returned. -/
def Deadlock (cap : Nat) (s : State) : Prop := ¬ Final s ∧ ∀ t, ¬ Step cap s t

/-- The property, for one capacity, child and input. -/
def NeverStuck (cap : Nat) (child : Child) (input : Str) : Prop :=
  ∀ s, Reach cap (start child input) s → ¬ Deadlock cap s

/-- What a child writes to its standard output and error when its whole input is
`i` and nothing ever blocks. -/
def run : Child → Str → Bool → Bool → Str × Str
  | .exit, _, _, _ => ([], [])
  | .read k, [], o, e => run (k none) [] o e
  | .read k, b :: i, o, e => run (k (some b)) i o e
  | .write false b k, i, o, e =>
    let r := run k i o e
    (if o then b :: r.1 else r.1, r.2)
  | .write true b k, i, o, e =>
    let r := run k i o e
    (r.1, if e then b :: r.2 else r.2)
  | .close false k, i, _, e => run k i false e
  | .close true k, i, o, _ => run k i o false

/-- The child writes nothing before it has read its whole input. -/
def Drains : Child → Prop
  | .exit => True
  | .read k => ∀ b, Drains (k (some b))
  | .write _ _ _ => False
  | .close _ k => Drains k

/-! ## Every schedule ends -/

/-- Work left for the parent when the child does nothing. -/
def parentWork (s : State) : Nat :=
  s.outp.length + s.errp.length +
    match s.parent with
    | .writing rest => rest.length + 5
    | .readOut _ => 4
    | .readErr _ _ => 3
    | .waiting _ _ => 2
    | .done _ _ => 1
    | .broken => 1

/-- Every schedule is finite, for every child, input and capacity: steps of both
processes cannot go on forever. -/
theorem schedules_end (cap : Nat) (s : State) : Acc (fun t s => Step cap s t) s := by
  obtain ⟨p, c, i, o, e, oo, eo⟩ := s
  induction c generalizing p i o e oo eo with
  | exit =>
    generalize hn : parentWork ⟨p, .exit, i, o, e, oo, eo⟩ = n
    induction n using Nat.strongRecOn generalizing p i o e oo eo with
    | _ n ih =>
      constructor
      intro t ht
      cases ht <;> simp_all only [reduceCtorEq] <;>
        refine ih _ ?_ _ _ _ _ _ _ rfl <;> subst hn <;> simp_all [parentWork] <;> omega
  | read k ihk =>
    generalize hn : parentWork ⟨p, .read k, i, o, e, oo, eo⟩ = n
    induction n using Nat.strongRecOn generalizing p i o e oo eo with
    | _ n ih =>
      constructor
      intro t ht
      cases ht with
      | childRead h h' => cases h; exact ihk _ _ _ _ _ _ _
      | childEof h h' => cases h; exact ihk _ _ _ _ _ _ _
      | childOut h | childOutLost h | childErr h | childErrLost h | childCloseOut h | childCloseErr h => cases h
      | _ => 
        simp_all only [] <;>
        refine ih _ ?_ _ _ _ _ _ _ rfl <;> subst hn <;> simp_all [parentWork] <;> omega
  | write q b k ihk =>
    generalize hn : parentWork ⟨p, .write q b k, i, o, e, oo, eo⟩ = n
    induction n using Nat.strongRecOn generalizing p i o e oo eo with
    | _ n ih =>
      constructor
      intro t ht
      cases ht with
      | childOut h | childOutLost h | childErr h | childErrLost h => cases h; exact ihk _ _ _ _ _ _
      | childRead h | childEof h | childCloseOut h | childCloseErr h => cases h
      | _ => 
        simp_all only [] <;>
        refine ih _ ?_ _ _ _ _ _ _ rfl <;> subst hn <;> simp_all [parentWork] <;> omega
  | close q k ihk =>
    generalize hn : parentWork ⟨p, .close q k, i, o, e, oo, eo⟩ = n
    induction n using Nat.strongRecOn generalizing p i o e oo eo with
    | _ n ih =>
      constructor
      intro t ht
      cases ht with
      | childCloseOut h | childCloseErr h => cases h; exact ihk _ _ _ _ _ _
      | childRead h | childEof h | childOut h | childOutLost h | childErr h | childErrLost h => cases h
      | _ => 
        simp_all only [] <;>
        refine ih _ ?_ _ _ _ _ _ _ rfl <;> subst hn <;> simp_all [parentWork] <;> omega

/-! ## What is in transit -/

/-- What the parent has not written yet. -/
def restOf : Parent → Str
  | .writing r => r
  | _ => []

/-- What the parent has read from the standard output of the child. -/
def outOf : Parent → Str
  | .readOut o | .readErr o _ | .waiting o _ | .done o _ => o
  | _ => []

/-- What the parent has read from the standard error of the child. -/
def errOf : Parent → Str
  | .readErr _ e | .waiting _ e | .done _ e => e
  | _ => []

theorem run_out_closed (c : Child) (i : Str) (e : Bool) : (run c i false e).1 = [] := by
  induction c generalizing i e with
  | exit => rfl
  | read k ih => cases i <;> exact ih _ _ _
  | write q b k ih => cases q <;> simpa [run] using ih i e
  | close q k ih => cases q <;> exact ih _ _

theorem run_err_closed (c : Child) (i : Str) (o : Bool) : (run c i o false).2 = [] := by
  induction c generalizing i o with
  | exit => rfl
  | read k ih => cases i <;> exact ih _ _ _
  | write q b k ih => cases q <;> simpa [run] using ih i o
  | close q k ih => cases q <;> exact ih _ _

theorem run_dead (c : Child) (i : Str) (o e : Bool) (h : c.alive = false) : run c i o e = ([], []) := by
  cases c <;> first | rfl | cases h

/-- Bytes are in exactly one place: what was collected, what is in the pipes and
what the child still will write make up all that it writes; and the pipes that
the parent has finished with are closed and empty. -/
structure Inv (child : Child) (input : Str) (s : State) : Prop where
  out : s.parent ≠ .broken →
    outOf s.parent ++ s.outp ++ (run s.child (s.inp ++ restOf s.parent) s.outOpen s.errOpen).1 =
      (run child input true true).1
  err : s.parent ≠ .broken →
    errOf s.parent ++ s.errp ++ (run s.child (s.inp ++ restOf s.parent) s.outOpen s.errOpen).2 =
      (run child input true true).2
  outEnd : ∀ o e, s.parent = .readErr o e ∨ s.parent = .waiting o e ∨ s.parent = .done o e →
    s.outp = [] ∧ (s.outOpen && s.child.alive) = false
  errEnd : ∀ o e, s.parent = .waiting o e ∨ s.parent = .done o e →
    s.errp = [] ∧ (s.errOpen && s.child.alive) = false
  dead : ∀ o e, s.parent = .done o e → s.child.alive = false
  fits : ∀ r, s.parent = .writing r → s.inp.length + r.length ≤ input.length
  drains : ∀ r, s.parent = .writing r → Drains child → Drains s.child

theorem inv_start (child : Child) (input : Str) : Inv child input (start child input) := by
  constructor <;> simp [start, outOf, errOf, restOf]

theorem inv_step (cap : Nat) (child : Child) (input : Str) (s t : State) (h : Inv child input s)
    (hs : Step cap s t) : Inv child input t := by
  obtain ⟨p, c, i, o, e, oo, eo⟩ := s
  obtain ⟨h1, h2, h3, h4, h5, h6, h7⟩ := h
  cases hs with
  | write hp ha hl =>
    simp only at hp ha hl
    subst hp
    constructor <;> simp_all [outOf, errOf, restOf]
    omega
  | writeBroken hp ha =>
    simp only at hp ha
    subst hp
    constructor <;> simp_all [outOf, errOf, restOf]
  | writeDone hp =>
    simp only at hp
    subst hp
    constructor <;> simp_all [outOf, errOf, restOf]
  | readOut hp ho =>
    simp only at hp ho
    subst hp
    constructor <;> simp_all [outOf, errOf, restOf]
  | readOutEnd hp ho hc =>
    simp only at hp ho hc
    subst hp
    constructor <;> simp_all [outOf, errOf, restOf]
  | readErr hp ho =>
    simp only at hp ho
    subst hp
    constructor <;> simp_all [outOf, errOf, restOf]
  | readErrEnd hp ho hc =>
    simp only at hp ho hc
    subst hp
    constructor <;> simp_all [outOf, errOf, restOf]
  | wait hp hc =>
    simp only at hp hc
    subst hp
    constructor <;> simp_all [outOf, errOf, restOf]
  | childRead hc hi =>
    simp only at hc hi
    subst hc hi
    refine ⟨h1, h2, ?_, ?_, fun o e h => (by cases h5 o e h), ?_, ?_⟩
    · intro o e h
      have := h3 o e h
      simp_all [Child.alive]
    · intro o e h
      have := h4 o e h
      simp_all [Child.alive]
    · intro r h
      have := h6 r h
      simp only [List.length_cons] at this
      simp only
      omega
    · intro r h hd
      exact h7 r h hd _
  | childEof hc hi ho =>
    simp only at hc hi
    subst hc hi
    have hr : restOf p = [] := by
      cases p <;> simp_all [State.inOpen, restOf]
    simp only [hr, List.append_nil] at h1 h2
    refine ⟨?_, ?_, ?_, ?_, fun o e h => (by cases h5 o e h), ?_, ?_⟩
    · intro h
      have := h1 h
      rw [run] at this
      simpa [hr] using this
    · intro h
      have := h2 h
      rw [run] at this
      simpa [hr] using this
    · intro o e h
      have := h3 o e h
      simp_all [Child.alive]
    · intro o e h
      have := h4 o e h
      simp_all [Child.alive]
    · intro r h
      simp only at h
      simp [h, State.inOpen] at ho
    · intro r h
      simp only at h
      simp [h, State.inOpen] at ho
  | childOut hc ho hl =>
    simp only at hc ho
    subst hc ho
    refine ⟨?_, ?_, ?_, ?_, fun o e h => (by cases h5 o e h), h6, fun r h hd => (h7 r h hd).elim⟩
    · intro h
      have := h1 h
      simpa [run] using this
    · intro h
      have := h2 h
      simpa [run] using this
    · intro o e h
      have := h3 o e h
      simp_all [Child.alive]
    · intro o e h
      have := h4 o e h
      simp_all [Child.alive]
  | childOutLost hc ho =>
    simp only at hc ho
    subst hc ho
    refine ⟨?_, ?_, ?_, ?_, fun o e h => (by cases h5 o e h), h6, fun r h hd => (h7 r h hd).elim⟩
    · intro h
      have := h1 h
      simpa [run] using this
    · intro h
      have := h2 h
      simpa [run] using this
    · intro o e h
      have := h3 o e h
      simp_all [Child.alive]
    · intro o e h
      have := h4 o e h
      simp_all [Child.alive]
  | childErr hc ho hl =>
    simp only at hc ho
    subst hc ho
    refine ⟨?_, ?_, ?_, ?_, fun o e h => (by cases h5 o e h), h6, fun r h hd => (h7 r h hd).elim⟩
    · intro h
      have := h1 h
      simpa [run] using this
    · intro h
      have := h2 h
      simpa [run] using this
    · intro o e h
      have := h3 o e h
      simp_all [Child.alive]
    · intro o e h
      have := h4 o e h
      simp_all [Child.alive]
  | childErrLost hc ho =>
    simp only at hc ho
    subst hc ho
    refine ⟨?_, ?_, ?_, ?_, fun o e h => (by cases h5 o e h), h6, fun r h hd => (h7 r h hd).elim⟩
    · intro h
      have := h1 h
      simpa [run] using this
    · intro h
      have := h2 h
      simpa [run] using this
    · intro o e h
      have := h3 o e h
      simp_all [Child.alive]
    · intro o e h
      have := h4 o e h
      simp_all [Child.alive]
  | childCloseOut hc =>
    simp only at hc
    subst hc
    refine ⟨h1, h2, ?_, ?_, fun o e h => (by cases h5 o e h), h6, h7⟩
    · intro o e h
      have := h3 o e h
      simp_all [Child.alive]
    · intro o e h
      have := h4 o e h
      simp_all [Child.alive]
  | childCloseErr hc =>
    simp only at hc
    subst hc
    refine ⟨h1, h2, ?_, ?_, fun o e h => (by cases h5 o e h), h6, h7⟩
    · intro o e h
      have := h3 o e h
      simp_all [Child.alive]
    · intro o e h
      have := h4 o e h
      simp_all [Child.alive]

theorem inv_reach (cap : Nat) (child : Child) (input : Str) (s : State) (h : Reach cap (start child input) s) :
    Inv child input s := by
  induction h with
  | refl => exact inv_start child input
  | step _ hs ih => exact inv_step cap child input _ _ ih hs

/-! ## The theorems -/

/-- When the call returns, for every schedule and capacity, it has collected
exactly what the child writes for this input, in order. -/
theorem collected (cap : Nat) (child : Child) (input : Str) (s : State) (out err : Str)
    (h : Reach cap (start child input) s) (hd : s.parent = .done out err) :
    (out, err) = run child input true true := by
  have hi := inv_reach cap child input s h
  have h1 := hi.out (by rw [hd]; simp)
  have h2 := hi.err (by rw [hd]; simp)
  rw [run_dead _ _ _ _ (hi.dead out err hd)] at h1 h2
  rw [(hi.outEnd out err (Or.inr (Or.inr hd))).1] at h1
  rw [(hi.errEnd out err (Or.inr hd)).1] at h2
  rw [hd] at h1 h2
  simp only [outOf, errOf, List.append_nil] at h1 h2
  rw [h1, h2]

/-- Proved part: there is no deadlock when the child writes no more to its
standard error than a pipe holds, and either the input fits in a pipe or the
child reads all of it before it writes. With `schedules_end`, the call then ends
in every schedule. Missing: the other children and inputs, for which the property
is false (`stuck_err_violated`, `stuck_input_violated`). -/
theorem never_stuck_partial (cap : Nat) (child : Child) (input : Str) (hcap : 0 < cap)
    (herr : (run child input true true).2.length ≤ cap)
    (hin : input.length ≤ cap ∨ Drains child) : NeverStuck cap child input := by
  intro s hr hd
  have hi := inv_reach cap child input s hr
  obtain ⟨hf, hno⟩ := hd
  obtain ⟨p, c, i, o, e, oo, eo⟩ := s
  have hpb : p ≠ .broken := by
    rintro rfl
    exact hf trivial
  have hE := hi.err hpb
  -- the child can always write to its standard error
  have cerr : ∀ b k, c ≠ .write true b k := by
    rintro b k rfl
    cases eo with
    | false => exact hno _ (.childErrLost rfl rfl)
    | true =>
      refine hno _ (.childErr rfl rfl ?_)
      have := congrArg List.length hE
      simp only [run, if_pos, List.length_append, List.length_cons] at this
      simp only
      omega
  have cclose : ∀ q k, c ≠ .close q k := by
    rintro q k rfl
    cases q
    · exact hno _ (.childCloseOut rfl)
    · exact hno _ (.childCloseErr rfl)
  have cread : ∀ k, c = .read k → i = [] ∧ ∃ r, p = .writing r := by
    rintro k rfl
    cases i with
    | cons b i => exact absurd (Step.childRead rfl rfl) (hno _)
    | nil =>
      refine ⟨rfl, ?_⟩
      cases p with
      | writing r => exact ⟨r, rfl⟩
      | _ => exact absurd (Step.childEof rfl rfl rfl) (hno _)
  have cout : ∀ b k, c = .write false b k → oo = true ∧ cap ≤ o.length := by
    rintro b k rfl
    cases oo with
    | false => exact absurd (Step.childOutLost rfl rfl) (hno _)
    | true =>
      refine ⟨rfl, ?_⟩
      rcases Nat.lt_or_ge o.length cap with h | h
      · exact absurd (Step.childOut rfl rfl h) (hno _)
      · exact h
  cases p with
  | broken => exact hpb rfl
  | done => exact hf trivial
  | writing r =>
    cases r with
    | nil => exact hno _ (.writeDone rfl)
    | cons b r =>
      cases ha : c.alive with
      | false => exact hno _ (.writeBroken rfl ha)
      | true =>
        have hfull : cap ≤ i.length := by
          rcases Nat.lt_or_ge i.length cap with h | h
          · exact absurd (Step.write rfl ha h) (hno _)
          · exact h
        rcases hin with hin | hdr
        · have := hi.fits _ rfl
          simp only [List.length_cons] at this
          omega
        · have hdc := hi.drains _ rfl hdr
          cases c with
          | exit => cases ha
          | read k =>
            have := (cread k rfl).1
            simp only [this, List.length_nil] at hfull
            omega
          | write q b k => exact hdc
          | close q k => exact cclose q k rfl
  | readOut acc =>
    cases o with
    | cons b o => exact hno _ (.readOut rfl rfl)
    | nil =>
      cases c with
      | exit => exact hno _ (.readOutEnd rfl rfl (by simp [Child.alive]))
      | read k => obtain ⟨_, r, h⟩ := cread k rfl; cases h
      | write q b k =>
        cases q with
        | true => exact cerr b k rfl
        | false =>
          have := (cout b k rfl).2
          simp only [List.length_nil] at this
          omega
      | close q k => exact cclose q k rfl
  | readErr out acc =>
    cases e with
    | cons b e => exact hno _ (.readErr rfl rfl)
    | nil =>
      cases c with
      | exit => exact hno _ (.readErrEnd rfl rfl (by simp [Child.alive]))
      | read k => obtain ⟨_, r, h⟩ := cread k rfl; cases h
      | write q b k =>
        cases q with
        | true => exact cerr b k rfl
        | false =>
          have h1 := (hi.outEnd out acc (Or.inl rfl)).2
          simp [(cout b k rfl).1, Child.alive] at h1
      | close q k => exact cclose q k rfl
  | waiting out err =>
    cases c with
    | exit => exact hno _ (.wait rfl rfl)
    | read k => obtain ⟨_, r, h⟩ := cread k rfl; cases h
    | write q b k =>
      cases q with
      | true => exact cerr b k rfl
      | false =>
        have h1 := (hi.outEnd out err (Or.inr (Or.inl rfl))).2
        simp [(cout b k rfl).1, Child.alive] at h1
    | close q k => exact cclose q k rfl

/-! ## The property is false -/

/-- A child that writes `n` bytes to its standard output or error and then goes
on as `c`. -/
def writes (q : Bool) (b : Byte) (c : Child) : Nat → Child
  | 0 => c
  | n + 1 => .write q b (writes q b c n)

theorem reach_trans {cap : Nat} {s t u : State} (h : Reach cap s t) (h' : Reach cap t u) : Reach cap s u := by
  induction h' with
  | refl => exact h
  | step _ hs ih => exact ih.step hs

/-- The property fails, whatever the capacity of pipes is: when the child fills
the pipe of its standard error, the parent waits for the end of the standard
output and the child for the parent. -/
theorem stuck_err_violated (cap : Nat) : ∃ child, ¬ NeverStuck cap child [] := by
  refine ⟨writes true c!"x" .exit (cap + 1), fun h => ?_⟩
  have key : ∀ n m, m + n = cap → Reach cap (start (writes true c!"x" .exit (cap + 1)) [])
      ⟨.writing [], writes true c!"x" .exit (n + 1), [], [], List.replicate m c!"x", true, true⟩ := by
    intro n m
    induction m generalizing n with
    | zero =>
      intro hm
      have : n = cap := by omega
      subst this
      exact .refl
    | succ m ih =>
      intro hm
      have := (ih (n + 1) (by omega)).step (.childErr rfl rfl (by simp; omega))
      rw [List.replicate_succ']
      exact this
  have h1 := (key 0 cap (by omega)).step (.writeDone rfl)
  refine h _ h1 ⟨fun h => h, fun t ht => ?_⟩
  cases ht <;> simp_all [writes, Child.alive]

/-- It fails also for large inputs: when neither end reads what the other one
writes. -/
theorem stuck_input_violated (cap : Nat) : ∃ child, (run child (List.replicate (cap + 1) c!"i") true true).2 = [] ∧
    ¬ NeverStuck cap child (List.replicate (cap + 1) c!"i") := by
  refine ⟨writes false c!"x" .exit (cap + 1), ?_, fun h => ?_⟩
  · have : ∀ n i, (run (writes false c!"x" .exit n) i true true).2 = [] := by
      intro n
      induction n with
      | zero => intro i; rfl
      | succ n ih => intro i; exact ih i
    exact this _ _
  have key : ∀ n m, m + n = cap → Reach cap (start (writes false c!"x" .exit (cap + 1)) (List.replicate (cap + 1) c!"i"))
      ⟨.writing (List.replicate (cap + 1) c!"i"), writes false c!"x" .exit (n + 1), [], List.replicate m c!"x", [], true,
        true⟩ := by
    intro n m
    induction m generalizing n with
    | zero =>
      intro hm
      have : n = cap := by omega
      subst this
      exact .refl
    | succ m ih =>
      intro hm
      have := (ih (n + 1) (by omega)).step (.childOut rfl rfl (by simp; omega))
      rw [List.replicate_succ' (n := m)]
      exact this
  have key' : ∀ n m, m + n = cap → Reach cap (start (writes false c!"x" .exit (cap + 1)) (List.replicate (cap + 1) c!"i"))
      ⟨.writing (List.replicate (n + 1) c!"i"), writes false c!"x" .exit 1, List.replicate m c!"i",
        List.replicate cap c!"x", [], true, true⟩ := by
    intro n m
    induction m generalizing n with
    | zero =>
      intro hm
      have : n = cap := by omega
      subst this
      exact key 0 n (by omega)
    | succ m ih =>
      intro hm
      have := (ih (n + 1) (by omega)).step (.write rfl rfl (by simp; omega))
      rw [List.replicate_succ' (n := m)]
      exact this
  refine h _ (key' 0 cap (by omega)) ⟨fun h => h, fun t ht => ?_⟩
  cases ht <;> simp_all [writes, Child.alive, List.replicate_succ]

/-! ## A sample -/

/-- Reads two bytes and the end of its input, then copies the second byte to both
outputs. -/
def sampleChild : Child :=
  .read fun
    | none => .exit
    | some _ => .read fun
      | none => .exit
      | some b => .read fun
        | none => .write false b (.close false (.write true b .exit))
        | some _ => .exit

example : run sampleChild b!"ab" true true = (b!"b", b!"b") := by decide
example : NeverStuck 1 sampleChild b!"ab" :=
  never_stuck_partial 1 _ _ (by decide) (by decide) (Or.inr fun _ _ _ => trivial)

end Blogc.C58
