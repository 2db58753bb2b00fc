import Verif.Basic

/-!
# State machines

Loops that do not simply walk over their input are modelled as a step function,
iterated with fuel; running out of fuel (`none`) is never confused with a result.
-/

namespace Blogc

/-- One iteration of a loop. -/
inductive Step (σ : Type u) (ρ : Type v) where
  | next (s : σ)
  | done (r : ρ)
  | ub
  deriving Repr, DecidableEq

/-- At most `n` iterations; `none` means that the loop is still running. -/
def runM {σ : Type u} {ρ : Type v} (step : σ → Step σ ρ) : Nat → σ → Option (Res ρ)
  | 0, _ => none
  | n + 1, s =>
    match step s with
    | .next s' => runM step n s'
    | .done r => some (.ok r)
    | .ub => some .ub

variable {σ : Type u} {ρ : Type v} {step : σ → Step σ ρ}

/-- `k` iterations lead from one state to another. -/
inductive Steps (step : σ → Step σ ρ) : Nat → σ → σ → Prop where
  | refl (s : σ) : Steps step 0 s s
  | head {k : Nat} {s s' s'' : σ} : step s = .next s' → Steps step k s' s'' → Steps step (k + 1) s s''

/-- Some number of iterations lead from one state to another. -/
def Reach (step : σ → Step σ ρ) (s s' : σ) : Prop := ∃ k, Steps step k s s'

theorem Steps.trans {k l : Nat} {a b c : σ} (h : Steps step k a b) (h' : Steps step l b c) :
    Steps step (k + l) a c := by
  induction h with
  | refl s => simpa using h'
  | head e _ ih => rw [Nat.add_right_comm]; exact .head e (ih h')

theorem Reach.refl (s : σ) : Reach step s s := ⟨0, .refl s⟩

theorem Reach.trans {a b c : σ} (h : Reach step a b) (h' : Reach step b c) : Reach step a c := by
  obtain ⟨k, h⟩ := h
  obtain ⟨l, h'⟩ := h'
  exact ⟨k + l, h.trans h'⟩

theorem Reach.head {a b c : σ} (h : step a = .next b) (h' : Reach step b c) : Reach step a c := by
  obtain ⟨l, h'⟩ := h'
  exact ⟨l + 1, .head h h'⟩

theorem Reach.one {a b : σ} (h : step a = .next b) : Reach step a b := .head h (.refl b)

theorem runM_steps {k : Nat} {a b : σ} (h : Steps step k a b) (n : Nat) :
    runM step (n + k) a = runM step n b := by
  induction h with
  | refl s => rfl
  | head e _ ih => rw [← Nat.add_assoc, runM, e]; exact ih

/-- More fuel does not change a result. -/
theorem runM_mono {n : Nat} {s : σ} {r : Res ρ} (h : runM step n s = some r) (m : Nat) (hm : n ≤ m) :
    runM step m s = some r := by
  induction n generalizing s m with
  | zero => simp [runM] at h
  | succ n ih =>
    obtain ⟨m, rfl⟩ : ∃ m', m = m' + 1 := ⟨m - 1, by omega⟩
    rw [runM] at h ⊢
    cases hs : step s with
    | next s' => rw [hs] at h; exact ih h m (by omega)
    | done r => rw [hs] at h; exact h
    | ub => rw [hs] at h; exact h

/-- Two results of one run are equal. -/
theorem runM_unique {n m : Nat} {s : σ} {r r' : Res ρ} (h : runM step n s = some r)
    (h' : runM step m s = some r') : r = r' := by
  have h1 := runM_mono h (max n m) (by omega)
  have h2 := runM_mono h' (max n m) (by omega)
  rw [h1] at h2
  simpa using h2

/-- A measure that every iteration decreases, under an invariant, bounds the fuel. -/
theorem runM_terminates (I : σ → Prop) (μ : σ → Nat)
    (hstep : ∀ s s', I s → step s = .next s' → I s' ∧ μ s' < μ s) :
    ∀ (n : Nat) (s : σ), I s → μ s < n → ∃ r, runM step n s = some r := by
  intro n
  induction n with
  | zero => intro s _ h; omega
  | succ n ih =>
    intro s hI h
    rw [runM]
    cases hs : step s with
    | next s' =>
      obtain ⟨h1, h2⟩ := hstep s s' hI hs
      exact ih s' h1 (by omega)
    | done r => exact ⟨_, rfl⟩
    | ub => exact ⟨_, rfl⟩

/-- An invariant under which no step is undefined makes every result defined. -/
theorem runM_safe (I : σ → Prop) (P : ρ → Prop)
    (hnext : ∀ s s', I s → step s = .next s' → I s')
    (hub : ∀ s, I s → step s ≠ .ub) (hdone : ∀ s r, I s → step s = .done r → P r) :
    ∀ (n : Nat) (s : σ) (r : Res ρ), I s → runM step n s = some r → ∃ a, r = .ok a ∧ P a := by
  intro n
  induction n with
  | zero => intro s r _ h; simp [runM] at h
  | succ n ih =>
    intro s r hI h
    rw [runM] at h
    cases hs : step s with
    | next s' => rw [hs] at h; exact ih s' r (hnext s s' hI hs) h
    | done r' =>
      rw [hs] at h
      simp only [Option.some.injEq] at h
      exact ⟨r', h.symm, hdone s r' hI hs⟩
    | ub => exact absurd hs (hub s hI)

/-- The result of a run that reaches a final iteration. -/
theorem runM_of_reach {a b : σ} {r : ρ} (h : Reach step a b) (hd : step b = .done r) {n : Nat}
    {x : Res ρ} (hn : runM step n a = some x) : x = .ok r := by
  obtain ⟨k, h⟩ := h
  have : runM step (1 + k) a = some (.ok r) := by
    rw [runM_steps h, runM, hd]
  exact runM_unique hn this

end Blogc
