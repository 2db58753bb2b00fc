import Verif.Run

/-!
# Reasoning about computations that may not terminate
-/

namespace Blogc

/-- The computation ends; it is undefined only if `A`; its value satisfies `P`. -/
def Run.Fine {α : Type u} (A : Prop) (P : α → Prop) : Run α → Prop
  | .ok a => P a
  | .ub => A
  | .out => False

namespace Run

theorem Fine.bind {α β : Type u} {A : Prop} {P : α → Prop} {Q : β → Prop} {x : Run α}
    {f : α → Run β} (hx : Fine A P x) (hf : ∀ a, P a → Fine A Q (f a)) : Fine A Q (x >>= f) := by
  cases x with
  | ok a => exact hf a hx
  | ub => exact hx
  | out => exact hx

theorem Fine.mono {α : Type u} {A B : Prop} {P Q : α → Prop} {x : Run α} (hx : Fine A P x)
    (hA : A → B) (hP : ∀ a, P a → Q a) : Fine B Q x := by
  cases x with
  | ok a => exact hP a hx
  | ub => exact hA hx
  | out => exact hx

theorem Fine.ok {α : Type u} {A : Prop} {P : α → Prop} {x : Run α} (hx : Fine A P x) (hA : ¬ A) :
    ∃ a, x = .ok a ∧ P a := by
  cases x with
  | ok a => exact ⟨a, rfl, hx⟩
  | ub => exact absurd hx hA
  | out => exact absurd hx id

theorem Fine.ne_out {α : Type u} {A : Prop} {P : α → Prop} {x : Run α} (hx : Fine A P x) :
    x ≠ .out := by
  intro h; subst h; exact hx

end Run

/-- What one iteration must do for a loop to be fine. -/
def StepFine {σ : Type u} {ρ : Type u} (I : σ → Prop) (μ : σ → Nat) (P : ρ → Prop) (s : σ) :
    σ ⊕ ρ → Prop
  | .inl s' => I s' ∧ μ s' < μ s
  | .inr r => P r

theorem runL_fine {σ ρ : Type u} {step : σ → Run (σ ⊕ ρ)} {A : Prop} {I : σ → Prop} {μ : σ → Nat}
    {P : ρ → Prop} (hstep : ∀ s, I s → Run.Fine A (StepFine I μ P s) (step s)) :
    ∀ (n : Nat) (s : σ), I s → μ s < n → Run.Fine A P (runL step n s) := by
  intro n
  induction n with
  | zero => intro s _ h; omega
  | succ n ih =>
    intro s hI h
    have := hstep s hI
    rw [runL]
    cases hs : step s with
    | ub => rw [hs] at this; exact this
    | out => rw [hs] at this; exact this
    | ok x =>
      rw [hs] at this
      cases x with
      | inl s' => exact ih s' this.1 (by have := this.2; omega)
      | inr r => exact this

theorem runL_mono {σ ρ : Type u} {step : σ → Run (σ ⊕ ρ)} : ∀ (n m : Nat) (s : σ),
    runL step n s ≠ .out → runL step (n + m) s = runL step n s := by
  intro n
  induction n with
  | zero => intro m s h; exact absurd rfl h
  | succ n ih =>
    intro m s h
    rw [Nat.add_right_comm, runL, runL]
    rw [runL] at h
    cases hs : step s with
    | ub => rfl
    | out => rfl
    | ok x =>
      rw [hs] at h
      cases x with
      | inl s' => exact ih m s' h
      | inr r => rfl

end Blogc
