import Verif.Spec.Strings
import Mathlib.Data.List.Forall2

/-!
# C65: truthiness of settings
-/

namespace Blogc.C65

open Blogc Blogc.Spec

/-- A setting is true exactly when it is `1`, or one of the four words in any
mix of upper and lower case. -/
theorem strToBool_iff (s : Str) : strToBool (some s) = true ↔ TrueWord s := by
  unfold strToBool TrueWord
  split <;> simp_all

/-- An absent setting is false. -/
theorem strToBool_none : strToBool none = false := rfl

/-- The comparison ignores ASCII case only: two words are equal up to case iff
they have the same length and at each position the bytes are equal, or differ
by 32 with one of them a letter. -/
theorem caseEq_iff (a b : Str) :
    caseEq a b = true ↔ List.Forall₂ (fun x y => x = y ∨
      (c!"A" ≤ x ∧ x ≤ c!"Z" ∧ y = x + 32) ∨ (c!"A" ≤ y ∧ y ≤ c!"Z" ∧ x = y + 32)) a b := by
  unfold caseEq
  rw [beq_iff_eq]
  induction a generalizing b with
  | nil => cases b <;> simp
  | cons x a ih =>
    cases b with
    | nil => simp
    | cons y b =>
      simp only [List.map_cons, List.cons.injEq, List.forall₂_cons, ih]
      refine and_congr ?_ Iff.rfl
      unfold toLower
      grind

example : strToBool (some b!"YeS") = true ∧ strToBool (some b!"0") = false ∧
    strToBool (some b!"yess") = false := by decide

end Blogc.C65
