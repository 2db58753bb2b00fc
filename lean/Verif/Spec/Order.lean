import Verif.Basic

/-!
# The order of strings
-/

namespace Blogc.Spec

open Blogc

/-- `a` comes before `b` in the order of `strcmp`: it is a proper prefix of `b`, or has the
smaller byte where they first differ. -/
def Before (a b : Str) : Prop :=
  (∃ x r, b = a ++ x :: r) ∨ ∃ p x y r s, a = p ++ x :: r ∧ b = p ++ y :: s ∧ x < y

/-- What each comparison operator of a template means. -/
def Compares (op a b : Str) : Prop :=
  (op = b!"<" ∧ Before a b) ∨ (op = b!">" ∧ Before b a) ∨
  (op = b!"<=" ∧ (Before a b ∨ a = b)) ∨ (op = b!">=" ∧ (Before b a ∨ a = b)) ∨
  (op = b!"==" ∧ a = b) ∨ (op = b!"!=" ∧ a ≠ b)

end Blogc.Spec
