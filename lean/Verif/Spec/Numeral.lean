import Verif.Basic

/-!
# Decimal numerals
-/

namespace Blogc.Spec

open Blogc

/-- A byte from `0` to `9`. -/
def Digit (c : Byte) : Prop := c!"0" ≤ c ∧ c ≤ c!"9"

/-- A non-empty string of digits. -/
def Digits (s : Str) : Prop := s ≠ [] ∧ ∀ c ∈ s, Digit c

/-- The number a string of digits denotes. -/
def numeral (s : Str) : Nat := s.foldl (fun n c => 10 * n + (c.toNat - 48)) 0

end Blogc.Spec
