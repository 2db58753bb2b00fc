import Verif.Basic

/-!
# Entry lists: tags and pages
-/

namespace Blogc.Spec.Entries

open Blogc

/-- `w` is one of the words of the space-separated list `s`. -/
def Word (w s : Str) : Prop :=
  w ≠ [] ∧ 0x20 ∉ w ∧ ∃ pre post, s = pre ++ w ++ post ∧
    (pre = [] ∨ ∃ p, pre = p ++ [0x20]) ∧ (post = [] ∨ ∃ q, post = 0x20 :: q)

/-- Page `p` (from 1) of a list, with `n` entries per page. -/
def page {α : Type u} (n p : Nat) (l : List α) : List α := (l.drop ((p - 1) * n)).take n

/-- The number of pages: the least number whose pages have room for all. -/
def IsPageCount (n total count : Nat) : Prop :=
  total ≤ count * n ∧ ∀ m, total ≤ m * n → count ≤ m

example : Word b!"foo" b!"bar  foo baz" :=
  ⟨by decide, by decide, b!"bar  ", b!" baz", rfl, Or.inr ⟨b!"bar ", rfl⟩, Or.inr ⟨b!"baz", rfl⟩⟩
example : page 2 2 [1, 2, 3, 4, 5] = [3, 4] := rfl

end Blogc.Spec.Entries
