import Verif.Model.Strings

/-!
# C68: a backslash protects the next character and disappears
-/

namespace Blogc.C68

open Blogc

/-- `t` is the text written as `s`: a backslash stands for the byte after it,
any other byte for itself; a lone backslash at the end stands for nothing. -/
inductive Written : Str → Str → Prop where
  | nil : Written [] []
  | last : Written [c!"\\"] []
  | pair (c : Byte) {s t : Str} : Written s t → Written (c!"\\" :: c :: s) (c :: t)
  | byte {c : Byte} {s t : Str} : c ≠ c!"\\" → Written s t → Written (c :: s) (c :: t)

/-- `s` with a backslash before the bytes chosen by `p`. -/
def escape (p : Byte → Bool) (s : Str) : Str :=
  s.flatMap fun c => if p c then [c!"\\", c] else [c]

theorem loop_pair (c : Byte) (s : Str) :
    appendEscapedLoop false (c!"\\" :: c :: s) = c :: appendEscapedLoop false s := by
  rw [appendEscapedLoop, if_pos ⟨rfl, rfl⟩, appendEscapedLoop, if_neg (by simp)]

theorem loop_byte (c : Byte) (s : Str) (h : c ≠ c!"\\") :
    appendEscapedLoop false (c :: s) = c :: appendEscapedLoop false s := by
  rw [appendEscapedLoop, if_neg (by simp [h])]

/-- The bytes appended are exactly the text written by the suffix. -/
theorem appended (acc s t : Str) : Written s t ↔ appendEscaped acc s = acc ++ t := by
  have h1 : ∀ s t, Written s t → appendEscapedLoop false s = t := by
    intro s t h
    induction h with
    | nil => rfl
    | last => decide
    | pair c _ ih => rw [loop_pair, ih]
    | byte h _ ih => rw [loop_byte _ _ h, ih]
  have h2 : ∀ n, ∀ s : Str, s.length ≤ n → Written s (appendEscapedLoop false s) := by
    intro n
    induction n with
    | zero =>
      intro s hs
      rw [List.length_eq_zero_iff.1 (Nat.le_zero.1 hs)]
      exact .nil
    | succ n ih =>
      intro s hs
      match s with
      | [] => exact .nil
      | [c] =>
        by_cases h : c = c!"\\"
        · subst h; exact .last
        · rw [loop_byte _ _ h]; exact .byte h .nil
      | c :: d :: s =>
        simp only [List.length_cons] at hs
        by_cases h : c = c!"\\"
        · subst h
          rw [loop_pair]
          exact .pair d (ih s (by omega))
        · rw [loop_byte _ _ h]
          exact .byte h (ih (d :: s) (by simp only [List.length_cons]; omega))
  unfold appendEscaped
  rw [List.append_cancel_left_eq]
  constructor
  · exact h1 s t
  · intro h
    rw [← h]
    exact h2 _ s (Nat.le_refl _)

/-- A text survives escaping, whichever bytes are escaped besides the
backslashes. -/
theorem round_trip (p : Byte → Bool) (hp : p c!"\\" = true) (acc s : Str) :
    appendEscaped acc (escape p s) = acc ++ s := by
  refine (appended acc _ s).1 ?_
  induction s with
  | nil => exact .nil
  | cons c s ih =>
    unfold escape at *
    rw [List.flatMap_cons]
    split
    · exact .pair c ih
    · next h =>
      refine .byte ?_ ih
      rintro rfl
      exact h hp

example : appendEscaped b!"x" b!"a\\*b\\\\c\\" = b!"xa*b\\c" := by decide
example : escape (fun c => c == c!"*" || c == c!"\\") b!"a*\\" = b!"a\\*\\\\" := by decide

end Blogc.C68
