import Verif.Lemmas.Utf8

/-!
# C11: UTF-8 validation accepts exactly well-formed UTF-8
-/

namespace Blogc.C11

open Blogc Blogc.Spec

/-- Validation never reads outside the table, and accepts exactly the
concatenations of RFC 3629 encodings of Unicode scalar values. -/
theorem validate_iff (s : Str) :
    ∃ v, utf8Validate s = .ok v ∧ (v = true ↔ WellFormedUtf8 s) := by
  refine ⟨_, Utf8.validate_eq s, ?_⟩
  rw [beq_iff_eq]
  exact Utf8.run_iff s

example : utf8Validate (b!"a€𝄞") = .ok true := by decide +kernel
/-- A surrogate, an overlong form and a code point above U+10FFFF. -/
example : utf8Validate [0xED, 0xA0, 0x80] = .ok false ∧ utf8Validate [0xC0, 0x80] = .ok false ∧
    utf8Validate [0xF4, 0x90, 0x80, 0x80] = .ok false := by decide +kernel

end Blogc.C11
