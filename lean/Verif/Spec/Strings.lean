import Verif.Model.Strings

/-!
# Specification vocabulary for the string functions
-/

namespace Blogc.Spec

open Blogc

/-- The bytes a call asks to append: a C string stops at its first NUL, the
counted and single-byte calls take every byte. -/
def opBytes : StrOp → Str
  | .append s => cstr s
  | .appendLen s => s
  | .appendC c => [c]

/-- Everything appended by a sequence of calls, in order. -/
def opsBytes (ops : List StrOp) : Str := ops.flatMap opBytes


/-- ASCII white space: space, tab, newline, vertical tab, form feed, carriage
return. -/
def White (c : Byte) : Prop := c = 0x20 ∨ c = 0x09 ∨ c = 0x0a ∨ c = 0x0b ∨ c = 0x0c ∨ c = 0x0d

/-- Length of the run of backslashes that ends just before position `i`. -/
def backslashRun (s : Str) (i : Nat) : Nat :=
  ((s.take i).reverse.takeWhile (· == 0x5c)).length

/-- Position `i` of `s` is not escaped: an even number of backslashes precede
it. -/
def Unescaped (s : Str) (i : Nat) : Prop := backslashRun s i % 2 = 0

instance (s : Str) (i : Nat) : Decidable (Unescaped s i) :=
  inferInstanceAs (Decidable (_ = _))

/-- Position `i` holds an unescaped `c`. -/
def FoundAt (s : Str) (c : Byte) (i : Nat) : Prop := s[i]? = some c ∧ Unescaped s i

/-- Position `i` is the first unescaped `c`. -/
def FirstAt (s : Str) (c : Byte) (i : Nat) : Prop :=
  FoundAt s c i ∧ ∀ j, j < i → ¬ FoundAt s c j

/-- The string ends in the middle of an escape: an odd run of backslashes at
its end. -/
def Dangling (s : Str) : Prop := backslashRun s s.length % 2 = 1

instance (s : Str) : Decidable (Dangling s) := inferInstanceAs (Decidable (_ = _))

/-- The words a truth setting may be, up to ASCII case. -/
def TrueWord (s : Str) : Prop :=
  s = b!"1" ∨ caseEq s b!"y" ∨ caseEq s b!"yes" ∨ caseEq s b!"true" ∨ caseEq s b!"on"

end Blogc.Spec
