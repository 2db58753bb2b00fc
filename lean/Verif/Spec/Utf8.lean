import Verif.Basic

/-!
# UTF-8 as defined by RFC 3629
-/

namespace Blogc.Spec

open Blogc

/-- Unicode scalar values: code points up to U+10FFFF that are not
surrogates. -/
def IsScalar (c : Nat) : Prop := c < 0xD800 ∨ (0xE000 ≤ c ∧ c ≤ 0x10FFFF)

/-- The encoding of RFC 3629, section 3: the shortest of the four forms. -/
def encode (c : Nat) : Str :=
  if c < 0x80 then [UInt8.ofNat c]
  else if c < 0x800 then [UInt8.ofNat (0xC0 + c / 64), UInt8.ofNat (0x80 + c % 64)]
  else if c < 0x10000 then
    [UInt8.ofNat (0xE0 + c / 4096), UInt8.ofNat (0x80 + c / 64 % 64), UInt8.ofNat (0x80 + c % 64)]
  else
    [UInt8.ofNat (0xF0 + c / 262144), UInt8.ofNat (0x80 + c / 4096 % 64),
     UInt8.ofNat (0x80 + c / 64 % 64), UInt8.ofNat (0x80 + c % 64)]

/-- Well-formed UTF-8: a concatenation of encodings of scalar values. -/
def WellFormedUtf8 (s : Str) : Prop :=
  ∃ cs : List Nat, (∀ c ∈ cs, IsScalar c) ∧ s = cs.flatMap encode

/-- The UTF-8 byte-order mark, U+FEFF. -/
def bom : Str := [0xEF, 0xBB, 0xBF]

example : encode 0xFEFF = bom := by decide
example : encode 0x20AC = [0xE2, 0x82, 0xAC] := by decide

/-- The bytes after one leading byte-order mark, if there is one. -/
def dropBom (s : Str) : Str := if bom.isPrefixOf s then s.drop 3 else s

end Blogc.Spec
