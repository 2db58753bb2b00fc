import Verif.Basic

/-!
# Percent-encoding (RFC 3986, section 2.1)
-/

namespace Blogc.Url

open Blogc

/-- Value of a hexadecimal digit. -/
def hexVal (c : Byte) : Option Nat :=
  match b!"0123456789abcdef".idxOf? c with
  | some n => some n
  | none => b!"0123456789ABCDEF".idxOf? c

/-- `t` is a percent-encoding of `s`: every byte is written literally, or as `%`
and two hexadecimal digits; a literal byte satisfies `lit`, and is not `%`. -/
inductive Encodes (lit : Byte → Prop) : Str → Str → Prop where
  | nil : Encodes lit [] []
  | literal {c : Byte} {t s : Str} : c ≠ c!"%" → lit c → Encodes lit t s →
      Encodes lit (c :: t) (c :: s)
  | escaped {a b : Byte} {x y : Nat} {t s : Str} : hexVal a = some x → hexVal b = some y →
      Encodes lit t s → Encodes lit (c!"%" :: a :: b :: t) (UInt8.ofNat (16 * x + y) :: s)

/-- The text starts with two hexadecimal digits. -/
def TwoHex (t : Str) : Prop := ∃ a b r x y, t = a :: b :: r ∧ hexVal a = some x ∧ hexVal b = some y

end Blogc.Url
