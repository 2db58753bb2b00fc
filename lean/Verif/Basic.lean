/-!
# Bytes, byte strings, literals and outcomes

Shared vocabulary of the model of blogc.
-/

namespace Blogc

/-- A C `char`/`uint8_t`. The code only compares bytes for equality, with ASCII
ranges, or through `strcmp` (which compares as `unsigned char`), so the
signedness of `char` is irrelevant. -/
abbrev Byte := UInt8

/-- A byte string. -/
abbrev Str := List UInt8

open Lean in
/-- `b!"abc"` is the list of the UTF-8 bytes of the literal. -/
macro:max "b!" s:str : term => do
  let bytes := s.getString.toUTF8.toList
  let elems ← bytes.mapM fun b => `(($(quote b.toNat) : UInt8))
  `([$(elems.toArray),*])

open Lean in
/-- `c!"a"` is the byte of a one-character ASCII literal. -/
macro:max "c!" s:str : term => do
  match s.getString.toUTF8.toList with
  | [b] => `(($(quote b.toNat) : UInt8))
  | _ => Macro.throwError "c! expects exactly one ASCII character"

/-- The outcome of a C computation: a value, or undefined behaviour
(out-of-bounds access, null pointer dereference, use after free, ...). -/
inductive Res (α : Type u) where
  | ok (a : α)
  | ub
  deriving Repr, DecidableEq

namespace Res

/-- Sequencing: undefined behaviour is absorbing. -/
@[simp] def bind {α : Type u} {β : Type v} : Res α → (α → Res β) → Res β
  | .ok a, f => f a
  | .ub, _ => .ub

@[simp] def map {α : Type u} {β : Type v} (f : α → β) : Res α → Res β
  | .ok a => .ok (f a)
  | .ub => .ub

instance : Monad Res where
  pure := Res.ok
  bind := Res.bind

@[simp] theorem bind_ok {α β : Type u} (a : α) (f : α → Res β) : (Res.ok a >>= f) = f a := rfl
@[simp] theorem bind_ub {α β : Type u} (f : α → Res β) : ((Res.ub : Res α) >>= f) = Res.ub := rfl
@[simp] theorem pure_eq {α : Type u} (a : α) : (pure a : Res α) = Res.ok a := rfl

/-- The computation is defined. -/
def isOk {α : Type u} : Res α → Bool
  | .ok _ => true
  | .ub => false

end Res

/-- The C string stored in a buffer: everything before the first NUL. -/
def cstr (s : Str) : Str := s.takeWhile (· != 0)

/-- A byte string that can be a C string: it has no NUL. -/
def NulFree (s : Str) : Prop := ∀ b ∈ s, b ≠ 0

instance (s : Str) : Decidable (NulFree s) := inferInstanceAs (Decidable (∀ b ∈ s, b ≠ 0))

/-- The bytes `src[start], ..., src[stop - 1]`. -/
def slice (src : Str) (start stop : Nat) : Str := (src.drop start).take (stop - start)

end Blogc
