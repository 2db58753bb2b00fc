import Verif.Basic

/-!
# HTML character references
-/

namespace Blogc.Spec

open Blogc

/-- The character references used, without the leading `&`, and what they stand for. -/
def references : List (Str × Byte) :=
  [(b!"amp;", c!"&"), (b!"lt;", c!"<"), (b!"gt;", c!">"), (b!"quot;", c!"\""),
   (b!"#x27;", c!"'"), (b!"#x2F;", c!"/")]

/-- A text in which every `&` starts a reference and none of `< > " '` occurs: it
cannot open a tag, close an attribute value or start another reference. -/
def HtmlSafe (s : Str) : Prop :=
  (∀ c ∈ s, c ≠ c!"<" ∧ c ≠ c!">" ∧ c ≠ c!"\"" ∧ c ≠ c!"'") ∧
  ∀ a b, s = a ++ c!"&" :: b → ∃ r ∈ references, r.1 <+: b

/-- Decode from left to right; `skip` bytes belong to a reference already decoded. -/
def decodeFrom : (skip : Nat) → Str → Str
  | _, [] => []
  | k + 1, _ :: r => decodeFrom k r
  | 0, c :: r =>
    if c = c!"&" then
      match references.find? (fun e => e.1.isPrefixOf r) with
      | some (e, b) => b :: decodeFrom e.length r
      | none => c :: decodeFrom 0 r
    else c :: decodeFrom 0 r

/-- The text a browser shows for `s`. -/
def decode (s : Str) : Str := decodeFrom 0 s

end Blogc.Spec
