import Verif.Basic

/-!
# Lines of a text

LF, CR, CRLF and LFCR each end one line.
-/

namespace Blogc.Spec

open Blogc

/-- Length of the line terminator at the start of a text, 0 if there is none. -/
def termLen : Str → Nat
  | 0x0a :: 0x0d :: _ => 2
  | 0x0d :: 0x0a :: _ => 2
  | 0x0a :: _ => 1
  | 0x0d :: _ => 1
  | _ => 0

/-- The line terminators of a text as (start, end) offsets, in order; the text
starts at offset `i`. -/
def terminators : Str → Nat → List (Nat × Nat)
  | [], _ => []
  | [c], i => if termLen [c] = 1 then [(i, i + 1)] else []
  | c :: d :: rest, i =>
    if termLen (c :: d :: rest) = 2 then (i, i + 2) :: terminators rest (i + 2)
    else if termLen (c :: d :: rest) = 1 then (i, i + 1) :: terminators (d :: rest) (i + 1)
    else terminators (d :: rest) (i + 1)

/-- The terminators that start before an offset. -/
def termsBefore (src : Str) (at_ : Nat) : List (Nat × Nat) :=
  (terminators src 0).filter (fun t => t.1 < at_)

/-- One-based line number of an offset. -/
def lineNumber (src : Str) (at_ : Nat) : Nat := (termsBefore src at_).length + 1

/-- Offset where the line of an offset starts. -/
def lineStart (src : Str) (at_ : Nat) : Nat :=
  match (termsBefore src at_).getLast? with
  | some t => t.2
  | none => 0

/-- Offset where the line of an offset ends, for an offset inside the line. -/
def lineEnd (src : Str) (at_ : Nat) : Nat :=
  at_ + ((src.drop at_).takeWhile (fun c => c != 0x0a && c != 0x0d)).length

/-- The offset is of a character of a line, or right after one. -/
def OnLine (src : Str) (at_ : Nat) : Prop :=
  ∃ k c, (k = at_ ∨ k + 1 = at_) ∧ src[k]? = some c ∧ c ≠ 0x0a ∧ c ≠ 0x0d

/-- One-based column of an offset. -/
def column (src : Str) (at_ : Nat) : Nat := at_ - lineStart src at_ + 1

example : terminators b!"ab\r\nc\n\n" 0 = [(2, 4), (5, 6), (6, 7)] := by decide
example : lineNumber b!"ab\r\nc\n\n" 4 = 2 ∧ column b!"ab\r\nc\n\n" 4 = 1 ∧
    column b!"ab\r\nc\n\n" 1 = 2 := by decide

end Blogc.Spec
