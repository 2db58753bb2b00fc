import Verif.Spec.Blocks
import Verif.Spec.Source
import Verif.Spec.Lists
import Verif.Spec.Template

/-!
# Inputs with which blogc ends in an orderly way
-/

namespace Blogc.Spec

open Blogc

/-- A content: either without lines that start like a list item or end with a backslash, all lines ending
in the same way, or (with line endings of one character) with lists that are not broken off, or written with
the elements of blogc-source(7). -/
inductive Manageable (s : Str) : Prop
  | plain {e : Str} : e ∈ endings → OneEnding e s → (∀ l ∈ lines s, l.getLast? ≠ some c!"\\") →
      (∀ l ∈ lines s, listLine l = false) → Manageable s
  | lists {e : Str} : e = b!"\n" ∨ e = b!"\r" → OneEnding e s → (∀ l ∈ lines s, l.getLast? ≠ some c!"\\") →
      unbroken (lines s) = true → Manageable s
  | written {e : Str} {ps : List Piece} : LineEnding e → Doc e true s ps → Manageable s

/-- A source file (without byte-order mark), whatever its headers, whether it is accepted or not. -/
structure ManageableSource (s : Str) : Prop where
  text : NulFree s
  small : s.length < 2 ^ 63
  content : ∀ d : Source.Doc, d.Ok → 2 ≤ d.content.length → d.text = s → Manageable d.content

end Blogc.Spec
