import Verif.Basic

/-!
# Nested lists
-/

namespace Blogc.Spec.Toctree

open Blogc

/-- The lines of a table of contents. -/
inductive Tok where
  | openList
  | closeList
  | item (content : Str)

/-- A line: any number of spaces, the tag, the line ending. -/
def Tok.text : Tok → Str
  | .openList => b!"<ul>"
  | .closeList => b!"</ul>"
  | .item c => b!"<li>" ++ c ++ b!"</li>"

/-- Tags with their indentation, written out. -/
def write (endl : Str) (toks : List (Nat × Tok)) : Str :=
  toks.flatMap fun t => List.replicate t.1 0x20 ++ t.2.text ++ endl

/-- Reads tags at nesting depth `d`. The outcome is the list of the items with
their depths; `none` when a list is closed that was not opened, when one is left
open, when an item is outside all lists, or when there is something after the
outermost list. -/
def nest : Nat → List Tok → Option (List (Nat × Str))
  | 0, [] => some []
  | _ + 1, [] => none
  | d, .openList :: r => nest (d + 1) r
  | 0, .closeList :: _ => none
  | 0, .item _ :: _ => none
  | 1, .closeList :: r => if r.isEmpty then some [] else none
  | d + 2, .closeList :: r => nest (d + 1) r
  | d + 1, .item c :: r => (nest (d + 1) r).map ((d + 1, c) :: ·)

example : nest 0 [.openList, .item b!"a", .openList, .item b!"b", .closeList, .closeList] =
    some [(1, b!"a"), (2, b!"b")] := by decide

end Blogc.Spec.Toctree
