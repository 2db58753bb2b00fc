import Verif.Model.Strings

/-!
# Lists of files as a user writes them
-/

namespace Blogc.Spec.FileList

open Blogc

/-- The lines of a text: a carriage return or a newline ends a line, the last
line needs no ending. -/
def lines : Str → List Str
  | [] => [[]]
  | c :: rest =>
    if c = 0x0a ∨ c = 0x0d then [] :: lines rest
    else match lines rest with
      | [] => [[c]]
      | l :: ls => (c :: l) :: ls

/-- The entry of a line: the trimmed line, unless it is blank or a comment. -/
def entry (line : Str) : Option Str :=
  match strip line with
  | [] => none
  | c :: l => if c = 0x23 then none else some (c :: l)

example : (lines b!"a\n\n # b\r\n c d ").filterMap entry = [b!"a", b!"c d"] := by decide

end Blogc.Spec.FileList
