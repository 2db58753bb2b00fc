import Verif.Spec.TextLines

/-!
# Lists that are not broken off

A list of blogc-source(7) is a group of lines, ended by an empty line. Every line of the group is an item,
or continues one by as many blanks as the marker of the list takes.
-/

namespace Blogc.Spec

open Blogc

def blank (c : Byte) : Bool := c == c!" " || c == c!"\t"

def digit (c : Byte) : Bool := c!"0" ≤ c && c ≤ c!"9"

/-- The lines up to the next empty one. -/
def block (ls : List Str) : List Str := ls.takeWhile (!·.isEmpty)

/-- The marker of an unordered list with the blanks after it, if the line starts with one. Two equal
characters start a rule, and `*` without blank starts an emphasis. -/
def bullet : Str → Option Str
  | [] => none
  | d :: r =>
    if (d == c!"*" || d == c!"+" || d == c!"-") && r.head? != some d && (d != c!"*" || r.head?.any blank) then
      some (d :: r.takeWhile blank)
    else none

/-- The length of the marker of an ordered list, with the blanks after it. -/
def number (l : Str) : Option Nat :=
  let n := (l.takeWhile digit).length
  if n != 0 && (l.drop n).head? == some c!"." then some (n + 1 + ((l.drop (n + 1)).takeWhile blank).length)
  else none

/-- The line starts with `n` spaces. -/
def indented (n : Nat) (m : Str) : Bool := (List.replicate n c!" ").isPrefixOf m

/-- The line starts with a number, a dot and blanks, together `n` characters, and goes on. -/
def numbered (n : Nat) (m : Str) : Bool :=
  let k := (m.takeWhile digit).length
  k != 0 && (m.drop k).head? == some c!"." && k < n && ((m.drop (k + 1)).take (n - (k + 1))).all blank && n < m.length

/-- A list that starts with the line `l` is not broken off. A quoted line starts no list, and neither does the
line after a `>` alone. -/
def unbrokenAt (l : Str) (ls : List Str) : Bool :=
  (match bullet l with
    | none => true
    | some p => p.length < l.length && (block (l :: ls)).all fun m => p.isPrefixOf m || indented p.length m) &&
  (match number l with
    | none => true
    | some n => n < l.length && (block (l :: ls)).all fun m => numbered n m || indented n m) &&
  (l.head? != some c!">" || (!listLine l && (l.any (!quoteMark ·) || ls.head?.all (!listLine ·))))

def unbroken : List Str → Bool
  | [] => true
  | l :: ls => unbrokenAt l ls && unbroken ls

example : unbroken (lines b!"* a\n* b\n  c\n\n1. x\n2. y\n\n*word* and\n---\n2020 was\n\n> q\n>\n> r\n") = true := by decide
example : unbroken (lines b!"* a\nb\n") = false ∧ unbroken (lines b!"10. a\n9. b\n") = false := by decide

end Blogc.Spec
