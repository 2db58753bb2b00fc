import Verif.Basic

/-!
# Lines of a text, and list markers
-/

namespace Blogc.Spec

open Blogc

def newline (c : Byte) : Bool := c == c!"\n" || c == c!"\r"

/-- The first line, and the lines after it. -/
def splitLines : Str → Str × List Str
  | [] => ([], [])
  | c :: r => if newline c then ([], (splitLines r).1 :: (splitLines r).2)
    else (c :: (splitLines r).1, (splitLines r).2)

/-- The lines of a text, without their ends (a line ending of two characters counts as two:
the line between them is empty). -/
def lines (s : Str) : List Str := (splitLines s).1 :: (splitLines s).2

def endings : List Str := [b!"\n", b!"\r", b!"\r\n", b!"\n\r"]

/-- A text whose lines all end in the same way. -/
inductive OneEnding (e : Str) : Str → Prop
  | last {l : Str} : (∀ c ∈ l, newline c = false) → OneEnding e l
  | line {l s : Str} : (∀ c ∈ l, newline c = false) → OneEnding e s → OneEnding e (l ++ e ++ s)

/-- Characters that can introduce a list item, a ruler or an ordered list item. -/
def listMarker (c : Byte) : Bool :=
  c == c!"*" || c == c!"+" || c == c!"-" || (c!"0" ≤ c && c ≤ c!"9")

def quoteMark (c : Byte) : Bool := c == c!">" || c == c!" " || c == c!"\t"

/-- The line may be an item of a list, possibly inside quotations. -/
def listLine (l : Str) : Bool :=
  match l.dropWhile quoteMark with
  | [] => false
  | c :: _ => listMarker c

example : lines b!"a\n* b\r\nc" = [b!"a", b!"* b", b!"", b!"c"] := by decide
example : listLine b!"> > 1. x" = true ∧ listLine b!"> x" = false := by decide

end Blogc.Spec
