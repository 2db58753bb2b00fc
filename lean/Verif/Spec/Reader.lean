import Verif.Basic

/-!
# Reading HTML as a browser does

A text is read from left to right, with the names of the elements that are open.
-/

namespace Blogc.Spec

open Blogc

/-- What a tag does. -/
inductive Tag where
  | opens (name : Str)
  | closes (name : Str)
  | stands                 -- an element without content
  | wrong
  deriving DecidableEq, Repr

/-- The parts of a tag outside and inside of quotation marks, in turn. -/
def quoted : Str → List Str
  | [] => [[]]
  | c :: r =>
    if c = c!"\"" then [] :: quoted r
    else match quoted r with
      | [] => [[c]]
      | x :: xs => (c :: x) :: xs

def headerName (n : Str) : Bool :=
  match n with
  | [] => false
  | c :: ds => c == c!"h" && !ds.isEmpty && ds.all fun d => c!"0" ≤ d && d ≤ c!"9"

def elements : List Str :=
  [b!"p", b!"em", b!"strong", b!"code", b!"pre", b!"blockquote", b!"ul", b!"ol", b!"li", b!"a"]

/-- The meaning of the characters between `<` and `>`. -/
def tag (t : Str) : Tag :=
  match quoted t with
  | [x] =>
    if x = b!"br /" ∨ x = b!"hr /" then .stands
    else match x with
      | [] => .wrong
      | c :: n => if c = c!"/" then (if n ∈ elements ∨ headerName n = true then .closes n else .wrong)
        else if x ∈ elements then .opens x else .wrong
  | [x, _, []] =>
    if x = b!"a href=" then .opens b!"a"
    else if headerName (x.takeWhile (· != c!" ")) = true ∧ x.dropWhile (· != c!" ") = b!" id=" then
      .opens (x.takeWhile (· != c!" "))
    else .wrong
  | [x, _, y, _, []] => if x = b!"img src=" ∧ y = b!" alt=" then .stands else .wrong
  | _ => .wrong

/-- The open elements after a tag. -/
def act (stack : List Str) : Tag → Option (List Str)
  | .opens n => some (n :: stack)
  | .closes n => match stack with
    | [] => none
    | m :: rest => if m = n then some rest else none
  | .stands => some stack
  | .wrong => none

/-- Reading a text; `inside` are the characters of a tag that are already read. -/
def read (stack : List Str) : (inside : Option Str) → Str → Bool
  | none, [] => stack.isEmpty
  | some _, [] => false
  | none, c :: r =>
    if c = c!"<" then read stack (some []) r
    else if c = c!">" then false
    else read stack none r
  | some t, c :: r =>
    if c = c!">" then
      match act stack (tag t) with
      | some stack' => read stack' none r
      | none => false
    else if c = c!"<" then false
    else read stack (some (t ++ [c])) r

/-- Every tag is one that is known, and every element that is opened is closed again, the
last one first. -/
def wellFormed (s : Str) : Bool := read [] none s

example : wellFormed b!"<h1 id=\"a-b\">A <em>b</em></h1>\n<p>c <img src=\"x\" alt=\"y\"> <br />d</p>\n" = true := by decide +kernel
example : wellFormed b!"<p><em>a</p></em>" = false ∧ wellFormed b!"<p>a" = false ∧ wellFormed b!"a < b" = false ∧
    wellFormed b!"<a href=\"x\" onclick=\"y\">a</a>" = false ∧ wellFormed b!"<b>a</b>" = false := by decide +kernel

end Blogc.Spec
