import Verif.Spec.Strings
import Verif.Spec.Map

/-!
# Configuration documents

A document as a user writes it: sections with `key = value` lines or list items,
comments and blank lines, values plain or quoted with escapes.
-/

namespace Blogc.Spec.Config

open Blogc Blogc.Spec

/-- One line of a configuration file. -/
inductive Line where
  | blank (ws : Str)
  | comment (mark : Byte) (text : Str)
  | pair (key value : Str) (quoted : Bool)
  | item (value : Str) (quoted : Bool)
  deriving DecidableEq, Repr

structure Section where
  name : Str
  lines : List Line
  deriving DecidableEq, Repr

/-- Comments and blank lines before the first section, then the sections. -/
structure Doc where
  preamble : List Line
  sections : List Section
  deriving DecidableEq, Repr

/-- Backslash before every backslash and double quote. -/
def esc (v : Str) : Str :=
  v.flatMap fun c => if c = c!"\\" ∨ c = c!"\"" then [c!"\\", c] else [c]

def renderValue (v : Str) (quoted : Bool) : Str :=
  if quoted then b!"\"" ++ esc v ++ b!"\"" else v

/-- A line without its end. -/
def Line.render : Line → Str
  | .blank ws => ws
  | .comment m t => m :: t
  | .pair k v q => k ++ b!" = " ++ renderValue v q
  | .item v q => renderValue v q

def renderLines (ls : List Line) : Str := ls.flatMap fun l => l.render ++ b!"\n"

def Section.render (s : Section) : Str := b!"[" ++ s.name ++ b!"]\n" ++ renderLines s.lines

/-- The text of a document. -/
def Doc.render (d : Doc) : Str := renderLines d.preamble ++ d.sections.flatMap Section.render

/-- No line end in a text. -/
def NoNl (s : Str) : Prop := c!"\n" ∉ s ∧ c!"\r" ∉ s

/-- No white space at either end of a text. -/
def Trimmed (s : Str) : Prop :=
  (∀ c, s.head? = some c → ¬ White c) ∧ (∀ c, s.getLast? = some c → ¬ White c)

/-- A value that may be written without quotes. -/
def PlainOk (v : Str) : Prop :=
  NulFree v ∧ NoNl v ∧ c!"\\" ∉ v ∧ Trimmed v ∧ v.head? ≠ some c!"\""

/-- The first byte of a key or plain item does not start a comment or section. -/
def FirstOk (v : Str) : Prop :=
  v ≠ [] ∧ v.head? ≠ some c!"#" ∧ v.head? ≠ some c!";" ∧ v.head? ≠ some c!"["

def ValueOk (v : Str) (quoted : Bool) : Prop := if quoted then NulFree v else PlainOk v

def KeyOk (k : Str) : Prop := NulFree k ∧ NoNl k ∧ c!"=" ∉ k ∧ Trimmed k ∧ FirstOk k

/-- Lines allowed in the preamble. -/
def Line.OkPre : Line → Prop
  | .blank ws => ∀ c ∈ ws, c = c!" " ∨ c = c!"\t"
  | .comment m t => (m = c!"#" ∨ m = c!";") ∧ NoNl t
  | _ => False

/-- Lines allowed in a section; `isList` tells what kind of section it is. -/
def Line.Ok (isList : Bool) : Line → Prop
  | .pair k v q => isList = false ∧ KeyOk k ∧ ValueOk v q
  | .item v q => isList = true ∧ ValueOk v q ∧ (q = false → FirstOk v)
  | l => l.OkPre

def NameOk (n : Str) : Prop := n ≠ [] ∧ NulFree n ∧ NoNl n ∧ c!"]" ∉ n

/-- A well-formed document, for the given names of list sections. -/
def Doc.Ok (d : Doc) (lists : List Str) : Prop :=
  (∀ l ∈ d.preamble, l.OkPre) ∧
  ∀ s ∈ d.sections, NameOk s.name ∧ ∀ l ∈ s.lines, l.Ok (decide (s.name ∈ lists))

/-- The key/value pairs of a section. -/
def Section.pairs (s : Section) : List (Str × Str) :=
  s.lines.filterMap fun
    | .pair k v _ => some (k, v)
    | _ => none

/-- The items of a section. -/
def Section.items (s : Section) : List Str :=
  s.lines.filterMap fun
    | .item v _ => some v
    | _ => none

/-- The section a name stands for: the last one of that name. -/
def Doc.section (d : Doc) (name : Str) : Option Section :=
  d.sections.reverse.find? fun s => s.name == name

/-- The value of a key in a section: the last one given. -/
def Doc.get (d : Doc) (lists : List Str) (sec key : Str) : Option Str :=
  match d.section sec with
  | some s => if sec ∈ lists then none else lastValue s.pairs key
  | none => none

/-- The items of a list section, in order. -/
def Doc.getList (d : Doc) (lists : List Str) (sec : Str) : Option (List Str) :=
  match d.section sec with
  | some s => if sec ∈ lists then some s.items else none
  | none => none

end Blogc.Spec.Config
