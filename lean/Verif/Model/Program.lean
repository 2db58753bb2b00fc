import Verif.Model.Main
import Verif.Model.File
import Verif.Model.Source

/-!
# The program blogc on a set of files

Model of `blogc_template_parse_from_file` and `blogc_source_parse_from_file` (src/blogc/loader.c), and
`main` (Model/Main.lean) with them.
-/

namespace Blogc.Program

open Blogc

/-- The regular files that can be opened, with their bytes. -/
abbrev Files := Str → Option Str

/-- `bc_file_get_contents(f, true, ...)`, src/common/file.c:15-61; `none` is an error: the file cannot be
opened (lines 22-29) or is not UTF-8. `fuel` bounds the rounds of its loop. -/
def readText (files : Files) (fuel : Nat) (f : Str) : Run (Option Str) :=
  match files f with
  | none => .ok none
  | some bytes =>
    match fileGetContents true (regularFile bytes) fuel with
    | none => .out
    | some .ub => .ub
    | some (.ok (.contents s)) => .ok (some s)
    | some (.ok .notUtf8) => .ok none

/-- Lines 84-93 of src/blogc/loader.c: the limit given for all files. (A value that is not a number only
gives a warning.) -/
def maxdepthOf : Option Str → Int
  | none => -1
  | some m => Source.toInt (strtol m).1

/-- Lines 97-102: the name of the file. -/
def setFilename (f : Str) (t : Trie Str) : Trie Str :=
  match getFilename (some f) with
  | some n => (t.insert b!"FILENAME" n).1
  | none => t

/-- `blogc_source_parse_from_file`, src/blogc/loader.c:73-106; `none` is an error. `depth` bounds the
nesting of blockquotes. -/
def readSource (files : Files) (depth fuel : Nat) (maxdepth : Option Str) (f : Str) : Run (Option (Trie Str)) := do
  match ← readText files fuel f with
  | none => pure none
  | some s =>
    match ← Source.parse (Content.parse depth) s (maxdepthOf maxdepth) with
    | .error _ => pure none
    | .ok t => pure (some (setFilename f t))

/-- `blogc_template_parse_from_file`, src/blogc/loader.c:57-70; `none` is an error. -/
def readTemplate (files : Files) (fuel : Nat) (f : Str) : Run (Option (List Template.Node)) := do
  match ← readText files fuel f with
  | none => pure none
  | some s =>
    match Template.parse s with
    | .ub => .ub
    | .ok (.error _) => pure none
    | .ok (.ok l) => pure (some l)

/-- The value of a computation that ends well. The model of `main` knows only errors of the functions
above: undefined behaviour and lack of fuel are counted as such here. Theorems about `env` must be read
accordingly: those that conclude that a page is written say that neither happened. -/
def value {α : Type} : Run (Option α) → Option α
  | .ok x => x
  | .ub => none
  | .out => none

/-- What does not depend on the files. -/
structure Host where
  version : Str
  make : Bool
  stdin : Str
  sys : Render.Sys

/-- What `main` gets from the rest of the program; `blogc_convert_datetime` (src/blogc/datetime-parser.c)
is used with the format `%s` for sorting (src/blogc/loader.c:171). -/
def env (h : Host) (files : Files) (depth fuel : Nat) : Main.Env where
  version := h.version
  make := h.make
  stdin := h.stdin
  loader := {
    parse := fun m f => value (readSource files depth fuel m f)
    stamp := fun d => (DateTime.parse d).bind (h.sys.strftime b!"%s") }
  template := fun f => value (readTemplate files fuel f)
  sys := h.sys
  fuel := fuel

/-- blogc with the arguments `args`. -/
def run (h : Host) (files : Files) (depth fuel : Nat) (args : List Str) : Prog Main.Call Main.Outcome :=
  Main.main (env h files depth fuel) args

end Blogc.Program
