import Verif.Basic

/-!
# What the command line of blogc-make means

The manual (man/blogc-make.1.ronn): `blogc-make [-D] [-V] [-f FILE] [RULE ...]`.
-/

namespace Blogc.MakeArgs

open Blogc

/-- A part of the command line. `joined` tells that the name of the file stands in
the same argument as the option. -/
inductive Item where
  | dev
  | verbose
  | file (joined : Bool) (path : Str)
  | rule (request : Str)
  deriving DecidableEq, Repr

/-- The arguments of an item. -/
def Item.args : Item → List Str
  | .dev => [b!"-D"]
  | .verbose => [b!"-V"]
  | .file j p => if j then [b!"-f" ++ p] else [b!"-f", p]
  | .rule r => [r]

/-- A joined name is not empty, and a request does not look like an option. -/
def Item.Ok : Item → Prop
  | .dev | .verbose => True
  | .file j p => j = true → p ≠ []
  | .rule r => r.head? ≠ some c!"-"

instance (i : Item) : Decidable i.Ok := by
  cases i <;> unfold Item.Ok <;> infer_instance

def Item.file? : Item → Option Str
  | .file _ p => some p
  | _ => none
def Item.rule? : Item → Option Str
  | .rule r => some r
  | _ => none

/-- The arguments of a command line. -/
def args (items : List Item) : List Str := items.flatMap Item.args

/-- The settings file: the last one given, or `blogcfile`. -/
def file (items : List Item) : Str := (items.filterMap Item.file?).getLast?.getD b!"blogcfile"

/-- The requests in the order given, or `all`. -/
def rules (items : List Item) : List Str :=
  match items.filterMap Item.rule? with
  | [] => [b!"all"]
  | l => l

/-- The rules of the manual, man/blogc-make.1.ronn: helper rules and build rules. -/
def manualRules : List Str :=
  [b!"all", b!"clean", b!"runserver", b!"watch", b!"atom_dump"] ++
  [b!"index", b!"atom", b!"atom_tags", b!"pagination", b!"pagination_tags", b!"posts", b!"tags", b!"pages", b!"copy"]

end Blogc.MakeArgs
