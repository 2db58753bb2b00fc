import Verif.Model.Numbers

/-!
# What the command line of the web server means

The manual (man/blogc-runserver.1.ronn): `blogc-runserver [-t HOST] [-p PORT]
[-m THREADS] DOCROOT`. The value of an option may be part of the same argument.
-/

namespace Blogc.ServerArgs

open Blogc

/-- A part of the command line. `joined` tells that the value stands in the same
argument as the option. -/
inductive Item where
  | host (joined : Bool) (value : Str)
  | port (joined : Bool) (value : Str)
  | threads (joined : Bool) (value : Str)
  | root (path : Str)
  deriving DecidableEq, Repr

/-- An option with its value. -/
def opt (name : Str) (joined : Bool) (value : Str) : List Str :=
  if joined then [name ++ value] else [name, value]

/-- The arguments of an item. -/
def Item.args : Item → List Str
  | .host j v => opt b!"-t" j v
  | .port j v => opt b!"-p" j v
  | .threads j v => opt b!"-m" j v
  | .root d => [d]

/-- A joined value is not empty, and the name of a directory does not look like an
option. -/
def Item.Ok : Item → Prop
  | .host j v | .port j v | .threads j v => j = true → v ≠ []
  | .root d => d.head? ≠ some c!"-"

instance (i : Item) : Decidable i.Ok := by
  cases i <;> unfold Item.Ok <;> infer_instance

def Item.host? : Item → Option Str
  | .host _ v => some v
  | _ => none
def Item.port? : Item → Option Str
  | .port _ v => some v
  | _ => none
def Item.threads? : Item → Option Str
  | .threads _ v => some v
  | _ => none
def Item.root? : Item → Option Str
  | .root d => some d
  | _ => none

/-- The last value given for an option, if any. -/
def last (f : Item → Option Str) (items : List Item) : Option Str := (items.filterMap f).getLast?

/-- The arguments of a command line. -/
def args (items : List Item) : List Str := items.flatMap Item.args

/-- The number of threads asked for. -/
def threads (items : List Item) : Nat := (last Item.threads? items).elim 20 strtoul

end Blogc.ServerArgs
