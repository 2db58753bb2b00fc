import Verif.Spec.MakeSettings
import Verif.Spec.Utf8

/-!
# The command line of blogc(1)
-/

namespace Blogc.Spec.CommandLine

open Blogc.Spec.MakeSettings

/-- An option or a source file. `sep` tells that the value is an argument of its
own; otherwise it is attached to the option. -/
inductive Opt where
  | debug | stdin | listing
  | entry (v : Str) (sep : Bool)
  | template (v : Str) (sep : Bool)
  | output (v : Str) (sep : Bool)
  | print (v : Str) (sep : Bool)
  | define (k v : Str) (sep : Bool)
  | source (f : Str)
  deriving DecidableEq, Repr

/-- The arguments for an option `name` with the value `v`. -/
def valued (name v : Str) (sep : Bool) : List Str := if sep then [name, v] else [name ++ v]

/-- The arguments that are typed for it. -/
def Opt.args : Opt → List Str
  | .debug => [b!"-d"]
  | .stdin => [b!"-i"]
  | .listing => [b!"-l"]
  | .entry v sep => valued b!"-e" v sep
  | .template v sep => valued b!"-t" v sep
  | .output v sep => valued b!"-o" v sep
  | .print v sep => valued b!"-p" v sep
  | .define k v sep => valued b!"-D" (k ++ b!"=" ++ v) sep
  | .source f => [f]

/-- A value that is attached is not empty, a definition is valid, and a source file
does not look like an option. -/
def Opt.Ok : Opt → Prop
  | .debug | .stdin | .listing => True
  | .entry v sep | .template v sep | .output v sep | .print v sep => sep = false → v ≠ []
  | .define k v _ => ValidKey k ∧ WellFormedUtf8 (k ++ b!"=" ++ v)
  | .source f => f.head? ≠ some c!"-"

def entryOf : Opt → Option Str | .entry v _ => some v | _ => none
def templateOf : Opt → Option Str | .template v _ => some v | _ => none
def outputOf : Opt → Option Str | .output v _ => some v | _ => none
def printOf : Opt → Option Str | .print v _ => some v | _ => none
def sourceOf : Opt → Option Str | .source f => some f | _ => none
def definitionOf : Opt → Option (Str × Str) | .define k v _ => some (k, v) | _ => none

end Blogc.Spec.CommandLine
