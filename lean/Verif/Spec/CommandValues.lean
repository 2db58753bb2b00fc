import Verif.Model.Main

/-!
# How often an option is given on a command line
-/

namespace Blogc.Spec.CommandValues

open Blogc

/-- The option `-c` alone: its value is the next argument. -/
def isBare (c : Byte) (a : Str) : Bool := a == [c!"-", c]

/-- The option `-c` with its value in the same argument. -/
def isJoined (c : Byte) (a : Str) : Bool := a.take 2 == [c!"-", c] && decide (2 < a.length)

/-- How often the option `c` is given with a value; options that take one are `-e`, `-t`, `-o`, `-p` and
`-D`. -/
def times (c : Byte) : List Str → Nat
  | [] => 0
  | [a] => if isJoined c a then 1 else 0
  | a :: v :: rest =>
    if b!"etopD".any fun x => isBare x a then (if isBare c a then 1 else 0) + times c rest
    else (if isJoined c a then 1 else 0) + times c (v :: rest)

end Blogc.Spec.CommandValues
