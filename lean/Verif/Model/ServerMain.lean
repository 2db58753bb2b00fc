import Verif.Model.Numbers

/-!
# Model of `src/blogc-runserver/main.c`
-/

namespace Blogc.ServerMain

open Blogc

/-- The locals of `main` that the arguments set, src/blogc-runserver/main.c:57-60.
NULL is `none`. The counter `args` of line 69 is 0 exactly while `docroot` is
NULL, since a command line argument is never NULL. -/
structure Opts where
  host : Option Str := none
  port : Option Str := none
  docroot : Option Str := none
  threads : Nat := 20
  deriving DecidableEq, Repr

/-- How `main` ends: `br_httpd_run` is called (lines 139-142), the program exits
with a status, or `strtoul(NULL, …)` is undefined (line 97). -/
inductive Outcome where
  | run (host port docroot : Str) (threads : Nat)
  | exit (status : Nat)
  | undefined
  deriving DecidableEq, Repr

/-- An option with its value, src/blogc-runserver/main.c:80-101. The warning of
line 99 is not modelled. -/
def withValue (opt : Byte) (value : Str) (o : Opts) : Opts :=
  if opt = c!"t" then { o with host := some value }
  else if opt = c!"p" then { o with port := some value }
  else { o with threads := strtoul value }

/-- An option whose value would be `argv[argc]`, which is NULL:
`bc_strdup(NULL)` is NULL (lines 84 and 90), and `strtoul(NULL, …)` on line 97 is
undefined. -/
def withoutValue (opt : Byte) (o : Opts) : Option Opts :=
  if opt = c!"t" then some { o with host := none }
  else if opt = c!"p" then some { o with port := none }
  else none

/-- The loop of src/blogc-runserver/main.c:71-121. `pending` is the option whose
value is `argv[++i]`. -/
def argLoop : (pending : Option Byte) → List Str → Opts → Except Outcome Opts
  | none, [], o => .ok o
  | some c, [], o =>
    match withoutValue c o with
    | none => .error .undefined
    | some o => .ok o
  | some c, v :: rest, o => argLoop none rest (withValue c v o)
  | none, a :: rest, o =>
    if a.head? = some c!"-" then
      match a.tail with
      | [] => .error (.exit 1)
      | c :: attached =>
        if c = c!"h" ∨ c = c!"v" then .error (.exit 0)
        else if c = c!"t" ∨ c = c!"p" ∨ c = c!"m" then
          if attached = [] then argLoop (some c) rest o
          else argLoop none rest (withValue c attached o)
        else .error (.exit 1)
    else if o.docroot.isSome then .error (.exit 1)
    else argLoop none rest { o with docroot := some a }

/-- `main`, src/blogc-runserver/main.c:47-152, for the arguments after the first
and the two environment variables of lines 64 and 66. The status of
`br_httpd_run` is not modelled here. -/
def main (envHost envPort : Option Str) (args : List Str) : Outcome :=
  match argLoop none args {} with
  | .error e => e
  | .ok o =>
    match o.docroot with
    | none => .exit 1
    | some docroot =>
      if o.threads = 0 ∨ 1000 < o.threads then .exit 1
      else .run (o.host.getD (envHost.getD b!"127.0.0.1")) (o.port.getD (envPort.getD b!"8080")) docroot o.threads

end Blogc.ServerMain
