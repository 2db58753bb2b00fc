import Verif.Model.MakeRules

/-!
# Model of `src/blogc-make/main.c`
-/

namespace Blogc.MakeMain

open Blogc

/-- The locals of `main` that the arguments set, src/blogc-make/main.c:64-67. -/
structure Opts where
  rules : List Str := []
  verbose : Bool := false
  dev : Bool := false
  blogcfile : Option Str := none
  deriving DecidableEq, Repr

/-- The loop of src/blogc-make/main.c:70-107. `pending` tells that `-f` waits for
`argv[++i]`; when there is no such argument the option is ignored (line 88). The
error is the exit status. `embedded` is `MAKE_EMBEDDED`. -/
def argLoop (embedded : Bool) : (pending : Bool) → List Str → Opts → Except Int Opts
  | _, [], o => .ok o
  | true, v :: rest, o => argLoop embedded false rest { o with blogcfile := some v }
  | false, a :: rest, o =>
    if a.head? = some c!"-" then
      match a.tail with
      | [] => .error 1
      | c :: attached =>
        if c = c!"h" ∨ c = c!"v" then .error 0
        else if c = c!"D" then argLoop embedded false rest { o with dev := true }
        else if c = c!"V" then argLoop embedded false rest { o with verbose := true }
        else if c = c!"f" then
          if attached ≠ [] then argLoop embedded false rest { o with blogcfile := some attached }
          else argLoop embedded true rest o
        else if embedded ∧ c = c!"m" then argLoop embedded false rest o
        else .error 1
    else argLoop embedded false rest { o with rules := o.rules ++ [a] }

/-- What the program depends on. -/
structure Env where
  /-- `bm_ctx_new` for a settings file, line 113: `none` is an error, and otherwise
  the setting `run_from_make` (line 123; NULL is `none`). -/
  load : Str → Option (Option Str)
  /-- The environment variable `MAKEFLAGS` is set, line 124. -/
  makeflags : Bool

/-- How `main` goes on after the arguments: it exits without running any rule, or
it calls `bm_rule_executor` for these rules, with the settings of this file and
these two options (lines 120, 121 and 131). -/
inductive Plan where
  | exit (status : Int)
  | execute (file : Str) (dev verbose : Bool) (rules : List Str)
  deriving DecidableEq, Repr

/-- src/blogc-make/main.c:70-131, for the arguments after the first. Messages are
not modelled. -/
def plan (embedded : Bool) (env : Env) (args : List Str) : Plan :=
  match argLoop embedded false args {} with
  | .error status => .exit status
  | .ok o =>
    let rules := if o.rules = [] then [b!"all"] else o.rules
    let file := o.blogcfile.getD b!"blogcfile"
    match env.load file with
    | none => .exit 1
    | some fromMake =>
      if strToBool fromMake && !env.makeflags then .exit 1
      else .execute file o.dev o.verbose rules

/-- The exit status of `main`, src/blogc-make/main.c:52-141. `run` tells the status
of a request, for a settings file and the two options; the outcome `none` never
happens (`C55.executor_total`). -/
def main (embedded : Bool) (env : Env)
    (run : (file : Str) → (dev verbose : Bool) → (i : Nat) → (name : Str) → Option (Trie Str) → Int)
    (args : List Str) : Option Int :=
  match plan embedded env args with
  | .exit status => some status
  | .execute file dev verbose rules => Make.executor Make.ruleNames (run file dev verbose) rules

end Blogc.MakeMain
