import Verif.Model.GitMemory

/-!
# Keeping account of what the git receiver has in use
-/

namespace Blogc.Spec.GitAccount

open Blogc Blogc.GitMem

/-- One event: what is in use afterwards. Nothing may be acquired while it is in use, or used or
released while it is not. -/
def account (l : List Thing) : Event → Option (List Thing)
  | .acquire x => if x ∈ l then none else some (x :: l)
  | .release x => if x ∈ l then some (l.erase x) else none
  | .use x => if x ∈ l then some l else none

/-- What is in use after some events, if all of them are allowed. -/
def inUse : List Event → List Thing → Option (List Thing)
  | [], l => some l
  | e :: rest, l => (account l e).bind (inUse rest)

/-- The events are allowed. -/
def Allowed (ev : List Event) : Prop := ∃ l, inUse ev [] = some l

/-- The command for git-shell does not fit in 4096 bytes: the name of the command, a blank, the
quoted path of the repository and the end of the text. -/
def TooBig (bd : Option Str) (arg : Str) : Prop :=
  ∃ d p, bd = some d ∧ GitShell.parse arg = some p ∧
    4096 < (arg.takeWhile (· != c!" ")).length + (shellQuote (some (d ++ b!"/repos/" ++ p))).length + 2

/-- Nothing is in use when a hook returns. (`rmdir_recursive` ends the process with status 2.) -/
def Done : GitHooks.Outcome → List Thing → Prop
  | .exit n, l => n = 2 ∨ l = []
  | .undefined, _ => True

end Blogc.Spec.GitAccount
