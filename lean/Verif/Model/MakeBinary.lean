import Verif.Model.MakeExec
import Verif.Model.MakeNative

/-!
# Model of the search for blogc and blogc-runserver, src/blogc-make/exec.c
-/

namespace Blogc.Make

open Blogc

/-- What a path is, for the user who runs blogc-make: nothing, a file that can be
executed, a directory that can be entered, or something else. -/
inductive PathKind where
  | missing | program | folder | other
  deriving DecidableEq

/-- What blogc-make is run with: the name it is run by, the environment and the
files. -/
structure Host where
  argv0 : Option Str
  env : Str → Option Str
  kind : Str → PathKind

/-- `access(path, X_OK)` of POSIX, src/blogc-make/exec.c:63: it also succeeds for a
directory that can be entered. -/
def Host.accessX (h : Host) (path : Str) : Bool :=
  match h.kind path with
  | .program | .folder => true
  | .missing | .other => false

/-- The path next to the running program, src/blogc-make/exec.c:58-62. -/
def besidePath (argv0 bin : Str) : Str := dirname argv0 ++ b!"/" ++ bin

/-- The second try, src/blogc-make/exec.c:57-69. -/
def nearBinary (h : Host) (bin : Str) : Option Str :=
  match h.argv0 with
  | none => none
  | some a =>
    if c!"/" ∈ a then
      if h.accessX (besidePath a bin) then some (besidePath a bin) else none
    else none

/-- `bm_exec_find_binary`, src/blogc-make/exec.c:31-73. `embedded` is `MAKE_EMBEDDED`
(lines 34-41); `bin` is never NULL (src/blogc-make/ctx.c:215-217). -/
def lookBinary (embedded : Bool) (h : Host) (bin var : Str) : Str :=
  match (if embedded ∧ bin = b!"blogc" then h.argv0 else none) with
  | some a => shellQuote (some a)
  | none => findBinary bin (h.env var) (nearBinary h bin)

/-- The `blogc` member of the context, src/blogc-make/ctx.c:215. -/
def blogcBinary (embedded : Bool) (h : Host) : Str := lookBinary embedded h b!"blogc" b!"BLOGC"

/-- The `blogc_runserver` member of the context, src/blogc-make/ctx.c:216-217. -/
def runserverBinary (embedded : Bool) (h : Host) : Str :=
  lookBinary embedded h b!"blogc-runserver" b!"BLOGC_RUNSERVER"

end Blogc.Make
