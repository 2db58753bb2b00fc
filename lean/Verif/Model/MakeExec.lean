import Verif.Model.Trie
import Verif.Model.Strings

/-!
# Model of the command lines of src/blogc-make/exec.c
-/

namespace Blogc.Make

open Blogc

/-- `bm_exec_find_binary`, src/blogc-make/exec.c:31-73, without `MAKE_EMBEDDED`.
`env` is the value of the environment variable, `near` the path of the
executable next to the running program, when there is one that can be executed
(lines 57-69). -/
def findBinary (bin : Str) (env near : Option Str) : Str :=
  match env with
  | some e => shellQuote (some e)
  | none =>
    match near with
    | some p => shellQuote (some p)
    | none => bin

/-- `list_variables`, src/blogc-make/exec.c:211-217: what is appended. -/
def listVariable (kv : Str × Option Str) : Str :=
  b!" -D " ++ kv.1 ++ b!"=" ++ shellQuote kv.2

/-- `bc_trie_foreach(t, list_variables, rv)`; NULL is `none`. -/
def listVariables (t : Option (Trie Str)) : Str :=
  match t with
  | none => []
  | some t => (t.foreach []).flatMap listVariable

/-- A flag with a quoted value, if there is one
(src/blogc-make/exec.c:264-281 and 445-461). -/
def flagQuoted (flag : Str) (v : Option Str) : Str :=
  match v with
  | none => []
  | some v => b!" " ++ flag ++ b!" " ++ shellQuote (some v)

/-- The part of `bm_settings_t` used here: the global variables, the locale and
the list of tags. -/
structure CmdSettings where
  globals : Trie Str
  locale : Option Str
  tags : Option (List Str)

/-- `bm_exec_build_blogc_cmd`, src/blogc-make/exec.c:220-288. -/
def buildBlogcCmd (bin : Str) (settings : Option CmdSettings) (globals locals : Option (Trie Str))
    (print : Option Str) (listing : Bool) (listingEntry template output : Option Str) (dev stdin : Bool) : Str :=
  let locale := settings.bind (·.locale)
  let rv := match locale with
    | none => []
    | some l => b!"LC_ALL=" ++ shellQuote (some l) ++ b!" "
  let rv := rv ++ bin
  let rv := match settings with
    | none => rv
    | some s =>
      let rv := match s.tags with
        | none => rv
        | some tags => rv ++ b!" -D MAKE_TAGS='" ++ join b!" " tags ++ b!"'"
      rv ++ listVariables (some s.globals)
  let rv := rv ++ listVariables globals
  let rv := rv ++ listVariables locals
  let rv := if dev then rv ++ b!" -D MAKE_ENV_DEV=1 -D MAKE_ENV='dev'" else rv
  let rv := match print with
    | none => rv
    | some p => rv ++ b!" -p " ++ p
  let rv := if listing then rv ++ b!" -l" ++ flagQuoted b!"-e" listingEntry else rv
  let rv := rv ++ flagQuoted b!"-t" template
  let rv := rv ++ flagQuoted b!"-o" output
  if stdin then rv ++ b!" -i" else rv

/-- The command of `bm_exec_blogc_runserver`, src/blogc-make/exec.c:441-465. -/
def runserverCmd (bin : Str) (host port threads : Option Str) (outputDir : Str) : Str :=
  bin ++ flagQuoted b!"-t" host ++ flagQuoted b!"-p" port ++ flagQuoted b!"-m" threads ++
    b!" " ++ shellQuote (some outputDir)

/-- The text sent to blogc, src/blogc-make/exec.c:299-304 and 381-386: the paths
of the sources, one on each line. -/
def sourceInput (onlyFirst : Bool) : List Str → Str
  | [] => []
  | p :: l => p ++ b!"\n" ++ (if onlyFirst then [] else sourceInput onlyFirst l)

end Blogc.Make
