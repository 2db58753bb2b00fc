import Verif.Prog
import Verif.Model.Utf8
import Verif.Model.Strings
import Verif.Model.Loader
import Verif.Model.FileName
import Verif.Model.Render
import Verif.Model.MakeNative

/-!
# Model of `src/blogc/main.c`
-/

namespace Blogc.Main

open Blogc

/-! ## The command line -/

/-- The locals of `main` that the options set, src/blogc/main.c:136-149. -/
structure Opts where
  debug : Bool := false
  stdin : Bool := false
  listing : Bool := false
  template : Option Str := none
  output : Option Str := none
  print : Option Str := none
  sources : List Str := []
  entries : List Str := []
  config : Trie Str

/-- Reasons to stop while reading the command line. -/
inductive Stop where
  | help | version | notUtf8 | noEquals | keyFirst | keyOther | unknown (c : Byte)
  | make
  deriving DecidableEq, Repr

/-- The exit status for each reason. Those for which `rv` is not set before
`goto cleanup` exit with 0: src/blogc/main.c:157, 160 and 203. The status of the
embedded blogc-make (line 260) is not modelled. -/
def Stop.status : Stop → Nat
  | .help | .version | .notUtf8 | .make => 0
  | .noEquals | .keyFirst | .keyOther | .unknown _ => 1

/-- The tests of lines 216 and 226 of src/blogc/main.c. -/
def isUpper (c : Byte) : Bool := decide (c!"A" ≤ c) && decide (c ≤ c!"Z")
def isKeyByte (c : Byte) : Bool :=
  isUpper c || (decide (c!"0" ≤ c) && decide (c ≤ c!"9")) || c == c!"_"

/-- The loop over the bytes of the key, src/blogc/main.c:213-235. -/
def checkKey : Str → Option Stop
  | [] => none
  | c :: rest =>
    if !isUpper c then some .keyFirst
    else if !rest.all isKeyByte then some .keyOther
    else none

/-- `-D`, src/blogc/main.c:199-239. -/
def define (text : Str) (o : Opts) : Res (Except Stop Opts) :=
  (utf8Validate text).bind fun valid =>
    if !valid then .ok (.error .notUtf8)
    else
      match split text c!"=" 2 with
      | [key, value] =>
        match checkKey key with
        | some s => .ok (.error s)
        | none => .ok (.ok { o with config := (o.config.insert key value).1 })
      | _ => .ok (.error .noEquals)

/-- An option with its value, src/blogc/main.c:170-240. -/
def withValue (opt : Byte) (value : Str) (o : Opts) : Res (Except Stop Opts) :=
  if opt = c!"e" then .ok (.ok { o with entries := o.entries ++ [value] })
  else if opt = c!"t" then .ok (.ok { o with template := some value })
  else if opt = c!"o" then .ok (.ok { o with output := some value })
  else if opt = c!"p" then .ok (.ok { o with print := some value })
  else define value o

/-- What `switch (argv[i][1])` does, src/blogc/main.c:154-252: stop, go on, or
wait for the value in the next argument (`i + 1 < argc`). `make` tells whether
blogc-make is embedded. -/
inductive Next where
  | stop (s : Stop)
  | go (o : Opts)
  | wait (opt : Byte)

def option (make : Bool) (c : Byte) (attached : Str) (o : Opts) : Res Next :=
  if c = c!"h" then .ok (.stop .help)
  else if c = c!"v" then .ok (.stop .version)
  else if c = c!"d" then .ok (.go { o with debug := true })
  else if c = c!"i" then .ok (.go { o with stdin := true })
  else if c = c!"l" then .ok (.go { o with listing := true })
  else if c = c!"e" ∨ c = c!"t" ∨ c = c!"o" ∨ c = c!"p" ∨ c = c!"D" then
    if attached = [] then .ok (.wait c)
    else (withValue c attached o).bind fun
      | .error s => .ok (.stop s)
      | .ok o => .ok (.go o)
  else if make ∧ c = c!"m" then .ok (.stop .make)
  else .ok (.stop (.unknown c))

/-- The loop over the arguments, src/blogc/main.c:151-265. `pending` is the option
whose value is `argv[++i]`; without one more argument the option is ignored. -/
def argLoop (make : Bool) : (pending : Option Byte) → List Str → Opts → Res (Except Stop Opts)
  | _, [], o => .ok (.ok o)
  | some c, v :: rest, o =>
    (withValue c v o).bind fun
      | .error s => .ok (.error s)
      | .ok o => argLoop make none rest o
  | none, a :: rest, o =>
    match a with
    | [] => argLoop make none rest { o with sources := o.sources ++ [a] }
    | a0 :: more =>
      if a0 = c!"-" then
        match more with
        | [] => .ok (.error (.unknown 0))
        | c :: attached =>
          (option make c attached o).bind fun
            | .stop s => .ok (.error s)
            | .go o => argLoop make none rest o
            | .wait c => argLoop make (some c) rest o
      else argLoop make none rest { o with sources := o.sources ++ [a] }

/-- The variables before the first argument, src/blogc/main.c:148-149. -/
def initial (version : Str) : Opts := { config := (Trie.nil.insert b!"BLOGC_VERSION" version).1 }

/-! ## The program -/

/-- What the program reads. The files do not change while it runs. -/
structure Env where
  version : Str
  make : Bool
  stdin : Str
  /-- The loader's access to sources and dates. -/
  loader : Loader.Env
  /-- `blogc_template_parse_from_file`, src/blogc/loader.c:57-70: `none` is an error. -/
  template : Str → Option (List Template.Node)
  sys : Render.Sys
  /-- Rounds the renderer may take. -/
  fuel : Nat

/-- The effects of the program. A file opened for writing is emptied. -/
inductive Call where
  | stdout (text : Str)
  | mkdir (path : Str)
  | open (path : Str)
  | write (path text : Str)
  | close (path : Str)
  deriving DecidableEq, Repr

/-- How the program ends: with an exit status, in undefined behaviour, or not
within the fuel. -/
inductive Outcome where
  | exit (status : Nat)
  | undefined
  | out
  deriving DecidableEq, Repr

/-- `EX_CONFIG`, sysexits.h. -/
def exConfig : Nat := 78

/-- `blogc_mkdir_recursive`, src/blogc/main.c:91-123: a directory that exists
already counts as success. -/
def mkdirs : List Str → Prog Call Outcome → Prog Call Outcome
  | [], k => k
  | d :: ds, k => Prog.require (.mkdir d) (.exit 2) (mkdirs ds k)

/-- Lines 352-370 of src/blogc/main.c. The results of writing and closing are
ignored. -/
def writeOut (o : Opts) (text : Str) : Prog Call Outcome :=
  match o.output with
  | none => .call (.stdout text) fun _ => .ret (.exit 0)
  | some path =>
    if path = b!"-" then .call (.stdout text) fun _ => .ret (.exit 0)
    else
      mkdirs (Make.parentDirs [] path)
        (Prog.require (.open path) (.exit 1)
          (.call (.write path text) fun _ => .call (.close path) fun _ => .ret (.exit 0)))

/-- Lines 299-313: the sources of `-e`; an empty name stands for none. -/
def loadEntries (env : Env) (maxdepth : Option Str) : List Str → Option (List (Option (Trie Str)))
  | [] => some []
  | f :: fs =>
    if f = [] then (loadEntries env maxdepth fs).map (none :: ·)
    else
      match env.loader.parse maxdepth f with
      | none => none
      | some s => (loadEntries env maxdepth fs).map (some s :: ·)

/-- Lines 315-331: `-p`. -/
def printVariable (env : Env) (o : Opts) (s : List (Trie Str)) (config : Trie Str) (name : Str) :
    Prog Call Outcome :=
  match Render.formatVariable env.sys config (if o.listing then none else s.head?) {} name with
  | .ub => .ret .undefined
  | .ok (_, none) => .ret (.exit exConfig)
  | .ok (_, some v) => .call (.stdout (v ++ b!"\n")) fun _ => .ret (.exit 0)

/-- Lines 333-370. -/
def renderAll (env : Env) (o : Opts) (s : List (Trie Str)) (entries : List (Option (Trie Str)))
    (config : Trie Str) : Prog Call Outcome :=
  match o.template with
  | none => .ret (.exit 1)
  | some t =>
    match env.template t with
    | none => .ret (.exit 1)
    | some l =>
      match Render.render (Render.evaluator env.sys) env.fuel l ⟨s, o.listing⟩ entries config with
      | .ub => .ret .undefined
      | .out => .ret .out
      | .ok text => writeOut o text

/-- The source files: lines 267-273. -/
def allSources (env : Env) (o : Opts) : List Str :=
  o.sources ++ (if o.stdin then FileList.parse (stdinRead [] env.stdin) else [])

/-- `main` after the command line, src/blogc/main.c:267-387. -/
def body (env : Env) (o : Opts) : Prog Call Outcome :=
  if !o.listing && (allSources env o).length != 1 then .ret (.exit 1)
  else
    match Loader.fromFiles env.loader o.config (allSources env o) with
    | .ub => .ret .undefined
    | .ok none => .ret (.exit 1)
    | .ok (some (s, config)) =>
      match (if o.listing then loadEntries env (config.lookup b!"TOCTREE_MAXDEPTH") o.entries
          else some []) with
      | none => .ret (.exit 1)
      | some entries =>
        match o.print with
        | some name => printVariable env o s config name
        | none => renderAll env o s entries config

/-- `main`, src/blogc/main.c:126-388, without the text of messages and the dump
of `-d`. -/
def main (env : Env) (args : List Str) : Prog Call Outcome :=
  match argLoop env.make none args (initial env.version) with
  | .ub => .ret .undefined
  | .ok (.error s) => .ret (.exit s.status)
  | .ok (.ok o) => body env o

end Blogc.Main
