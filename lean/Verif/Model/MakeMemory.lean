import Verif.Model.MakeMain

/-!
# What a run of blogc-make takes and gives back

The events of a run of `src/blogc-make` on what it has to give back: the memory it allocates, its open files and
directories, and the temporary file with the Atom template. (Pipes and child processes are treated in
`Verif/Model/MakeExec.lean`.) Where the course of a run depends on the world (files that are missing or cannot be
read, calls that fail, the answers of `blogc`), the events are a function of a script of what happens; all theorems are
about every script.

Simplifications: a file context stands for its four blocks (`src/blogc-make/ctx.c:26-58` and `152-161`), settings for
their tables and lists (`src/blogc-make/settings.c:90-96` and `188-200`), the result of the parser of the settings file
for all of it. A table of variables stands for its entries. A list stands for the items it has, which are numbered;
nodes and contents of a list are told apart where they are freed separately. That a file context of a post, of a page or
of the listing entry is NULL (`bm_generate_filename` returning NULL) is left out; the contexts of outputs may be NULL.
Texts that are made and freed inside `bc_strdup_printf`, `bc_string_*`, `bm_generate_filename` and `bc_shell_quote` are
treated in `Verif/Model/Strings.lean`.
-/

namespace Blogc.MakeMem

open Blogc

/-- What a run takes and has to give back. -/
inductive Thing where
  -- src/blogc-make/main.c: the rules asked for, the name of the settings file (one for every `-f`), the error
  | rule (i : Nat) | blogcfile (i : Nat) | err
  -- src/blogc-make/rules.c:895-922: the arguments of a rule, a key
  | args (i : Nat) | argKey
  -- src/blogc-make/ctx.c:164-298: the context, what it holds, and the temporary file. The settings and the temporary
  -- file are numbered, since new ones are made before the old ones are given back
  | ctx | blogc | runserver
  | settings (g : Nat) | atomFile (g : Nat)
  | root | shortDir | outDir | mainTemplate | atomTemplate | settingsFile | entry
  | post (i : Nat) | page (i : Nat) | copied (i : Nat)
  -- names and texts while the context is made
  | absName | content | config | keys | atomName | fd | atomText | feedUrl | postUrl
  | binPath | binDir | binName
  -- the walk through a directory, for every depth
  | walkPath (d : Nat) | walkDir (d : Nat) | walkName (d : Nat)
  -- src/blogc-make/ctx.c:313-314
  | reloadName | reloadErr
  -- the rules: lists of outputs, tables, names
  | outNode (k : Nat) | out (k : Nat) | fileNode (k : Nat)
  | variables | local | lastPage | pageNo | name
  -- commands
  | need | string | quoted | tags | cmd | input | text | cmdOut | cmdErr | cmdError
  -- src/blogc-make/exec-native.c
  | fname | fdFrom | fdTo | dirHandle | upShort | upDir | upTmp | rmErr
  deriving DecidableEq, Repr

inductive Event where
  | acquire (x : Thing)
  | release (x : Thing)
  | use (x : Thing)
  deriving DecidableEq, Repr

/-- Memory that goes on under another name. -/
def turn (x y : Thing) : List Event := [.release x, .acquire y]

/-- Something that is made, used and given back at once. -/
def brief (x : Thing) : List Event := [.acquire x, .use x, .release x]

def repeated (n : Nat) (l : List Event) : List Event := (List.replicate n l).flatten

/-! ## Commands -/

/-- How `bm_exec_command` ends, src/blogc-make/exec.c:76-208: an error before anything is read (lines 83-159), an
error while reading the output (`some`: after some of it, lines 168-175), an error while reading the error output, or
the end of the command, with output and error output or not, and its status. -/
inductive Ran where
  | noStart
  | outBroken (some : Bool)
  | errBroken (out some : Bool)
  | ended (out err : Bool) (status : Int)
  deriving DecidableEq, Repr

/-- `bc_string_new`, and `bc_string_free` that keeps the text: src/blogc-make/exec.c:176-183 and 195-201. -/
def readAll (some : Bool) (x : Thing) : List Event :=
  if some then .acquire .text :: .use .text :: turn .text x else []

/-- The reading of src/blogc-make/exec.c:167-202. -/
def readEvents : Ran → List Event
  | .noStart => [.acquire .cmdError]
  | .outBroken false => [.acquire .cmdError]
  | .outBroken true => [.acquire .text, .use .text, .acquire .cmdError, .release .text]
  | .errBroken o false => readAll o .cmdOut ++ [.acquire .cmdError]
  | .errBroken o true =>
    readAll o .cmdOut ++ [.acquire .text, .use .text, .acquire .cmdError, .release .text]
  | .ended o e _ => readAll o .cmdOut ++ readAll e .cmdErr

/-- `bm_exec_command` uses its command and input, src/blogc-make/exec.c:136 and 151. -/
def commandEvents (r : Ran) : List Event := [.use .cmd, .use .input] ++ readEvents r

/-- What goes into a command besides its variables, src/blogc-make/exec.c:221-224. -/
structure Cmd where
  /-- The number of the settings. -/
  g : Nat
  locale : Bool
  tags : Bool
  /-- The number of variables of the settings and of both tables. -/
  vars : Nat
  /-- The contexts whose paths are quoted: the entry, the template, the output. -/
  paths : List Thing
  deriving DecidableEq, Repr

/-- `bm_exec_build_blogc_cmd`, src/blogc-make/exec.c:220-288. -/
def buildCmd (c : Cmd) : List Event :=
  [.acquire .string, .use (.settings c.g)]
    ++ (if c.locale then brief .quoted else [])
    ++ [.use .blogc]
    ++ (if c.tags then brief .tags else [])
    ++ repeated c.vars (brief .quoted)
    ++ c.paths.flatMap (fun p => .use p :: brief .quoted)
    ++ turn .string .cmd

/-- The input, src/blogc-make/exec.c:299-304 and 381-386. -/
def inputEvents (sources : List Thing) : List Event := .acquire .input :: sources.map .use

/-- `free` of what is NULL or not. -/
def freeIf (b : Bool) (x : Thing) : List Event := if b then [.release x] else []

/-- `out` is not NULL. -/
def Ran.hasOut : Ran → Bool
  | .errBroken o _ => o
  | .ended o _ _ => o
  | _ => false

/-- `err` is not NULL. -/
def Ran.hasErr : Ran → Bool
  | .ended _ e _ => e
  | _ => false

/-- `error` is not NULL. -/
def Ran.failed : Ran → Bool
  | .ended _ _ _ => false
  | _ => true

/-- The result of `bm_exec_blogc` is 0, src/blogc-make/exec.c:329 and 369. -/
def Ran.good : Ran → Bool
  | .ended _ _ s => s == 0
  | _ => false

/-- `bm_exec_blogc`, src/blogc-make/exec.c:291-370. -/
def execBlogc (c : Cmd) (sources : List Thing) (r : Ran) : List Event :=
  [.use .ctx]
    ++ inputEvents sources
    ++ buildCmd c
    ++ commandEvents r
    ++ if r.failed then
      [.use .cmdError, .release .cmd] ++ freeIf r.hasOut .cmdOut ++ freeIf r.hasErr .cmdErr
        ++ [.release .input, .release .cmdError]
    else
      (if r.hasErr then [.use .cmdErr] else [])
        ++ [.release .input, .release .cmd] ++ freeIf r.hasOut .cmdOut ++ freeIf r.hasErr .cmdErr

/-- `bm_exec_blogc_get_variable` returns a text, src/blogc-make/exec.c:401-430. -/
def Ran.value : Ran → Bool
  | .ended o _ s => o && s == 0
  | _ => false

/-- `bm_exec_blogc_get_variable`, src/blogc-make/exec.c:373-431. -/
def getVariable (c : Cmd) (sources : List Thing) (r : Ran) : List Event :=
  [.use .ctx]
    ++ inputEvents sources
    ++ buildCmd c
    ++ commandEvents r
    ++ if r.failed then
      [.use .cmdError, .release .cmdError, .release .input, .release .cmd] ++ freeIf r.hasOut .cmdOut
        ++ freeIf r.hasErr .cmdErr
    else
      (if r.value then [.use .cmdOut, .acquire .lastPage] else [])
        ++ [.release .input, .release .cmd] ++ freeIf r.hasOut .cmdOut ++ freeIf r.hasErr .cmdErr

/-- `bm_rule_need_rebuild`, src/blogc-make/rules.c:993-1040. `early` tells that the output cannot be read (line 998).
The contexts looked at are a beginning of the list, here all of it. -/
def needRebuild (early : Bool) (out : Thing) (files : List Thing) : List Event :=
  .use out :: if early then [] else .acquire .need :: files.map .use ++ [.use .need, .release .need]

/-- How `bm_exec_native_cp` ends, src/blogc-make/exec-native.c:21-86. -/
inductive Copied where
  | noDir | noSource | noTarget | broken | done
  deriving DecidableEq, Repr

def Copied.good : Copied → Bool
  | .done => true
  | _ => false

/-- `bm_exec_native_cp`, src/blogc-make/exec-native.c:21-86. -/
def copyFile (source out : Thing) (r : Copied) : List Event :=
  [.use source, .use out] ++ brief .fname ++
    match r with
    | .noDir => []
    | .noSource => []
    | .noTarget => [.acquire .fdFrom, .release .fdFrom]
    | .broken => [.acquire .fdFrom, .acquire .fdTo, .use .fdFrom, .use .fdTo, .release .fdFrom, .release .fdTo]
    | .done => [.acquire .fdFrom, .acquire .fdTo, .use .fdFrom, .use .fdTo, .release .fdFrom, .release .fdTo]

/-! ## The settings of a context -/

mutual
/-- What `bm_filectx_new_r` finds under a name, src/blogc-make/ctx.c:61-100: nothing (line 71), a file, a directory that
cannot be opened (line 78), or a directory. -/
inductive Walk where
  | gone
  | file
  | closed
  | dir (entries : Entries)

/-- The entries of a directory besides `.` and `..`. -/
inductive Entries where
  | nil
  | cons (first : Walk) (rest : Entries)
end

mutual
/-- The number of files found. -/
def Walk.count : Walk → Nat
  | .gone => 0
  | .file => 1
  | .closed => 0
  | .dir es => es.count

def Entries.count : Entries → Nat
  | .nil => 0
  | .cons w es => w.count + es.count
end

mutual
/-- `bm_filectx_new_r`, src/blogc-make/ctx.c:61-100, at the depth `d` with `k` contexts in the list. -/
def Walk.events (d k : Nat) : Walk → List Event
  | .gone => [.use .root, .acquire (.walkPath d), .use (.walkPath d), .release (.walkPath d)]
  | .file =>
    [.use .root, .acquire (.walkPath d), .use (.walkPath d), .acquire (.copied k), .release (.walkPath d)]
  | .closed => [.use .root, .acquire (.walkPath d), .use (.walkPath d), .release (.walkPath d)]
  | .dir es =>
    [.use .root, .acquire (.walkPath d), .use (.walkPath d), .acquire (.walkDir d)]
      ++ es.events d k
      ++ [.release (.walkDir d), .release (.walkPath d)]

/-- The loop of src/blogc-make/ctx.c:84-90. -/
def Entries.events (d k : Nat) : Entries → List Event
  | .nil => [.use (.walkDir d)]
  | .cons w es =>
    [.use (.walkDir d), .acquire (.walkName d)]
      ++ w.events (d + 1) k
      ++ .release (.walkName d) :: es.events d (k + w.count)
end

/-- The part of the settings, and of the world, that decides what a context holds. -/
structure Shape where
  /-- There is a setting `atom_template`. -/
  ownAtom : Bool
  locale : Bool
  tags : Bool
  /-- There is a setting `listing_entry`. -/
  entry : Bool
  posts : Nat
  pages : Nat
  /-- What is found for every item of the section `copy`. -/
  copy : List Walk

/-- The number of contexts of files to copy. -/
def Shape.copies (s : Shape) : Nat := (s.copy.map Walk.count).sum

/-- How `bm_atom_deploy` fails, src/blogc-make/atom.c:95-125. -/
inductive AtomFail where
  | legacy | noFile | noWrite
  deriving DecidableEq, Repr

/-- What `bm_ctx_new` meets, src/blogc-make/ctx.c:164-210. `keys` tells that there is a section `global` or
`environment`. -/
inductive Load where
  /-- `bm_abspath` fails, lines 171-173. -/
  | noPath
  /-- The file cannot be read, lines 176-181. -/
  | unread
  /-- src/blogc-make/settings.c:85-88 -/
  | badConfig
  /-- A key is not valid, src/blogc-make/settings.c:121-127 and 134-140. -/
  | badKey
  /-- A key is missing, src/blogc-make/settings.c:149-159. -/
  | missing (keys : Bool)
  /-- src/blogc-make/ctx.c:203-209 -/
  | noAtom (keys : Bool) (how : AtomFail)
  | good (keys : Bool) (s : Shape)

/-- The context that a successful call makes. -/
def Load.shape : Load → Option Shape
  | .good _ s => some s
  | _ => none

/-- `bm_settings_parse`, src/blogc-make/settings.c:76-185, when the settings are returned. -/
def parseGood (g : Nat) (keys : Bool) : List Event :=
  [.use .content, .acquire .config, .acquire (.settings g)]
    ++ (if keys then brief .keys else [])
    ++ [.use .config, .release .config]

/-- `bm_atom_generate`, src/blogc-make/atom.c:45-86. -/
def atomGenerate (g : Nat) : List Event :=
  [.use (.settings g), .acquire .feedUrl, .acquire .postUrl, .acquire .atomText, .release .feedUrl, .release .postUrl]

/-- `bm_atom_deploy`, src/blogc-make/atom.c:89-131, when it fails. -/
def atomFails (e : Thing) (g : Nat) : AtomFail → List Event
  | .legacy => [.use (.settings g), .acquire e]
  | .noFile => [.use (.settings g), .acquire e]
  | .noWrite =>
    [.use (.settings g), .acquire .fd, .acquire (.atomFile g)]
      ++ atomGenerate g
      ++ [.use .fd, .acquire e, .release .atomText, .release .fd, .release (.atomFile g)]

/-- `bm_atom_deploy`, src/blogc-make/atom.c:89-131, when it succeeds. -/
def atomDeploy (g : Nat) : List Event :=
  [.use (.settings g), .acquire .fd, .acquire (.atomFile g)]
    ++ atomGenerate g
    ++ [.use .fd, .use .atomText, .release .atomText, .release .fd, .acquire .atomName]

/-- The name of the Atom template, src/blogc-make/ctx.c:195-210. -/
def atomTemplateName (g : Nat) (own : Bool) : List Event :=
  if own then [.use (.settings g), .acquire .atomName] else atomDeploy g

/-- Which way `bm_exec_find_binary` goes, src/blogc-make/exec.c:31-73: the directory of the program is looked at
(`beside`), and the binary is there. -/
structure Find where
  beside : Bool
  found : Bool
  deriving DecidableEq, Repr

/-- `bm_exec_find_binary`, src/blogc-make/exec.c:31-73. -/
def findBinary (x : Thing) (f : Find) : List Event :=
  if f.beside then
    [.acquire .binPath, .use .binPath, .acquire .binDir, .release .binPath, .use .binDir, .acquire .binName, .release .binDir,
     .use .binName]
      ++ if f.found then [.use .binName, .acquire x, .release .binName] else [.release .binName, .acquire x]
  else [.acquire x]

/-- Contexts made one after the other, each with a name that is freed: src/blogc-make/ctx.c:269-275 and 280-286. -/
def makeContexts (f : Nat → Thing) : Nat → Nat → List Event
  | _, 0 => []
  | k, n + 1 => [.acquire .name, .acquire (f k), .release .name] ++ makeContexts f (k + 1) n

/-- src/blogc-make/ctx.c:291-294 -/
def copyContexts : Nat → List Walk → List Event
  | _, [] => []
  | k, w :: ws => w.events 0 k ++ copyContexts (k + w.count) ws

/-- `bc_slist_free_full` for contexts with the numbers `k` to `k + n - 1`. -/
def freeContexts (f : Nat → Thing) : Nat → Nat → List Event
  | _, 0 => []
  | k, n + 1 => .release (f k) :: freeContexts f (k + 1) n

/-- `bm_ctx_free_internal`, src/blogc-make/ctx.c:342-377. -/
def freeInternal (g : Nat) (s : Shape) : List Event :=
  [.use .ctx, .release (.settings g), .release .root, .release .shortDir, .release .outDir]
    ++ (if s.ownAtom then [] else [.use .atomTemplate, .release (.atomFile g)])
    ++ [.release .mainTemplate, .release .atomTemplate, .release .settingsFile]
    ++ (if s.entry then [.release .entry] else [])
    ++ freeContexts .post 0 s.posts
    ++ freeContexts .page 0 s.pages
    ++ freeContexts .copied 0 s.copies

/-- `bm_ctx_free`, src/blogc-make/ctx.c:380-389. -/
def freeCtx (g : Nat) (s : Shape) : List Event :=
  freeInternal g s ++ [.release .blogc, .release .runserver, .release .ctx]

/-- src/blogc-make/ctx.c:212-224 -/
def freshOrBase (f1 f2 : Find) : Option (Nat × Shape) → List Event
  | none => .acquire .ctx :: findBinary .blogc f1 ++ findBinary .runserver f2
  | some (g, s) => freeInternal g s

/-- src/blogc-make/ctx.c:225-297 -/
def fillCtx (g : Nat) (s : Shape) : List Event :=
  [.use .ctx, .use .absName, .acquire .settingsFile, .acquire .root, .release .absName,
   .acquire .shortDir, .use .root, .acquire .outDir,
   .use (.settings g), .acquire .name, .acquire .mainTemplate, .release .name,
   .use .atomName, .acquire .atomTemplate, .release .atomName]
    ++ (if s.entry then [.acquire .name, .acquire .entry, .release .name] else [])
    ++ makeContexts .post 0 s.posts
    ++ makeContexts .page 0 s.pages
    ++ copyContexts 0 s.copy

/-- `bm_ctx_new`, src/blogc-make/ctx.c:164-298, with the error in `e`. The settings get the number `g`. -/
def ctxNew (e : Thing) (g : Nat) (f1 f2 : Find) (base : Option (Nat × Shape)) : Load → List Event
  | .noPath => [.acquire e]
  | .unread => [.acquire .absName, .use .absName, .acquire e, .release .absName]
  | .badConfig =>
    [.acquire .absName, .use .absName, .acquire .content, .use .content, .acquire e, .release .absName, .release .content]
  | .badKey =>
    [.acquire .absName, .use .absName, .acquire .content, .use .content, .acquire .config, .acquire (.settings g),
     .acquire .keys, .use .keys, .acquire e, .release .keys, .release (.settings g), .release .config,
     .release .absName, .release .content]
  | .missing keys =>
    [.acquire .absName, .use .absName, .acquire .content, .use .content, .acquire .config, .acquire (.settings g)]
      ++ (if keys then brief .keys else [])
      ++ [.acquire e, .release (.settings g), .release .config, .release .absName, .release .content]
  | .noAtom keys how =>
    [.acquire .absName, .use .absName, .acquire .content]
      ++ parseGood g keys
      ++ .release .content :: atomFails e g how
      ++ [.release .absName, .release (.settings g)]
  | .good keys s =>
    [.acquire .absName, .use .absName, .acquire .content]
      ++ parseGood g keys
      ++ .release .content :: atomTemplateName g s.ownAtom
      ++ freshOrBase f1 f2 base
      ++ fillCtx g s

/-- The context: the number of its settings, and what it holds. -/
structure Now where
  g : Nat
  s : Shape

/-- All contexts of a context, in the order of src/blogc-make/ctx.c:325-336. -/
def Now.files (c : Now) : List Thing :=
  [.mainTemplate, .atomTemplate] ++ (if c.s.entry then [.entry] else [])
    ++ (List.range c.s.posts).map .post ++ (List.range c.s.pages).map .page ++ (List.range c.s.copies).map .copied

/-- The posts. -/
def Now.posts (c : Now) : List Thing := (List.range c.s.posts).map .post

/-- The listing entry, if there is one. -/
def Now.entry (c : Now) : List Thing := if c.s.entry then [.entry] else []

/-! ## Building -/

/-- What happens to one output: its context is NULL, no tag is found for it (src/blogc-make/rules.c:447), it is up to
date, or it is made; `early` is the answer of src/blogc-make/rules.c:998. -/
inductive Act (α : Type) where
  | null
  | unknown
  | fresh
  | made (early : Bool) (how : α)

/-- The context of the output is not NULL. -/
def Act.real {α : Type} : Act α → Bool
  | .null => false
  | _ => true

/-- The loop over the outputs, with the number `k` of the first. `before` comes before the test, `files` are the
contexts compared, `job` makes the output, `good` tells that the status is 0. -/
def outputLoop {α : Type} (before : Nat → List Event) (files : Nat → List Thing) (job : Nat → α → List Event)
    (good : α → Bool) : Nat → List (Act α) → List Event
  | _, [] => []
  | k, .null :: r => .use (.outNode k) :: outputLoop before files job good (k + 1) r
  | k, .unknown :: r =>
    [.use (.outNode k), .use (.out k)] ++ before k ++ outputLoop before files job good (k + 1) r
  | k, .fresh :: r =>
    [.use (.outNode k), .use (.out k)] ++ before k ++ needRebuild false (.out k) (files k)
      ++ outputLoop before files job good (k + 1) r
  | k, .made early a :: r =>
    [.use (.outNode k), .use (.out k)] ++ before k ++ needRebuild early (.out k) (files k) ++ job k a
      ++ if good a then outputLoop before files job good (k + 1) r else []

/-- The loop ends with status 0. -/
def loopGood {α : Type} (good : α → Bool) : List (Act α) → Bool
  | [] => true
  | .made _ a :: r => if good a then loopGood good r else false
  | _ :: r => loopGood good r

/-- One item of a list of outputs: the name, the node and the context. `extra` are texts that live as long as the
name. -/
def oneOutput (extra : List Thing) (k : Nat) (real : Bool) : List Event :=
  extra.map .acquire ++ [.use .shortDir]
    ++ (if real then [.acquire .name, .acquire (.out k), .acquire (.outNode k)] else [.acquire (.outNode k)])
    ++ extra.map .release ++ if real then [.release .name] else []

/-- A list of outputs. -/
def makeOutputs {α : Type} (extra : List Thing) : Nat → List (Act α) → List Event
  | _, [] => []
  | k, a :: r => oneOutput extra k a.real ++ makeOutputs extra (k + 1) r

/-- What happens when a build rule is run: the section it is about is missing; or a rule with all posts as sources
(`index`, `atom`, `atom_tags`, `tags`; `atom` tells the template), `pagination`, `pagination_tags`, a rule with one
source for every output (`posts`, `pages`), or `copy`. For `pagination_tags` every tag comes with the answer about its
last page and with its outputs; `tries` is the number of names made for an output (lines 425-446). `vars` is the number
of variables. -/
inductive Build where
  | none
  | listing (atom : Bool) (vars : Nat) (acts : List (Act Ran))
  | pagination (vars : Nat) (ask : Ran) (acts : List (Act Ran))
  | paginationTags (vars : Nat) (tries : Nat → Nat) (asked : List (Ran × List (Act Ran)))
  | pairs (pages : Bool) (vars : Nat) (acts : List (Act Ran))
  | copy (acts : List (Act Copied))

/-- The template, src/blogc-make/rules.c:176 and the other rules. -/
def template (atom : Bool) : Thing := if atom then .atomTemplate else .mainTemplate

/-- The entry of a listing, src/blogc-make/rules.c:114 and 172. -/
def Now.entryFor (c : Now) (atom : Bool) : List Thing := if atom then [] else c.entry

/-- The contexts compared by a rule with all posts as sources, src/blogc-make/rules.c:112-113 and 172-174. -/
def Now.compared (c : Now) (atom : Bool) : List Thing :=
  [.settingsFile] ++ (if atom && !c.s.ownAtom then [] else [template atom]) ++ c.entryFor atom ++ c.posts

/-- The command for an output of a listing rule. -/
def Now.listingCmd (c : Now) (atom : Bool) (vars : Nat) (k : Nat) : Cmd :=
  { g := c.g, locale := c.s.locale, tags := c.s.tags, vars := vars,
    paths := c.entryFor atom ++ [template atom, .out k] }

/-- The command that asks for a variable. -/
def Now.askCmd (c : Now) (vars : Nat) : Cmd :=
  { g := c.g, locale := c.s.locale, tags := c.s.tags, vars := vars, paths := [] }

/-- The command for an output with one source. -/
def Now.pairCmd (c : Now) (vars : Nat) (k : Nat) : Cmd :=
  { g := c.g, locale := c.s.locale, tags := c.s.tags, vars := vars, paths := [.mainTemplate, .out k] }

/-- A table of variables is made, filled from the settings, and used. -/
def variablesNew (c : Now) : List Event := [.acquire .variables, .use (.settings c.g)]

/-- The names that are tried, src/blogc-make/rules.c:425-446. -/
def tryNames (n : Nat) : List Event :=
  repeated n [.use .shortDir, .acquire .pageNo, .acquire .name, .release .pageNo, .use .name, .release .name]

/-- The outputs of `pagination_tags`. -/
def tagActs (asked : List (Ran × List (Act Ran))) : List (Act Ran) :=
  asked.flatMap fun p => if p.1.value then p.2 else []

/-- The loop of src/blogc-make/rules.c:362-385. -/
def tagOutputs (c : Now) (vars : Nat) : Nat → List (Ran × List (Act Ran)) → List Event
  | _, [] => []
  | k, (r, acts) :: rest =>
    [.acquire .local, .use (.settings c.g)] ++ getVariable (c.askCmd vars) c.posts r ++ [.release .local] ++
      if r.value then
        [.use .lastPage, .release .lastPage] ++ makeOutputs [.pageNo] k acts
          ++ tagOutputs c vars (k + acts.length) rest
      else tagOutputs c vars k rest

/-- The function `outputlist_func` of a rule, with `k` outputs made before. -/
def outputList (c : Now) (k : Nat) : Build → List Event
  | .none => [.use .ctx, .use (.settings c.g)]
  -- src/blogc-make/rules.c:69-90, 130-151, 191-214, 539-562
  | .listing _ _ acts => [.use .ctx, .use (.settings c.g)] ++ makeOutputs [] k acts
  -- src/blogc-make/rules.c:259-298
  | .pagination vars ask acts =>
    [.use .ctx] ++ variablesNew c ++ getVariable (c.askCmd vars) c.posts ask ++ [.release .variables] ++
      if ask.value then [.use .lastPage, .release .lastPage] ++ makeOutputs [.pageNo] k acts else []
  -- src/blogc-make/rules.c:343-390
  | .paginationTags vars _ asked =>
    [.use .ctx] ++ variablesNew c ++ tagOutputs c vars k asked ++ [.release .variables]
  -- src/blogc-make/rules.c:471-491, 607-625
  | .pairs _ _ acts => [.use .ctx, .use (.settings c.g)] ++ makeOutputs [] k acts
  -- src/blogc-make/rules.c:671-689
  | .copy acts =>
    [.use .ctx, .use (.settings c.g)] ++ (List.range c.s.copies).map (fun i => .use (.copied i)) ++ makeOutputs [] k acts

/-- How the outputs of a rule are made: the number of outputs, and which of them have a context. -/
def Build.outputs : Build → List Bool
  | .none => []
  | .listing _ _ acts => acts.map Act.real
  | .pagination _ ask acts => if ask.value then acts.map Act.real else []
  | .paginationTags _ _ asked => (tagActs asked).map Act.real
  | .pairs _ _ acts => acts.map Act.real
  | .copy acts => acts.map Act.real

/-- The function `exec_func` of a build rule. -/
def execRule (c : Now) : Build → List Event
  | .none => [.use .ctx, .use (.settings c.g)]
  -- src/blogc-make/rules.c:92-125, 153-186, 216-254, 564-602
  | .listing atom vars acts =>
    [.use .ctx] ++ variablesNew c
      ++ outputLoop (fun _ => [.use .variables]) (fun _ => c.compared atom)
        (fun k r => execBlogc (c.listingCmd atom vars k) c.posts r) Ran.good 0 acts
      ++ [.release .variables]
  -- src/blogc-make/rules.c:300-338
  | .pagination vars ask acts =>
    [.use .ctx] ++ variablesNew c
      ++ outputLoop (fun _ => [.use .variables]) (fun _ => c.compared false)
        (fun k r => execBlogc (c.listingCmd false vars k) c.posts r) Ran.good 0 (if ask.value then acts else [])
      ++ [.release .variables]
  -- src/blogc-make/rules.c:392-466
  | .paginationTags vars tries asked =>
    [.use .ctx] ++ variablesNew c
      ++ outputLoop (fun k => tryNames (tries k) ++ [.use .variables]) (fun _ => c.compared false)
        (fun k r => execBlogc (c.listingCmd false vars k) c.posts r) Ran.good 0 (tagActs asked)
      ++ [.release .variables]
  -- src/blogc-make/rules.c:493-534, 627-666. The entry of `local` is the slug of the source, which is not copied.
  | .pairs pages vars acts =>
    let source (k : Nat) : Thing := if pages then .page k else .post k
    let n := if pages then c.s.pages else c.s.posts
    [.use .ctx] ++ variablesNew c
      ++ outputLoop (fun k => [.use (source k)]) (fun k => [.settingsFile, .mainTemplate, source k])
        (fun k r => [.acquire .local, .use (source k)] ++ execBlogc (c.pairCmd vars k) [source k] r ++ [.release .local])
        Ran.good 0 (acts.take n)
      ++ [.release .variables]
  -- src/blogc-make/rules.c:691-716
  | .copy acts =>
    [.use .ctx, .use (.settings c.g)]
      ++ outputLoop (fun k => [.use (.copied k)]) (fun k => [.settingsFile, .copied k])
        (fun k r => copyFile (.copied k) (.out k) r) Copied.good 0 (acts.take c.s.copies)

/-- The status of the rule is 0. -/
def Build.good (c : Now) : Build → Bool
  | .none => true
  | .listing _ _ acts => loopGood Ran.good acts
  | .pagination _ ask acts => loopGood Ran.good (if ask.value then acts else [])
  | .paginationTags _ _ asked => loopGood Ran.good (tagActs asked)
  | .pairs pages _ acts => loopGood Ran.good (acts.take (if pages then c.s.pages else c.s.posts))
  | .copy acts => loopGood Copied.good (acts.take c.s.copies)

/-- `bc_slist_free_full` on a list of outputs. -/
def freeOutputList : Nat → List Bool → List Event
  | _, [] => []
  | k, real :: r => freeIf real (.out k) ++ .release (.outNode k) :: freeOutputList (k + 1) r

/-- `bm_rule_execute` for a build rule, src/blogc-make/rules.c:974-990. -/
def ruleExecute (c : Now) (b : Build) : List Event :=
  outputList c 0 b ++ execRule c b ++ freeOutputList 0 b.outputs

/-- `all_exec`, src/blogc-make/rules.c:876-891. -/
def allExec (c : Now) : List Build → List Event
  | [] => []
  | b :: bs => ruleExecute c b ++ if b.good c then allExec c bs else []

/-- The status of `all_exec` is 0. -/
def allGood (c : Now) (bs : List Build) : Bool := bs.all (Build.good c)

/-! ## Cleaning -/

/-- Which way `bm_exec_native_is_empty_dir` goes, src/blogc-make/exec-native.c:89-122: the directory can be opened or
not. -/
def emptyDir (opened : Bool) : List Event := if opened then brief .dirHandle else []

/-- How the loop over the directories of a removed file ends, src/blogc-make/exec-native.c:149-181: at its condition, at
a directory that cannot be read (`opened`: that cannot be closed), one that is not empty, one that cannot be removed, or
the output directory. -/
inductive UpEnd where
  | condition
  | err (opened : Bool)
  | notEmpty
  | noRemove (opened : Bool)
  | top (opened : Bool)
  deriving DecidableEq, Repr

def upEnd : UpEnd → List Event
  | .condition => []
  | .err opened => emptyDir opened ++ brief .rmErr
  | .notEmpty => emptyDir true
  | .noRemove opened => emptyDir opened
  | .top opened => .use .outDir :: emptyDir opened

/-- One round that goes on, src/blogc-make/exec-native.c:150-180. -/
def upStep (opened : Bool) : List Event :=
  emptyDir opened ++ [.use .outDir, .use .upShort, .acquire .upTmp, .release .upShort] ++ turn .upTmp .upShort
    ++ [.use .upDir, .acquire .upTmp, .release .upDir] ++ turn .upTmp .upDir

/-- What happens to a file while cleaning: it cannot be read (src/blogc-make/rules.c:732), it cannot be removed
(src/blogc-make/exec-native.c:134), or it is removed. -/
inductive Removed where
  | unread
  | noUnlink
  | removed (steps : List Bool) (last : UpEnd)
  deriving DecidableEq, Repr

def Removed.good : Removed → Bool
  | .unread => true
  | .noUnlink => false
  | .removed _ (.err _) => false
  | .removed _ (.noRemove _) => false
  | .removed _ _ => true

/-- `bm_exec_native_rm`, src/blogc-make/exec-native.c:125-187. -/
def removeFile : Removed → List Event
  | .unread => []
  | .noUnlink => []
  | .removed steps last =>
    [.acquire .upShort, .acquire .upDir] ++ steps.flatMap upStep ++ upEnd last ++ [.release .upShort, .release .upDir]

/-- The contents of a list go to another list, and its nodes are freed: src/blogc-make/rules.c:1055-1059. -/
def moveNodes : Nat → Nat → List Event
  | _, 0 => []
  | k, n + 1 => .use (.outNode k) :: .acquire (.fileNode k) :: moveNodes (k + 1) n

/-- `bm_rule_list_built_files`, src/blogc-make/rules.c:1043-1063. -/
def builtFiles (c : Now) : Nat → List Build → List Event
  | _, [] => []
  | k, b :: bs =>
    outputList c k b ++ moveNodes k b.outputs.length ++ freeContexts .outNode k b.outputs.length
      ++ builtFiles c (k + b.outputs.length) bs

/-- The loop of src/blogc-make/rules.c:727-737; `rs` tells what happens to every file. -/
def cleanLoop (rs : Nat → Removed) : Nat → List Bool → List Event
  | _, [] => []
  | k, false :: l => .use (.fileNode k) :: cleanLoop rs (k + 1) l
  | k, true :: l =>
    [.use (.fileNode k), .use (.out k), .use .outDir] ++ removeFile (rs k)
      ++ if (rs k).good then cleanLoop rs (k + 1) l else []

/-- The loop ends with status 0. -/
def cleanGood (rs : Nat → Removed) : Nat → List Bool → Bool
  | _, [] => true
  | k, false :: l => cleanGood rs (k + 1) l
  | k, true :: l => if (rs k).good then cleanGood rs (k + 1) l else false

/-- `bc_slist_free_full` on the list of files, src/blogc-make/rules.c:738. -/
def freeFiles : Nat → List Bool → List Event
  | _, [] => []
  | k, real :: r => freeIf real (.out k) ++ .release (.fileNode k) :: freeFiles (k + 1) r

/-- `clean_exec`, src/blogc-make/rules.c:721-745. -/
def cleanExec (c : Now) (bs : List Build) (rs : Nat → Removed) (opened : Bool) : List Event :=
  builtFiles c 0 bs ++ cleanLoop rs 0 (bs.flatMap Build.outputs) ++ freeFiles 0 (bs.flatMap Build.outputs)
    ++ [.use .outDir] ++ emptyDir opened

/-! ## Watching -/

/-- One round of watching: the settings file has changed or not, and what the build meets. -/
structure Round where
  reread : Option Load
  builds : List Build

/-- `bm_ctx_reload`, src/blogc-make/ctx.c:301-339. -/
def reload (c : Now) : Option Load → List Event
  | none => [.use .ctx, .use .settingsFile] ++ c.files.map .use
  | some l =>
    [.use .ctx, .use .settingsFile, .acquire .reloadName, .use .reloadName]
      ++ ctxNew .reloadErr (c.g + 1) ⟨false, false⟩ ⟨false, false⟩ (some (c.g, c.s)) l
      ++ [.release .reloadName]
      ++ match l.shape with
        | none => [.use .reloadErr, .release .reloadErr]
        | some _ => []

/-- The context after `bm_ctx_reload`; `none` is an error. -/
def Now.next (c : Now) : Option Load → Option Now
  | none => some c
  | some l => l.shape.map fun s => { g := c.g + 1, s := s }

/-- The loop of `bm_reloader_run`, src/blogc-make/reloader.c:64-78. After an error the pointer of the loop is NULL and
nothing happens any more, although the context is still there. -/
def watchLoop (c : Now) : List Round → List Event
  | [] => []
  | r :: rs =>
    reload c r.reread ++
      match c.next r.reread with
      | none => []
      | some c' => allExec c' r.builds ++ watchLoop c' rs

/-- The context after watching: the last one that was made. -/
def watchEnd (c : Now) : List Round → Now
  | [] => c
  | r :: rs =>
    match c.next r.reread with
    | none => c
    | some c' => watchEnd c' rs

/-! ## The program -/

/-- What happens when a rule is run: a build rule, `all`, `clean`, `watch` (ended by a call of `bm_reloader_stop` from
elsewhere, or by an interrupt that ends the process, src/blogc-make/reloader.c:92-108), or `atom_dump`. The rule
`runserver` is treated apart. -/
inductive RuleRun where
  | build (b : Build)
  | all (bs : List Build)
  | clean (bs : List Build) (rs : Nat → Removed) (opened : Bool)
  | watch (rounds : List Round) (killed : Bool) (good : Bool)
  | atomDump

/-- How a rule ends. -/
inductive Flow where
  | good | bad | killed
  deriving DecidableEq, Repr

/-- `bm_rule_execute` for any rule, src/blogc-make/rules.c:974-990. -/
def runRule (c : Now) : RuleRun → List Event
  | .build b => ruleExecute c b
  | .all bs => allExec c bs
  | .clean bs rs opened => cleanExec c bs rs opened
  | .watch rounds _ _ => watchLoop c rounds
  -- src/blogc-make/rules.c:771-780
  | .atomDump => .use .ctx :: atomGenerate c.g ++ [.use .atomText, .release .atomText]

def RuleRun.flow (c : Now) : RuleRun → Flow
  | .build b => if b.good c then .good else .bad
  | .all bs => if allGood c bs then .good else .bad
  | .clean bs rs _ => if cleanGood rs 0 (bs.flatMap Build.outputs) then .good else .bad
  | .watch _ killed good => if killed then .killed else if good then .good else .bad
  | .atomDump => .good

/-- The context after a rule. -/
def RuleRun.after (c : Now) : RuleRun → Now
  | .watch rounds _ _ => watchEnd c rounds
  | _ => c

/-- The pairs of `bm_rule_parse_args`, src/blogc-make/rules.c:903-915. -/
def argPairs (i : Nat) : Nat → Str → List Event
  | 0, _ => []
  | fuel + 1, s =>
    match Make.strchr c!"=" s with
    | none => []
    | some (_, r) =>
      [.acquire .argKey, .use (.args i), .release .argKey] ++
        match Make.strchr c!"," r with
        | none => []
        | some (_, r') => argPairs i fuel r'

/-- The rule has arguments: `args` is not NULL, src/blogc-make/rules.c:944. -/
def hasArgs (r : Str) : Bool :=
  match Make.ruleParts r with
  | some (_, some _) => true
  | _ => false

/-- The arguments of the rule with number `i`, src/blogc-make/rules.c:936-949 and 894-922. -/
def argEvents (i : Nat) (r : Str) : List Event :=
  match Make.strchr c!":" r with
  | none => []
  | some (_, rest) =>
    .acquire (.args i) :: argPairs i (rest.length + 1) rest ++ if hasArgs r then [] else [.release (.args i)]

/-- The name of a rule is in the table, src/blogc-make/rules.c:951-962. -/
def isRule (r : Str) : Bool :=
  match Make.ruleParts r with
  | some (name, _) => decide (name ∈ Make.ruleNames)
  | none => false

/-- `bm_rule_executor`, src/blogc-make/rules.c:925-971, from the rule number `i` on. The table of arguments is not
freed. -/
def executor (runs : Nat → RuleRun) (c : Now) (i : Nat) : List Str → List Event
  | [] => []
  | r :: l =>
    .use (.rule i) :: argEvents i r ++
      if isRule r then
        runRule c (runs i) ++
          match (runs i).flow c with
          | .good => executor runs ((runs i).after c) (i + 1) l
          | _ => []
      else executor runs c (i + 1) l

/-- The context after the rules, and whether the process was killed. -/
def executorEnd (runs : Nat → RuleRun) (c : Now) (i : Nat) : List Str → Now × Bool
  | [] => (c, false)
  | r :: l =>
    if isRule r then
      match (runs i).flow c with
      | .good => executorEnd runs ((runs i).after c) (i + 1) l
      | .bad => ((runs i).after c, false)
      | .killed => ((runs i).after c, true)
    else executorEnd runs c (i + 1) l

/-- The numbers of the rules whose arguments were read. -/
def executed (runs : Nat → RuleRun) (c : Now) (i : Nat) : List Str → List Nat
  | [] => []
  | r :: l =>
    (if hasArgs r then [i] else []) ++
      if isRule r then
        match (runs i).flow c with
        | .good => executed runs ((runs i).after c) (i + 1) l
        | _ => []
      else executed runs c (i + 1) l

/-- The loop of src/blogc-make/main.c:70-107, with the numbers of rules and of names of settings files so far. -/
def argumentEvents (embedded : Bool) : (pending : Bool) → (n m : Nat) → List Str → List Event
  | _, _, _, [] => []
  | true, n, m, _ :: rest => .acquire (.blogcfile m) :: argumentEvents embedded false n (m + 1) rest
  | false, n, m, a :: rest =>
    if a.head? = some c!"-" then
      match a.tail with
      | [] => []
      | c :: attached =>
        if c = c!"h" ∨ c = c!"v" then []
        else if c = c!"D" then argumentEvents embedded false n m rest
        else if c = c!"V" then argumentEvents embedded false n m rest
        else if c = c!"f" then
          if attached ≠ [] then .acquire (.blogcfile m) :: argumentEvents embedded false n (m + 1) rest
          else argumentEvents embedded true n m rest
        else if embedded ∧ c = c!"m" then argumentEvents embedded false n m rest
        else []
    else .acquire (.rule n) :: argumentEvents embedded false (n + 1) m rest

/-- How many rules and names of settings files the loop keeps. -/
def argumentCount (embedded : Bool) : (pending : Bool) → (n m : Nat) → List Str → Nat × Nat
  | _, n, m, [] => (n, m)
  | true, n, m, _ :: rest => argumentCount embedded false n (m + 1) rest
  | false, n, m, a :: rest =>
    if a.head? = some c!"-" then
      match a.tail with
      | [] => (n, m)
      | c :: attached =>
        if c = c!"h" ∨ c = c!"v" then (n, m)
        else if c = c!"D" then argumentCount embedded false n m rest
        else if c = c!"V" then argumentCount embedded false n m rest
        else if c = c!"f" then
          if attached ≠ [] then argumentCount embedded false n (m + 1) rest
          else argumentCount embedded true n m rest
        else if embedded ∧ c = c!"m" then argumentCount embedded false n m rest
        else (n, m)
    else argumentCount embedded false (n + 1) m rest

/-- What a run meets. -/
structure World where
  embedded : Bool
  blogc : Find
  runserver : Find
  load : Load
  /-- src/blogc-make/main.c:123-129: the settings ask for `make`, and it is not there. -/
  notMake : Bool
  /-- What happens when a rule is run, by its number. -/
  runs : Nat → RuleRun

/-- The cleanup of src/blogc-make/main.c:135-136: the rules and the last name of a settings file. -/
def freeArguments (n m : Nat) : List Event :=
  freeContexts .rule 0 n ++ match m with
    | 0 => []
    | m + 1 => [.release (.blogcfile m)]

/-- The rules to run, src/blogc-make/main.c:109-111. -/
def rulesOf (rules : List Str) : List Str := if rules = [] then [b!"all"] else rules

/-- The last name of a settings file is read, src/blogc-make/main.c:113. -/
def useName : Nat → List Event
  | 0 => []
  | m + 1 => [.use (.blogcfile m)]

/-- src/blogc-make/main.c:113-138, for `n` rules and `m` names of settings files. -/
def withArguments (w : World) (rules : List Str) (m : Nat) : List Event :=
  (if rules = [] then [.acquire (.rule 0)] else [])
    ++ useName m
    ++ ctxNew .err 0 w.blogc w.runserver none w.load
    ++ match w.load.shape with
      | none => .use .err :: freeArguments (rulesOf rules).length m ++ [.release .err]
      | some s =>
        .use (.settings 0) ::
          if w.notMake then freeArguments (rulesOf rules).length m ++ freeCtx 0 s
          else
            executor w.runs ⟨0, s⟩ 0 (rulesOf rules) ++
              match executorEnd w.runs ⟨0, s⟩ 0 (rulesOf rules) with
              | (_, true) => []
              | (c, false) => freeArguments (rulesOf rules).length m ++ freeCtx c.g c.s

/-- `main`, src/blogc-make/main.c:52-141, for the arguments after the first. -/
def mainEvents (w : World) (args : List Str) : List Event :=
  argumentEvents w.embedded false 0 0 args ++
    match MakeMain.argLoop w.embedded false args {} with
    | .error _ =>
      freeArguments (argumentCount w.embedded false 0 0 args).1 (argumentCount w.embedded false 0 0 args).2
    | .ok o => withArguments w o.rules (argumentCount w.embedded false 0 0 args).2

/-- The process was ended by an interrupt while it watched. -/
def killed (w : World) (args : List Str) : Bool :=
  match MakeMain.argLoop w.embedded false args {}, w.load.shape with
  | .ok o, some s => !w.notMake && (executorEnd w.runs ⟨0, s⟩ 0 (rulesOf o.rules)).2
  | _, _ => false

end Blogc.MakeMem
