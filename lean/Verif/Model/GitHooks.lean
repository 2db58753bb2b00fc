import Verif.Model.Config
import Verif.Model.PreReceive
import Verif.Model.MakeNative
import Verif.Model.Numbers
import Verif.Prog

/-!
# Model of the hooks of `src/blogc-git-receiver`: `main.c`, `settings.c`, `pre-receive.c` and
`post-receive.c`

Messages are not modelled. Calls of the system succeed or fail (`Prog`); what is read is given by
an environment (`Env`).
-/

namespace Blogc.GitHooks

open Blogc
open Blogc.Config (Config)

/-! ## `main` -/

/-- `basename` of POSIX. -/
def basename (s : Str) : Str :=
  if s = [] then b!"."
  else if Make.stripSlashes s = [] then b!"/"
  else ((Make.stripSlashes s).reverse.takeWhile (· != c!"/")).reverse

/-- What the program does. -/
inductive Mode where
  | preReceive
  | postReceive
  /-- `bgr_shell` with this command; the second argument is the value that `SHELL` is set to. -/
  | shell (command : Str) (self : Option Str)
  | refuse
  deriving DecidableEq, Repr

/-- `main`, src/blogc-git-receiver/main.c:13-39. `sshOrig` is `SSH_ORIGINAL_COMMAND`. -/
def mode (argv : List Str) (sshOrig : Option Str) : Mode :=
  match argv with
  | [] => .refuse
  | a0 :: args =>
    if basename a0 = b!"pre-receive" then .preReceive
    else if basename a0 = b!"post-receive" then .postReceive
    else
      match args with
      | [flag, command] => if flag = b!"-c" then .shell command none else .refuse
      | [] =>
        match sshOrig with
        | some command => if a0.head? = some c!"/" then .shell command (some a0) else .refuse
        | none => .refuse
      | _ => .refuse

/-! ## Settings -/

/-- `bgr_settings_get_base_dir`, src/blogc-git-receiver/settings.c:17-25: the variables
`BLOGC_GIT_RECEIVER_BASE_DIR` and `HOME`. -/
def baseDir (base home : Option Str) : Option Str :=
  match base with
  | some d => some d
  | none => home

/-- The environment of a hook. -/
structure Env where
  /-- `BLOGC_GIT_RECEIVER_BASE_DIR` -/
  base : Option Str
  /-- `HOME` -/
  home : Option Str
  /-- `BLOGC_GIT_RECEIVER_BUILDS_DIR` -/
  builds : Option Str
  /-- `GIT_DIR` is set -/
  gitDir : Bool
  /-- `argv[0]` -/
  self : Str
  /-- `realpath`, before the build -/
  realpath : Str → Option Str
  /-- `realpath`, after the build -/
  realpath2 : Str → Option Str
  /-- The configuration in a file (src/blogc-git-receiver/settings.c:76-104): `none` if it is
  missing, cannot be read or is malformed. -/
  config : Str → Option Config
  /-- The standard input. -/
  stdin : Str
  /-- The name made by `mkdtemp`. -/
  tmpdir : Str
  /-- `time(NULL)` -/
  epoch : Nat
  /-- `cpu_count()` (`%d` of a `size_t`: it is below 2^31) -/
  cpus : Nat

/-- `bgr_settings_get_builds_dir`, src/blogc-git-receiver/settings.c:28-36. Without a base
directory NULL is printed with `%s`. -/
def buildsDir (env : Env) : Res Str :=
  match env.builds with
  | some d => .ok d
  | none =>
    match baseDir env.base env.home with
    | some d => .ok (d ++ b!"/builds")
    | none => .ub

/-- The loop of `bgr_settings_get_section`, src/blogc-git-receiver/settings.c:48-62. -/
def sectionLoop (env : Env) (bd repo : Str) : List Str → Option Str
  | [] => none
  | s :: l =>
    if startsWith s b!"repo:" then
      match env.realpath (bd ++ b!"/repos/" ++ s.drop 5) with
      | none => sectionLoop env bd repo l
      | some p => if p = repo then some s else sectionLoop env bd repo l
    else sectionLoop env bd repo l

/-- `bgr_settings_parse`, src/blogc-git-receiver/settings.c:68-105. -/
def settings (env : Env) : Option Config :=
  match baseDir env.base env.home with
  | none => none
  | some bd => env.config (bd ++ b!"/blogc-git-receiver.ini")

/-- `bgr_settings_get_section` and `bc_config_get`,
src/blogc-git-receiver/pre-receive.c:112-128 and post-receive.c:49-69: the setting `key` of the
repository. -/
def setting (env : Env) (repo key : Str) : Option Str :=
  match settings env, baseDir env.base env.home with
  | some cfg, some bd =>
    match sectionLoop env bd repo cfg.sections with
    | some s => cfg.get s key
    | none => none
  | _, _ => none

/-- The repository, src/blogc-git-receiver/pre-receive.c:96-105 and post-receive.c:22-31. -/
def repoDir (env : Env) : Option Str := (env.realpath (Make.dirname env.self)).map Make.dirname

/-! ## Hooks -/

/-- The system interface. `system` succeeds if the status is 0, `found` if it is not 127.
`remove` is `rmdir_recursive` (Model/Remove.lean); when it fails the program exits with status 2. -/
inductive Call where
  | chdir (dir : Str)
  | readable (path : Str)
  | mkdtemp
  | system (cmd : Str)
  | found (cmd : Str)
  | exists_ (path : Str)
  | unlink (path : Str)
  | symlink (target path : Str)
  | remove (dir : Str)
  deriving DecidableEq, Repr

inductive Outcome where
  | exit (status : Nat)
  | undefined
  deriving DecidableEq, Repr

/-- `bgr_post_receive_hook`, src/blogc-git-receiver/post-receive.c:16-86. -/
def postReceive (env : Env) : Prog Call Outcome :=
  match repoDir env with
  | none => .ret (.exit 1)
  | some repo =>
    let push (mirror : Str) : Prog Call Outcome :=
      .call (.system (b!"git push --mirror " ++ mirror)) fun _ => .ret (.exit 0)
    Prog.require (.chdir repo) (.exit 1) <|
    .call (.system b!"git config --local remote.mirror.pushurl > /dev/null") fun ok =>
      if ok then push b!"mirror"
      else .call (.system b!"git config --local remote.mirror.url > /dev/null") fun ok =>
        if ok then push b!"mirror"
        else
          match setting env repo b!"mirror" with
          | none => .ret (.exit 0)
          | some m => push m

/-- The path of the public link, src/blogc-git-receiver/pre-receive.c:112-139. -/
def linkPath (env : Env) (repo : Str) : Str :=
  match setting env repo b!"symlink" with
  | none => repo ++ b!"/htdocs"
  | some s => if startsWith s b!"/" then s else repo ++ b!"/" ++ s

/-- The revision of the last build, src/blogc-git-receiver/pre-receive.c:155-164: `dir` is its
directory. -/
def builtRevision (dir : Str) : Option Str :=
  match split (basename dir) c!"-" 2 with
  | [rev, _] => some rev
  | _ => none

/-- Removing the checkout at the end, src/blogc-git-receiver/pre-receive.c:310. -/
def cleanup (env : Env) (status : Nat) : Prog Call Outcome :=
  Prog.require (.remove env.tmpdir) (.exit 2) (.ret (.exit status))

/-- Removing the new build after a failure, lines 276, 287 and 295. -/
def giveUp (env : Env) (out : Str) : Prog Call Outcome :=
  Prog.require (.remove out) (.exit 2) (cleanup env 1)

/-- Lines 272-301: building and publishing. -/
def deploy (env : Env) (sym out cmd : Str) : Prog Call Outcome :=
  .call (.system cmd) fun ok =>
    if ok = false then giveUp env out
    else
      let publish (k : Prog Call Outcome) : Prog Call Outcome :=
        .call (.symlink out sym) fun ok => if ok then k else giveUp env out
      match env.realpath2 sym with
      | none => publish (cleanup env 0)
      | some old =>
        .call (.unlink sym) fun ok =>
          if ok then publish (Prog.require (.remove old) (.exit 2) (cleanup env 0))
          else giveUp env out

/-- Lines 231-270: the choice of the command. -/
def build (env : Env) (sym out : Str) : Prog Call Outcome :=
  let make (impl : Str) : Str := impl ++ b!" -j" ++ decNat env.cpus ++ b!" OUTPUT_DIR=\"" ++ out ++
    b!"\" BLOGC_GIT_RECEIVER=1"
  let makefile : Prog Call Outcome :=
    .call (.found b!"gmake -f /dev/null 2> /dev/null > /dev/null") fun ok =>
      if ok then deploy env sym out (make b!"gmake")
      else .call (.found b!"make -f /dev/null 2> /dev/null > /dev/null") fun ok =>
        if ok then deploy env sym out (make b!"make") else cleanup env 1
  .call (.exists_ b!"blogcfile") fun ok =>
    if ok then
      .call (.found b!"blogc-make -v 2> /dev/null > /dev/null") fun ok =>
        if ok then deploy env sym out (b!"OUTPUT_DIR=\"" ++ out ++ b!"\" blogc-make -V all")
        else cleanup env 1
    else .call (.exists_ b!"Makefile") fun ok =>
      if ok then makefile
      else .call (.exists_ b!"GNUMakefile") fun ok =>
        if ok then makefile else cleanup env 0

/-- Lines 189-229: the checkout and the name of the output. -/
def checkout (env : Env) (sym rev : Str) : Prog Call Outcome :=
  .call .mkdtemp fun ok =>
    if ok = false then .ret (.exit 1)    -- `tmpdir` is NULL, line 310 does nothing
    else .call (.system (b!"git archive \"" ++ rev ++ b!"\" | tar -x -C \"" ++ env.tmpdir ++ b!"\" -f -")) fun ok =>
      if ok = false then cleanup env 1
      else .call (.chdir env.tmpdir) fun ok =>
        if ok = false then cleanup env 1
        else
          match buildsDir env with
          | .ub => .ret .undefined
          | .ok builds =>
            let out := builds ++ b!"/" ++ rev ++ b!"-" ++ decNat env.epoch
            .call (.exists_ out) fun ok => build env sym (if ok then out ++ b!"-" else out)

/-- `bgr_pre_receive_hook`, src/blogc-git-receiver/pre-receive.c:87-313. -/
def preReceive (env : Env) : Prog Call Outcome :=
  match repoDir env with
  | none => .ret (.exit 1)
  | some repo =>
    Prog.require (.chdir repo) (.exit 1) <|
    let sym := linkPath env repo
    if env.gitDir then
      match PreReceive.deployRef env.stdin with
      | none => .ret (.exit 0)
      | some rev => checkout env sym rev
    else
      Prog.require (.readable sym) (.exit 1) <|
      match (env.realpath sym).bind builtRevision with
      | none => .ret (.exit 1)
      | some rev => checkout env sym rev

end Blogc.GitHooks
