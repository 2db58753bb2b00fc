import Verif.Model.GitShell
import Verif.Model.GitHooks

/-!
# Memory of src/blogc-git-receiver

The programs of Model/GitShell.lean and Model/GitHooks.lean again, with what they take from the
memory and give back between the system calls. A table or a list is one thing with all it owns
(C110). What `rmdir_recursive` takes and gives back within a call is not part of this.
-/

namespace Blogc.GitMem

open Blogc
open Blogc.Config (Config)

/-- What is taken from the memory, by the name of the variable. -/
inductive Thing where
  -- shell.c
  | tmpRepo | repo | quotedRepo | initCmd | command
  -- settings.c
  | configFile | content | err | config | sections | repoName | repoReal | sectionName
  -- pre-receive.c and post-receive.c
  | realHooks | repoDir | sym | buildDir | pieces | input | branches | ref | archiveCmd | buildsd
  | outputDir | outputDir2 | buildCmd | htdocs | mirror | gitCmd
  deriving DecidableEq, Repr

inductive Event where
  | acquire (x : Thing)
  | release (x : Thing)
  | use (x : Thing)
  deriving DecidableEq, Repr

/-- A program that makes system calls and uses memory. -/
inductive MProg (C : Type) (α : Type) where
  | ret (a : α)
  | call (c : C) (k : Bool → MProg C α)
  | mem (e : Event) (k : MProg C α)

namespace MProg

variable {C α : Type}

abbrev acq (x : Thing) (k : MProg C α) : MProg C α := .mem (.acquire x) k
abbrev rel (x : Thing) (k : MProg C α) : MProg C α := .mem (.release x) k
abbrev use (x : Thing) (k : MProg C α) : MProg C α := .mem (.use x) k

/-- The program without the memory. -/
def erase : MProg C α → Prog C α
  | .ret a => .ret a
  | .call c k => .call c fun ok => (k ok).erase
  | .mem _ k => k.erase

/-- The executions: system calls with their outcomes, events of the memory, and the result. -/
inductive Runs : MProg C α → List (C × Bool) → List Event → α → Prop where
  | ret (a : α) : Runs (.ret a) [] [] a
  | call {c : C} {k : Bool → MProg C α} {ok : Bool} {t : List (C × Bool)} {ev : List Event} {a : α} :
      Runs (k ok) t ev a → Runs (.call c k) ((c, ok) :: t) ev a
  | mem {e : Event} {k : MProg C α} {t : List (C × Bool)} {ev : List Event} {a : α} :
      Runs k t ev a → Runs (.mem e k) t (e :: ev) a

end MProg

open MProg

/-! ## `bgr_shell` -/

section Shell

open Blogc.GitShell

/-- `cleanup`, src/blogc-git-receiver/shell.c:181-184, once both are there. -/
def shellEnd (rv : Nat) : MProg GitShell.Call Nat := rel .repo <| rel .quotedRepo <| .ret rv

/-- A failure with a message about the repository. -/
def shellFail : MProg GitShell.Call Nat := use .repo <| shellEnd 1

/-- Lines 105-119 and 121-135 of src/blogc-git-receiver/shell.c. -/
def installHookM (self name : Str) (k : MProg GitShell.Call Nat) : MProg GitShell.Call Nat :=
  let link : MProg GitShell.Call Nat := .call (.symlink self name) fun ok =>
    match ok with
    | true => k
    | false => shellFail
  .call (.lexists name) fun there =>
    match there with
    | true => .call (.unlink name) fun ok =>
      match ok with
      | true => link
      | false => shellFail
    | false => link

/-- Lines 137-176 of src/blogc-git-receiver/shell.c. When the command is too big, `command` is not
released (lines 153-157). -/
def gitExecM (bd arg quoted : Str) : MProg GitShell.Call Nat :=
  .call (.chdir bd) fun ok =>
    match ok with
    | false => shellEnd 1
    | true =>
      acq .command <| use .command <| use .quotedRepo <|
      if bufferSize < (commandName arg).length + quoted.length + 2 then shellEnd 1
      else
        use .command <| use .quotedRepo <| rel .command <| rel .repo <| rel .quotedRepo <|
        .call (.execGitShell ((commandName arg ++ b!" " ++ quoted).take (bufferSize - 1))) fun ok =>
          .ret (if ok then 0 else 1)

/-- `bgr_shell`, src/blogc-git-receiver/shell.c:28-185, with the string of
`bgr_shell_command_parse` (src/blogc-git-receiver/shell-command-parser.c:26, 91 and 94). -/
def shellM (self bd : Option Str) (arg : Str) : MProg GitShell.Call Nat :=
  match self, bd with
  | none, _ => .ret 1
  | some _, none => .ret 1
  | some self, some bd =>
    acq .tmpRepo <|
    match parse arg with
    | none => rel .tmpRepo <| .ret 1
    | some p =>
      let repo := bd ++ b!"/repos/" ++ p
      let quoted := shellQuote (some repo)
      let exec := gitExecM bd arg quoted
      use .tmpRepo <| acq .repo <| use .repo <| acq .quotedRepo <| rel .tmpRepo <|
      if arg.take 11 = b!"git-upload-" then exec
      else
        let inHooks : MProg GitShell.Call Nat := .call (.chdir b!"hooks") fun ok =>
          match ok with
          | false => shellFail
          | true => installHookM self b!"pre-receive" <| installHookM self b!"post-receive" exec
        let hooks : MProg GitShell.Call Nat := use .repo <| .call (.chdir repo) fun ok =>
          match ok with
          | false => shellFail
          | true => .call (.exists_ b!"hooks") fun there =>
            match there with
            | true => inHooks
            | false => .call (.mkdir b!"hooks") fun ok =>
              match ok with
              | true => inHooks
              | false => shellFail
        use .repo <| .call (.exists_ repo) fun there =>
          match there with
          | true => hooks
          | false =>
            use .quotedRepo <| acq .initCmd <| use .initCmd <|
            .call (.system (b!"git init --bare " ++ quoted ++ b!" > /dev/null")) fun ok =>
              match ok with
              | true => rel .initCmd hooks
              | false => use .repo <| rel .initCmd <| shellEnd 1

end Shell

/-! ## Settings -/

open Blogc.GitHooks

variable {α : Type}

/-- Why there is no configuration. -/
inductive Why where
  | missing | unreadable | malformed
  deriving DecidableEq, Repr

/-- `bgr_settings_parse`, src/blogc-git-receiver/settings.c:68-105. -/
def settingsM (env : Env) (why : Why) (k : Option Config → MProg GitHooks.Call α) : MProg GitHooks.Call α :=
  match baseDir env.base env.home with
  | none => k none
  | some bd =>
    acq .configFile <| use .configFile <|
    match env.config (bd ++ b!"/blogc-git-receiver.ini") with
    | some cfg =>
      use .configFile <| acq .content <| use .content <| acq .config <| rel .content <| rel .configFile <|
      k (some cfg)
    | none =>
      match why with
      | .missing => rel .configFile <| k none
      | .unreadable =>
        use .configFile <| acq .err <| use .configFile <| use .err <| rel .err <| rel .configFile <| k none
      | .malformed =>
        use .configFile <| acq .content <| use .content <| acq .err <| rel .content <| use .configFile <|
        use .err <| rel .err <| rel .configFile <| k none

/-- The loop of `bgr_settings_get_section`, src/blogc-git-receiver/settings.c:48-62. -/
def sectionLoopM (env : Env) (bd repo : Str) (k : Option Str → MProg GitHooks.Call α) :
    List Str → MProg GitHooks.Call α
  | [] => use .sections <| k none
  | s :: l =>
    use .sections <|
    if startsWith s b!"repo:" then
      use .sections <| acq .repoName <| use .repoName <|
      match env.realpath (bd ++ b!"/repos/" ++ s.drop 5) with
      | none => rel .repoName <| sectionLoopM env bd repo k l
      | some p =>
        acq .repoReal <| rel .repoName <| use .repoReal <| use .repoDir <|
        if p = repo then use .sections <| acq .sectionName <| rel .repoReal <| k (some s)
        else rel .repoReal <| sectionLoopM env bd repo k l
    else sectionLoopM env bd repo k l

/-- `bgr_settings_get_section`, src/blogc-git-receiver/settings.c:39-65. -/
def sectionM (env : Env) (repo : Str) (cfg : Config) (k : Option Str → MProg GitHooks.Call α) :
    MProg GitHooks.Call α :=
  match baseDir env.base env.home with
  | none => k none
  | some bd =>
    use .config <| acq .sections <| sectionLoopM env bd repo (fun r => rel .sections <| k r) cfg.sections

/-! ## Hooks -/

/-- `push` and `cleanup`, src/blogc-git-receiver/post-receive.c:71-85. -/
def pushM (mirror : Str) : MProg GitHooks.Call Outcome :=
  use .mirror <| acq .gitCmd <| use .gitCmd <|
  .call (.system (b!"git push --mirror " ++ mirror)) fun _ =>
    rel .gitCmd <| rel .mirror <| rel .repoDir <| .ret (.exit 0)

/-- `bgr_post_receive_hook`, src/blogc-git-receiver/post-receive.c:16-86. -/
def postReceiveM (env : Env) (why : Why) : MProg GitHooks.Call Outcome :=
  match env.realpath (Make.dirname env.self) with
  | none => .ret (.exit 1)
  | some hooks =>
    let repo := Make.dirname hooks
    let last : MProg GitHooks.Call Outcome := rel .repoDir <| .ret (.exit 0)
    acq .realHooks <| use .realHooks <| acq .repoDir <| rel .realHooks <| use .repoDir <|
    .call (.chdir repo) fun ok =>
    match ok with
    | false => rel .repoDir <| .ret (.exit 1)
    | true =>
      .call (.system b!"git config --local remote.mirror.pushurl > /dev/null") fun ok =>
      match ok with
      | true => acq .mirror <| pushM b!"mirror"
      | false =>
        .call (.system b!"git config --local remote.mirror.url > /dev/null") fun ok =>
        match ok with
        | true => acq .mirror <| pushM b!"mirror"
        | false =>
          settingsM env why fun cfg =>
          match cfg with
          | none => last
          | some cfg =>
            sectionM env repo cfg fun s =>
            match s with
            | none => rel .config last
            | some s =>
              use .config <| use .sectionName <|
              match cfg.get s b!"mirror" with
              | none => rel .sectionName <| rel .config last
              | some m => acq .mirror <| rel .sectionName <| rel .config <| pushM m

/-- The path of the public link, src/blogc-git-receiver/pre-receive.c:112-139. The value of the
setting belongs to the configuration. -/
def linkPathM (env : Env) (why : Why) (repo : Str) (k : Str → MProg GitHooks.Call α) : MProg GitHooks.Call α :=
  let default : MProg GitHooks.Call α := use .repoDir <| acq .sym <| k (repo ++ b!"/htdocs")
  settingsM env why fun cfg =>
  match cfg with
  | none => default
  | some cfg =>
    sectionM env repo cfg fun s =>
    match s with
    | none => rel .config default
    | some s =>
      use .config <| use .sectionName <|
      match cfg.get s b!"symlink" with
      | none => rel .sectionName <| rel .config default
      | some v =>
        use .config <| use .repoDir <| acq .sym <| rel .sectionName <| rel .config <|
        k (if startsWith v b!"/" then v else repo ++ b!"/" ++ v)

/-- `free` for each of these. -/
def relAll (xs : List Thing) (k : MProg GitHooks.Call α) : MProg GitHooks.Call α :=
  xs.foldr (fun x k => rel x k) k

/-- `cleanup`, src/blogc-git-receiver/pre-receive.c:306-312; `xs` are those of `sym`, `ref` and
`output_dir` that are not NULL. -/
def cleanupM (env : Env) (xs : List Thing) (status : Nat) : MProg GitHooks.Call Outcome :=
  relAll xs <| .call (.remove env.tmpdir) fun ok =>
    match ok with
    | true => rel .repoDir <| .ret (.exit status)
    | false => .ret (.exit 2)

/-- The same while there is no temporary directory. -/
def earlyM (xs : List Thing) (status : Nat) : MProg GitHooks.Call Outcome :=
  relAll xs <| rel .repoDir <| .ret (.exit status)

/-- Lines 276-279, 287-289 and 295-297 of src/blogc-git-receiver/pre-receive.c; `x` is released on
the way (`build_cmd`, or `htdocs_sym` if it is not NULL). -/
def giveUpM (env : Env) (o : Thing) (x : List Thing) (out : Str) : MProg GitHooks.Call Outcome :=
  use o <| .call (.remove out) fun ok =>
    match ok with
    | true => relAll x <| cleanupM env [.sym, .ref, o] 1
    | false => .ret (.exit 2)

/-- Lines 272-304 of src/blogc-git-receiver/pre-receive.c; `o` holds the name of the output. -/
def deployM (env : Env) (o : Thing) (sym out cmd : Str) : MProg GitHooks.Call Outcome :=
  acq .buildCmd <| use .buildCmd <| use .buildCmd <| .call (.system cmd) fun ok =>
    match ok with
    | false => giveUpM env o [.buildCmd] out
    | true =>
      rel .buildCmd <| use .sym <|
      match env.realpath2 sym with
      | none =>
        use o <| use .sym <| .call (.symlink out sym) fun ok =>
          match ok with
          | true => cleanupM env [.sym, .ref, o] 0
          | false => use .sym <| giveUpM env o [] out
      | some old =>
        acq .htdocs <| use .sym <| .call (.unlink sym) fun ok =>
          match ok with
          | false => use .sym <| giveUpM env o [.htdocs] out
          | true =>
            use o <| use .sym <| .call (.symlink out sym) fun ok =>
              match ok with
              | true =>
                use .htdocs <| .call (.remove old) fun ok =>
                  match ok with
                  | true => rel .htdocs <| cleanupM env [.sym, .ref, o] 0
                  | false => .ret (.exit 2)
              | false => use .sym <| giveUpM env o [.htdocs] out

/-- Lines 231-270 of src/blogc-git-receiver/pre-receive.c. -/
def buildM (env : Env) (o : Thing) (sym out : Str) : MProg GitHooks.Call Outcome :=
  let make (impl : Str) : Str := impl ++ b!" -j" ++ decNat env.cpus ++ b!" OUTPUT_DIR=\"" ++ out ++
    b!"\" BLOGC_GIT_RECEIVER=1"
  let makefile : MProg GitHooks.Call Outcome :=
    .call (.found b!"gmake -f /dev/null 2> /dev/null > /dev/null") fun ok =>
      match ok with
      | true => use o <| deployM env o sym out (make b!"gmake")
      | false => .call (.found b!"make -f /dev/null 2> /dev/null > /dev/null") fun ok =>
        match ok with
        | true => use o <| deployM env o sym out (make b!"make")
        | false => cleanupM env [.sym, .ref, o] 1
  .call (.exists_ b!"blogcfile") fun ok =>
    match ok with
    | true =>
      .call (.found b!"blogc-make -v 2> /dev/null > /dev/null") fun ok =>
        match ok with
        | true => use o <| deployM env o sym out (b!"OUTPUT_DIR=\"" ++ out ++ b!"\" blogc-make -V all")
        | false => cleanupM env [.sym, .ref, o] 1
    | false => .call (.exists_ b!"Makefile") fun ok =>
      match ok with
      | true => makefile
      | false => .call (.exists_ b!"GNUMakefile") fun ok =>
        match ok with
        | true => makefile
        | false => cleanupM env [.sym, .ref, o] 0

/-- Lines 189-229 of src/blogc-git-receiver/pre-receive.c. -/
def checkoutM (env : Env) (sym rev : Str) : MProg GitHooks.Call Outcome :=
  .call .mkdtemp fun ok =>
    match ok with
    | false => earlyM [.sym, .ref] 1
    | true =>
      use .ref <| acq .archiveCmd <| use .archiveCmd <|
      .call (.system (b!"git archive \"" ++ rev ++ b!"\" | tar -x -C \"" ++ env.tmpdir ++ b!"\" -f -")) fun ok =>
        match ok with
        | false => rel .archiveCmd <| cleanupM env [.sym, .ref] 1
        | true =>
          rel .archiveCmd <| .call (.chdir env.tmpdir) fun ok =>
            match ok with
            | false => cleanupM env [.sym, .ref] 1
            | true =>
              match buildsDir env with
              | .ub => .ret .undefined
              | .ok builds =>
                let out := builds ++ b!"/" ++ rev ++ b!"-" ++ decNat env.epoch
                acq .buildsd <| use .buildsd <| use .ref <| acq .outputDir <| rel .buildsd <| use .outputDir <|
                .call (.exists_ out) fun ok =>
                  match ok with
                  | true =>
                    use .outputDir <| acq .outputDir2 <| rel .outputDir <|
                    buildM env .outputDir2 sym (out ++ b!"-")
                  | false => buildM env .outputDir sym out

/-- The revision that was pushed, src/blogc-git-receiver/pre-receive.c:168-187. `branches` is NULL
when no branch was pushed (src/blogc-git-receiver/pre-receive-parser.c:27 and 73-76). -/
def pushedM (env : Env) (sym : Str) : MProg GitHooks.Call Outcome :=
  let go (k : MProg GitHooks.Call Outcome → MProg GitHooks.Call Outcome) : MProg GitHooks.Call Outcome :=
    match PreReceive.deployRef env.stdin with
    | none => k (rel .input <| earlyM [.sym] 0)
    | some rev => acq .ref <| k (rel .input <| checkoutM env sym rev)
  acq .input <| use .input <| acq .branches <|
  match PreReceive.parse env.stdin with
  | none => rel .branches <| go id
  | some _ => use .branches <| go (fun k => rel .branches k)

/-- The revision of the last build, src/blogc-git-receiver/pre-receive.c:142-165. -/
def rebuiltM (env : Env) (sym : Str) : MProg GitHooks.Call Outcome :=
  use .sym <| .call (.readable sym) fun ok =>
    match ok with
    | false => earlyM [.sym] 1
    | true =>
      use .sym <|
      match env.realpath sym with
      | none => earlyM [.sym] 1
      | some dir =>
        acq .buildDir <| use .buildDir <| acq .pieces <| rel .buildDir <|
        match builtRevision dir with
        | none => rel .pieces <| earlyM [.sym] 1
        | some rev => use .pieces <| acq .ref <| rel .pieces <| checkoutM env sym rev

/-- `bgr_pre_receive_hook`, src/blogc-git-receiver/pre-receive.c:87-313. -/
def preReceiveM (env : Env) (why : Why) : MProg GitHooks.Call Outcome :=
  match env.realpath (Make.dirname env.self) with
  | none => .ret (.exit 1)
  | some hooks =>
    let repo := Make.dirname hooks
    acq .realHooks <| use .realHooks <| acq .repoDir <| rel .realHooks <| use .repoDir <|
    .call (.chdir repo) fun ok =>
      match ok with
      | false => earlyM [] 1
      | true => linkPathM env why repo fun sym => if env.gitDir then pushedM env sym else rebuiltM env sym

end Blogc.GitMem
