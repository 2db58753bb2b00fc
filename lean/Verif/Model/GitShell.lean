import Verif.Model.Strings
import Verif.Prog

/-!
# Model of the restricted shell of `src/blogc-git-receiver`
-/

namespace Blogc.GitShell

open Blogc

/-! ## `bgr_shell_command_parse` -/

/-- `command_state_t`, src/blogc-git-receiver/shell-command-parser.c:10-16. -/
inductive St where
  | startCommand | startRepo | startRepo2 | repo | startEscaped
  deriving DecidableEq, Repr

/-- The test of src/blogc-git-receiver/shell-command-parser.c:35-40 at the first
space. (`strncmp` of a literal of `n` bytes with a string that has at least `n`
bytes compares those `n` bytes.) -/
def knownAt (command : Str) (current : Nat) : Bool :=
  (current == 16 && command.take 16 == b!"git-receive-pack") ||
  (current == 15 && command.take 15 == b!"git-upload-pack") ||
  (current == 18 && command.take 18 == b!"git-upload-archive")

/-- Loop of `bgr_shell_command_parse`, src/blogc-git-receiver/shell-command-parser.c:28-95.
`rest` is `command + current`; the result is the returned string, `none` is
`NULL`. -/
def loop (command : Str) : (rest : Str) → (current : Nat) → St → (start : Nat) → (rv : Str) → Option Str
  | [], _, _, _, rv => if rv.length > 0 then some rv else none
  | c :: rest, current, .startCommand, start, rv =>
    if c = c!" " then
      if knownAt command current then loop command rest (current + 1) .startRepo start rv
      else none
    else loop command rest (current + 1) .startCommand start rv
  | c :: rest, current, .startRepo, start, rv =>
    if c = c!"'" then loop command rest (current + 1) .startRepo2 start rv
    else if c = c!"\\" then loop command rest (current + 1) .startEscaped start rv
    else none
  | c :: rest, current, .startRepo2, start, rv =>
    if c = c!"'" then loop command rest (current + 1) .startRepo start rv
    else if rv.length = 0 ∧ c = c!"/" then loop command rest (current + 1) .repo (current + 1) rv
    else loop command rest (current + 1) .repo current rv
  | c :: rest, current, .startEscaped, start, rv =>
    if c = c!"!" ∨ c = c!"'" then loop command rest (current + 1) .startRepo start (rv ++ [c])
    else none
  | c :: rest, current, .repo, start, rv =>
    if c = c!"'" then
      loop command rest (current + 1) .startRepo start (rv ++ slice command start current)
    else loop command rest (current + 1) .repo start rv

/-- `bgr_shell_command_parse`, src/blogc-git-receiver/shell-command-parser.c:19-96. -/
def parse (command : Str) : Option Str := loop command command 0 .startCommand 0 []

/-! ## `bgr_shell` -/

/-- The system interface used by `bgr_shell`. Every call either succeeds or
fails. -/
inductive Call where
  | exists_ (path : Str)              -- `access(path, F_OK) == 0`
  | lexists (path : Str)              -- `lstat(path) == 0`
  | system (cmd : Str)                -- `system(cmd) == 0`
  | chdir (path : Str)
  | mkdir (path : Str)
  | unlink (path : Str)
  | symlink (target path : Str)
  | execGitShell (arg : Str)          -- `execlp("git-shell", "git-shell", "-c", arg, NULL)`
  deriving DecidableEq, Repr

/-- Lines 105-119 and 121-135 of src/blogc-git-receiver/shell.c: replace one
hook by a symbolic link to this program. -/
def installHook (self name : Str) (k : Prog Call Nat) : Prog Call Nat :=
  let link := Prog.require (.symlink self name) 1 k
  .call (.lexists name) fun there =>
    if there then Prog.require (.unlink name) 1 link else link

/-- The command name, up to the first space (src/blogc-git-receiver/shell.c:149-151). -/
def commandName (arg : Str) : Str := arg.takeWhile (· != c!" ")

/-- `sizeof(buffer)`, src/blogc-git-receiver/shell.c:146. -/
def bufferSize : Nat := 4096

/-- `git_exec` part of `bgr_shell`, src/blogc-git-receiver/shell.c:137-175.
`snprintf` stores at most `bufferSize - 1` bytes; it is assumed not to fail.
When `execlp` works the process is replaced, here status 0. -/
def gitExec (bd arg quoted : Str) : Prog Call Nat :=
  Prog.require (.chdir bd) 1 <|
    let command := commandName arg
    if bufferSize < command.length + quoted.length + 2 then .ret 1
    else
      let buffer := (command ++ b!" " ++ quoted).take (bufferSize - 1)
      .call (.execGitShell buffer) fun ok => .ret (if ok then 0 else 1)

/-- `bgr_shell`, src/blogc-git-receiver/shell.c:28-185; `self` is `$SHELL`, `bd`
the base directory (`bgr_settings_get_base_dir`), `arg` is `argv[2]`. The test
hook `__VALGRIND_ENABLED` is not modelled. -/
def shell (self bd : Option Str) (arg : Str) : Prog Call Nat :=
  match self, bd with
  | none, _ => .ret 1
  | some _, none => .ret 1
  | some self, some bd =>
    match parse arg with
    | none => .ret 1
    | some p =>
      let repo := bd ++ b!"/repos/" ++ p
      let quoted := shellQuote (some repo)
      let exec := gitExec bd arg quoted
      if arg.take 11 = b!"git-upload-" then exec
      else
        let hooks :=
          Prog.require (.chdir repo) 1 <|
          .call (.exists_ b!"hooks") fun there =>
          let inHooks :=
            Prog.require (.chdir b!"hooks") 1 <|
            installHook self b!"pre-receive" <|
            installHook self b!"post-receive" exec
          if there then inHooks else Prog.require (.mkdir b!"hooks") 1 inHooks
        .call (.exists_ repo) fun there =>
          if there then hooks
          else Prog.require (.system (b!"git init --bare " ++ quoted ++ b!" > /dev/null")) 1 hooks

end Blogc.GitShell
