import Verif.Model.Strings

/-!
# Model of src/blogc-make/exec.c:bm_exec_command: the descriptors and the child

What the two processes write and read is in Model/MakePipe.lean. Here each system
call succeeds or fails as the environment decides, and the table of descriptors of
each process is kept.
-/

namespace Blogc.Command

open Blogc

inductive Pipe where
  | input
  | output
  | error
  deriving DecidableEq, Repr

/-- What a descriptor leads to: an end of a pipe, or a file that was open before. -/
inductive File where
  | readEnd (p : Pipe)
  | writeEnd (p : Pipe)
  | inherited (n : Nat)
  deriving DecidableEq, Repr

/-- The open descriptors of a process. -/
abbrev Fds := Nat → Option File

/-- `close`. -/
def close (t : Fds) (fd : Nat) : Fds := fun i => if i = fd then none else t i

/-- The descriptor is open and leads to `f`. -/
def opened (t : Fds) (fd : Nat) (f : File) : Fds := fun i => if i = fd then some f else t i

/-- `dup2`: nothing happens if the descriptor is not open. -/
def dup2 (t : Fds) (fd fd' : Nat) : Fds :=
  match t fd with
  | none => t
  | some f => opened t fd' f

/-- The lowest descriptor that is not open, below the limit of the process. -/
def lowest (limit : Nat) (t : Fds) : Option Nat := (List.range limit).find? fun i => (t i).isNone

/-- `pipe`: the two lowest descriptors that are not open. `ok` is `false` if it
fails for another reason than the limit. -/
def pipe (limit : Nat) (ok : Bool) (p : Pipe) (t : Fds) : Option (Nat × Nat × Fds) :=
  if !ok then none
  else do
    let r ← lowest limit t
    let t := opened t r (.readEnd p)
    let w ← lowest limit t
    return (r, w, opened t w (.writeEnd p))

/-- What the calls of `read` return in turn: some bytes, and then the end of the
file or an error. -/
structure Reads where
  chunks : List Str
  ok : Bool

/-- How a child ended. -/
inductive Wait where
  | exited (status : Nat)
  | killed (signal : Nat)
  deriving DecidableEq, Repr

/-- What the environment decides. `waited` is `none` if `waitpid` fails. -/
structure Env where
  limit : Nat
  pipeIn : Bool
  pipeOut : Bool
  pipeErr : Bool
  fork : Bool
  write : Bool
  out : Reads
  err : Reads
  waited : Option Wait

/-- The error messages, src/blogc-make/exec.c:85-193. -/
inductive Failure where
  | pipe (p : Pipe)
  | fork
  | write
  | read (p : Pipe)
  deriving DecidableEq, Repr

/-- What the function leaves: an error or the status, `*output` and `*error`, the
descriptors of the process, those of the child when it runs the command (`none`
if there is no child), whether there is a child that nobody waited for, and the
texts written to descriptors. -/
structure Outcome where
  result : Except Failure (Res Nat)
  output : Option Str
  error : Option Str
  fds : Fds
  child : Option Fds
  orphan : Bool
  wrote : List (Option File × Str)

/-- `bc_compat_status_code`, src/common/compat.c:16-34. -/
def statusCode : Wait → Nat
  | .exited n => n
  | .killed s => s + 128

/-- The loops of src/blogc-make/exec.c:166-180 and 186-198 for what `read` returns:
the bytes collected (`none` is NULL), or `none` for an error. A call that returns no
bytes is the end. -/
def readLoop (ok : Bool) : List Str → Option Str → Option (Option Str)
  | [], out => if ok then some out else none
  | c :: rest, out => if c = [] then some out else readLoop ok rest (some (out.getD [] ++ c))

/-- The descriptors of the child when the command starts,
src/blogc-make/exec.c:124-140. Programs started with `execv` keep them open. -/
def child (t : Fds) (inR inW outR outW errR errW : Nat) : Fds :=
  let t := close (close (close t inW) outR) errR
  dup2 (dup2 (dup2 t inR 0) outW 1) errW 2

/-- An error before there is a child. -/
def failed (f : Failure) (t : Fds) : Outcome := ⟨.error f, none, none, t, none, false, []⟩

/-- The parent from line 161 on, src/blogc-make/exec.c:161-207. `outR` and `errR` are
`fd_out[0]` and `fd_err[0]`. A failure of `waitpid` leaves `status` without a value. -/
def collect (env : Env) (t : Fds) (inW outR errR : Nat) (child : Fds) (wrote : List (Option File × Str)) : Outcome :=
  let t := close t inW
  match readLoop env.out.ok env.out.chunks none with
  | none => ⟨.error (.read .output), none, none, close (close t outR) errR, some child, true, wrote⟩
  | some out =>
    let t := close t outR
    match readLoop env.err.ok env.err.chunks none with
    | none => ⟨.error (.read .error), out, none, close t errR, some child, true, wrote⟩
    | some err =>
      let t := close t errR
      match env.waited with
      | none => ⟨.ok .ub, out, err, t, some child, true, wrote⟩
      | some w => ⟨.ok (.ok (statusCode w)), out, err, t, some child, false, wrote⟩

/-- `bm_exec_command`, src/blogc-make/exec.c:76-208, with no error before and with
`*output` and `*error` NULL, as in its two uses. -/
def command (env : Env) (input : Option Str) (t : Fds) : Outcome :=
  match pipe env.limit env.pipeIn .input t with
  | none => failed (.pipe .input) t
  | some (inR, inW, t) =>
    match pipe env.limit env.pipeOut .output t with
    | none => failed (.pipe .output) (close (close t inR) inW)
    | some (outR, outW, t) =>
      match pipe env.limit env.pipeErr .error t with
      | none => failed (.pipe .error) (close (close (close (close t inR) inW) outR) outW)
      | some (errR, errW, t) =>
        if !env.fork then
          failed .fork (close (close (close (close (close (close t inR) inW) outR) outW) errR) errW)
        else
          let c := child t inR inW outR outW errR errW
          let t := close (close (close t inR) outW) errW
          match input with
          | none => collect env t inW outR errR c []
          | some text =>
            if !env.write then
              ⟨.error .write, none, none, close (close (close t inW) outR) errR, some c, true, []⟩
            else collect env t inW outR errR c [(t inW, text)]

/-! ## What is done with the outcome -/

/-- What is printed on the standard error of `bm_exec_blogc`,
src/blogc-make/exec.c:322-362, apart from the layout of the verbose report. -/
inductive Report where
  | failure (f : Failure)
  | verbose (status : Nat) (input : Option Str) (output error : Option Str)
  | plain (text : Str)
  | nothing
  deriving DecidableEq

/-- src/blogc-make/exec.c:322-369: the report and the status. -/
def blogcReport (verbose : Bool) (input : Str) (result : Except Failure Nat) (output error : Option Str) : Report × Nat :=
  match result with
  | .error f => (.failure f, 1)
  | .ok rv =>
    (if rv ≠ 0 ∧ verbose = true then .verbose rv (if input.length > 0 then some (strip input) else none)
        (output.map strip) (error.map strip)
      else match error with
        | some e => .plain e
        | none => .nothing,
     if rv = 127 then 1 else rv)

/-- src/blogc-make/exec.c:401-430: the report and the value. A NULL printed with `%s`
is undefined; 78 is `EX_CONFIG`. -/
def variableReport (result : Except Failure Nat) (output error : Option Str) : Res (Report × Option Str) :=
  match result with
  | .error f => .ok (.failure f, none)
  | .ok rv =>
    if rv ≠ 0 then
      if rv ≠ 78 then
        match error with
        | none => .ub
        | some e => .ok (.plain (strip e), none)
      else .ok (.nothing, none)
    else .ok (.nothing, output.map List.dropLast)

end Blogc.Command
