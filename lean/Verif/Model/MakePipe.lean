import Verif.Basic

/-!
# Model of src/blogc-make/exec.c:bm_exec_command: a parent, a child and three pipes
-/

namespace Blogc.Pipe

open Blogc

/-- A child process that ends, given its input and if its output is taken: it
reads bytes of its standard input (`none` is the end of the input), writes bytes
to its standard output (`false`) or error (`true`) and may close these two. It
keeps its standard input open. -/
inductive Child where
  | exit
  | read (k : Option Byte → Child)
  | write (err : Bool) (b : Byte) (k : Child)
  | close (err : Bool) (k : Child)

/-- Whether the process still runs. -/
def Child.alive : Child → Bool
  | .exit => false
  | _ => true

/-- Where the parent is in `bm_exec_command`. -/
inductive Parent where
  | writing (rest : Str)          -- src/blogc-make/exec.c:150-161, what is left to write
  | readOut (out : Str)           -- lines 167-184, what was read
  | readErr (out err : Str)       -- lines 187-202
  | waiting (out err : Str)       -- lines 204-205
  | done (out err : Str)          -- line 207
  | broken                        -- lines 151-158, or ended by SIGPIPE
  deriving DecidableEq

/-- The processes and what is in the pipes. `outOpen` and `errOpen` tell whether
the child has not closed its ends. -/
structure State where
  parent : Parent
  child : Child
  inp : Str
  outp : Str
  errp : Str
  outOpen : Bool
  errOpen : Bool

/-- After the fork, src/blogc-make/exec.c:146-148. No input is an empty text: the
end of the pipe is closed either way. -/
def start (child : Child) (input : Str) : State :=
  { parent := .writing input, child := child, inp := [], outp := [], errp := [], outOpen := true, errOpen := true }

/-- Whether the parent has not closed its end of the pipe to the child. -/
def State.inOpen (s : State) : Bool :=
  match s.parent with
  | .writing _ => true
  | _ => false

/-- One step of the parent or of the child, byte by byte, where `cap` is the
capacity of a pipe. A call that cannot proceed makes no step. Blocking calls are
not interrupted by signals, and reads do not fail. -/
inductive Step (cap : Nat) : State → State → Prop where
  /-- src/blogc-make/exec.c:151, one byte of the write. -/
  | write {s : State} {b : Byte} {rest : Str} : s.parent = .writing (b :: rest) → s.child.alive = true →
      s.inp.length < cap → Step cap s { s with parent := .writing rest, inp := s.inp ++ [b] }
  /-- src/blogc-make/exec.c:151-158: nobody can read. -/
  | writeBroken {s : State} {b : Byte} {rest : Str} : s.parent = .writing (b :: rest) → s.child.alive = false →
      Step cap s { s with parent := .broken }
  /-- src/blogc-make/exec.c:161. -/
  | writeDone {s : State} : s.parent = .writing [] → Step cap s { s with parent := .readOut [] }
  /-- src/blogc-make/exec.c:167-180. -/
  | readOut {s : State} {acc : Str} {b : Byte} {o : Str} : s.parent = .readOut acc → s.outp = b :: o →
      Step cap s { s with parent := .readOut (acc ++ [b]), outp := o }
  /-- src/blogc-make/exec.c:167, end of file, and 184. -/
  | readOutEnd {s : State} {acc : Str} : s.parent = .readOut acc → s.outp = [] →
      (s.outOpen && s.child.alive) = false → Step cap s { s with parent := .readErr acc [] }
  /-- src/blogc-make/exec.c:187-198. -/
  | readErr {s : State} {out acc : Str} {b : Byte} {e : Str} : s.parent = .readErr out acc → s.errp = b :: e →
      Step cap s { s with parent := .readErr out (acc ++ [b]), errp := e }
  /-- src/blogc-make/exec.c:187, end of file, and 202. -/
  | readErrEnd {s : State} {out acc : Str} : s.parent = .readErr out acc → s.errp = [] →
      (s.errOpen && s.child.alive) = false → Step cap s { s with parent := .waiting out acc }
  /-- src/blogc-make/exec.c:204-207. -/
  | wait {s : State} {out err : Str} : s.parent = .waiting out err → s.child.alive = false →
      Step cap s { s with parent := .done out err }
  /-- The child reads a byte. -/
  | childRead {s : State} {k : Option Byte → Child} {b : Byte} {i : Str} : s.child = .read k → s.inp = b :: i →
      Step cap s { s with child := k (some b), inp := i }
  /-- The child reads the end of its input. -/
  | childEof {s : State} {k : Option Byte → Child} : s.child = .read k → s.inp = [] → s.inOpen = false →
      Step cap s { s with child := k none }
  /-- The child writes a byte to its standard output. -/
  | childOut {s : State} {b : Byte} {k : Child} : s.child = .write false b k → s.outOpen = true →
      s.outp.length < cap → Step cap s { s with child := k, outp := s.outp ++ [b] }
  /-- The child writes to its closed standard output. -/
  | childOutLost {s : State} {b : Byte} {k : Child} : s.child = .write false b k → s.outOpen = false →
      Step cap s { s with child := k }
  /-- The child writes a byte to its standard error. -/
  | childErr {s : State} {b : Byte} {k : Child} : s.child = .write true b k → s.errOpen = true →
      s.errp.length < cap → Step cap s { s with child := k, errp := s.errp ++ [b] }
  /-- The child writes to its closed standard error. -/
  | childErrLost {s : State} {b : Byte} {k : Child} : s.child = .write true b k → s.errOpen = false →
      Step cap s { s with child := k }
  /-- The child closes its standard output. -/
  | childCloseOut {s : State} {k : Child} : s.child = .close false k →
      Step cap s { s with child := k, outOpen := false }
  /-- The child closes its standard error. -/
  | childCloseErr {s : State} {k : Child} : s.child = .close true k →
      Step cap s { s with child := k, errOpen := false }

/-- The states reached from `s`. -/
inductive Reach (cap : Nat) (s : State) : State → Prop where
  | refl : Reach cap s s
  | step {t u : State} : Reach cap s t → Step cap t u → Reach cap s u

end Blogc.Pipe
