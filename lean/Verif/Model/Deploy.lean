import Verif.Basic

/-!
# Model of the deployment part of `src/blogc-git-receiver/pre-receive.c`

The steps of `bgr_pre_receive_hook` from the start of the build to the end
(lines 272-312), as a transition system: every step may fail, and builds and
removals of directories are visible half done. Only the public symbolic link and
the build directories are modelled; build directories are named by real paths.
A build whose command ends with status 0 is taken to be complete.
-/

namespace Blogc.Deploy

open Blogc

/-- State of a build directory. -/
inductive Dir where
  | absent | incomplete | complete
  deriving DecidableEq, Repr

/-- What is found at the path of the public link. -/
inductive Sym where
  | absent
  | link (target : Str)
  | directory                  -- a real directory: cannot be unlinked
  deriving DecidableEq, Repr

/-- The relevant part of the file system. -/
structure FS where
  sym : Sym
  dirs : Str → Dir

/-- Change one directory. -/
def FS.setDir (fs : FS) (d : Str) (s : Dir) : FS :=
  { fs with dirs := fun x => if x = d then s else fs.dirs x }

/-- The link resolves to a directory. -/
def FS.resolves (fs : FS) (t : Str) : Prop := fs.sym = .link t ∧ fs.dirs t ≠ .absent

/-- What the program does next. -/
inductive PC where
  | build                       -- `system(build_cmd)`, line 274
  | realpath                    -- line 283
  | unlink (old : Str)          -- line 284
  | symlink (old : Option Str)  -- line 292
  | removeOld (old : Str)       -- line 301
  | removeNew                   -- lines 276, 287, 295
  | done (rv : Nat)             -- end, line 311
  deriving DecidableEq, Repr

structure Cfg where
  pc : PC
  fs : FS

/-- One step, for a deployment into `out`. -/
inductive Step (out : Str) : Cfg → Cfg → Prop where
  /-- The build has created something. -/
  | buildSome (fs) : Step out ⟨.build, fs⟩ ⟨.build, fs.setDir out .incomplete⟩
  | buildOk (fs) : Step out ⟨.build, fs⟩ ⟨.realpath, fs.setDir out .complete⟩
  | buildFail (fs) : Step out ⟨.build, fs⟩ ⟨.removeNew, fs⟩
  | realpathOk (fs t) : fs.resolves t → Step out ⟨.realpath, fs⟩ ⟨.unlink t, fs⟩
  | realpathDir (fs p) : fs.sym = .directory → Step out ⟨.realpath, fs⟩ ⟨.unlink p, fs⟩
  | realpathFail (fs) : Step out ⟨.realpath, fs⟩ ⟨.symlink none, fs⟩
  | unlinkOk (fs t old) : fs.sym = .link t →
      Step out ⟨.unlink old, fs⟩ ⟨.symlink (some old), { fs with sym := .absent }⟩
  | unlinkFail (fs old) : Step out ⟨.unlink old, fs⟩ ⟨.removeNew, fs⟩
  /-- `symlink` fails with `EEXIST` when there is something at the path. -/
  | symlinkOld (fs old) : fs.sym = .absent →
      Step out ⟨.symlink (some old), fs⟩ ⟨.removeOld old, { fs with sym := .link out }⟩
  | symlinkNone (fs) : fs.sym = .absent →
      Step out ⟨.symlink none, fs⟩ ⟨.done 0, { fs with sym := .link out }⟩
  | symlinkFail (fs old) : Step out ⟨.symlink old, fs⟩ ⟨.removeNew, fs⟩
  /-- `rmdir_recursive`, lines 33-84: some entries are gone. -/
  | removeOldSome (fs old) : Step out ⟨.removeOld old, fs⟩ ⟨.removeOld old, fs.setDir old .incomplete⟩
  | removeOldDone (fs old) : Step out ⟨.removeOld old, fs⟩ ⟨.done 0, fs.setDir old .absent⟩
  /-- `exit(2)`. -/
  | removeOldExit (fs old) : Step out ⟨.removeOld old, fs⟩ ⟨.done 2, fs⟩
  | removeNewSome (fs) : Step out ⟨.removeNew, fs⟩ ⟨.removeNew, fs.setDir out .incomplete⟩
  | removeNewDone (fs) : Step out ⟨.removeNew, fs⟩ ⟨.done 1, fs.setDir out .absent⟩
  | removeNewExit (fs) : Step out ⟨.removeNew, fs⟩ ⟨.done 2, fs⟩

/-- A deployment that has come this far; it may be interrupted here. -/
inductive Reaches (out : Str) : Cfg → Cfg → Prop where
  | refl (c) : Reaches out c c
  | tail {a b c} : Reaches out a b → Step out b c → Reaches out a c

/-- Choice of the output directory, src/blogc-git-receiver/pre-receive.c:225-229:
`base` is `BUILDS/<ref>-<epoch>`. -/
def chooseOut (fs : FS) (base : Str) : Str :=
  if fs.dirs base ≠ .absent then base ++ b!"-" else base

end Blogc.Deploy
