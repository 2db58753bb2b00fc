import Verif.Basic

/-!
# Model of `rmdir_recursive`, src/blogc-git-receiver/pre-receive.c:33-84

The file system is a map from paths to objects. A path is the list of the names
from the root on, without symbolic links on the way; a symbolic link carries the
path that it leads to in the end, if any (not another link). Hard links do not
matter here.
-/

namespace Blogc.Remove

open Blogc

abbrev Path := List Str

inductive Obj where
  | file
  | dir
  | link (target : Option Path)
  deriving DecidableEq, Repr

abbrev FS := Path → Option Obj

/-- `stat`: the object found after following a symbolic link, and its path;
`none`: the call fails. -/
def FS.stat (fs : FS) (p : Path) : Option (Path × Obj) :=
  match fs p with
  | none => none
  | some (.link none) => none
  | some (.link (some q)) =>
    match fs q with
    | some .file => some (q, .file)
    | some .dir => some (q, .dir)
    | _ => none
  | some o => some (p, o)

/-- The file system without one entry: `unlink` and `rmdir`. -/
def FS.without (fs : FS) (p : Path) : FS := fun q => if q = p then none else fs q

/-- What `readdir` returns for a directory that does not change meanwhile, in any order. -/
def FS.Listing (fs : FS) (p : Path) (names : List Str) : Prop :=
  names.Nodup ∧ ∀ n, n ∈ names ↔ fs (p ++ [n]) ≠ none

/-- How a removal ends: it returns, it gives up (`exit(2)`) because of what it
finds, or it ends early because a call failed for another reason or the process
was killed. -/
inductive Out where
  | done | refused | failed
  deriving DecidableEq, Repr

/-- The parts of the function: a directory, named by a path whose last part is a symbolic link if
`linked`; and the loop of lines 53-73 over the names of the entries of `p`, in any order. -/
inductive Part where
  | dir (p : Path) (linked : Bool)
  | entries (p : Path) (names : List Str)

/-- `Rm part fs fs' o`: the part leads from `fs` to `fs'`. -/
inductive Rm : Part → FS → FS → Out → Prop where
  | failed (x : Part) (fs : FS) : Rm x fs fs .failed
  /-- Lines 52-73 end early. -/
  | stopped {fs fs' : FS} {p : Path} {linked : Bool} {names : List Str} {o : Out} :
      fs.Listing p names → Rm (.entries p names) fs fs' o → o ≠ .done → Rm (.dir p linked) fs fs' o
  /-- Line 79: `rmdir` of an empty directory. -/
  | done {fs fs' : FS} {p : Path} {names : List Str} :
      fs.Listing p names → Rm (.entries p names) fs fs' .done → (∀ n, fs' (p ++ [n]) = none) →
      Rm (.dir p false) fs (fs'.without p) .done
  /-- Lines 79-82: `rmdir` fails if the path names a link or the directory is not empty. -/
  | notEmpty {fs fs' : FS} {p : Path} {linked : Bool} {names : List Str} :
      fs.Listing p names → Rm (.entries p names) fs fs' .done →
      (linked = true ∨ ∃ n, fs' (p ++ [n]) ≠ none) → Rm (.dir p linked) fs fs' .refused
  /-- Lines 79-82: `rmdir` fails for another reason. -/
  | late {fs fs' : FS} {p : Path} {linked : Bool} {names : List Str} :
      fs.Listing p names → Rm (.entries p names) fs fs' .done → Rm (.dir p linked) fs fs' .failed
  | nil (fs : FS) (p : Path) : Rm (.entries p []) fs fs .done
  /-- Lines 57-62. -/
  | refused {fs : FS} {p : Path} {n : Str} {ns : List Str} : fs.stat (p ++ [n]) = none →
      Rm (.entries p (n :: ns)) fs fs .refused
  /-- Lines 66-71: the entry itself is removed, which may be a symbolic link. -/
  | file {fs fs' : FS} {p q : Path} {n : Str} {ns : List Str} {o : Out} :
      fs.stat (p ++ [n]) = some (q, .file) → Rm (.entries p ns) (fs.without (p ++ [n])) fs' o →
      Rm (.entries p (n :: ns)) fs fs' o
  /-- Lines 63-65. -/
  | sub {fs fs1 fs' : FS} {p q : Path} {n : Str} {ns : List Str} {o : Out} :
      fs.stat (p ++ [n]) = some (q, .dir) → Rm (.dir q (decide (q ≠ p ++ [n]))) fs fs1 .done →
      Rm (.entries p ns) fs1 fs' o → Rm (.entries p (n :: ns)) fs fs' o
  | subStopped {fs fs' : FS} {p q : Path} {n : Str} {ns : List Str} {o : Out} :
      fs.stat (p ++ [n]) = some (q, .dir) → Rm (.dir q (decide (q ≠ p ++ [n]))) fs fs' o → o ≠ .done →
      Rm (.entries p (n :: ns)) fs fs' o

/-- `rmdir_recursive` for a path that is not a symbolic link, lines 36-45. (If `stat` fails for a
directory that is there, it returns without doing anything: `failed`.) -/
inductive Remove : FS → Path → FS → Out → Prop where
  | absent {fs : FS} {p : Path} : fs p = none → Remove fs p fs .done
  | notDir {fs : FS} {p : Path} : fs p = some .file → Remove fs p fs .refused
  | failed (fs : FS) (p : Path) : Remove fs p fs .failed
  | dir {fs fs' : FS} {p : Path} {o : Out} : fs p = some .dir → Rm (.dir p false) fs fs' o → Remove fs p fs' o

end Blogc.Remove
