import Verif.Model.Remove
import Verif.Model.MakeNative
import Verif.Spec.Path

/-!
# Programs that remove files, on a disk

The calls of `Make.clean` act on a file tree. There are no symbolic links on the
way to the files, nothing else changes the tree meanwhile, and calls fail only
because of what the tree is like.
-/

namespace Blogc.Spec.Disk

open Blogc Blogc.Make Blogc.Remove
open Blogc.Path (norm)

/-- What a call answers and what it leaves. -/
inductive Answer : FS → RmCall → Bool → FS → Prop where
  | unlink {fs : FS} {p : Str} {o : Obj} : fs (norm p) = some o → o ≠ .dir →
      Answer fs (.unlink p) true (fs.without (norm p))
  | noFile {fs : FS} {p : Str} : (∀ o, fs (norm p) = some o → o = .dir) → Answer fs (.unlink p) false fs
  /-- A directory that is missing counts as read, and as empty. -/
  | read {fs : FS} {d : Str} : (∀ o, fs (norm d) = some o → o = .dir) → Answer fs (.readDir d) true fs
  | noDir {fs : FS} {d : Str} {o : Obj} : fs (norm d) = some o → o ≠ .dir → Answer fs (.readDir d) false fs
  | empty {fs : FS} {d : Str} : (∀ n, fs (norm d ++ [n]) = none) → Answer fs (.isEmpty d) true fs
  | entry {fs : FS} {d n : Str} : fs (norm d ++ [n]) ≠ none → Answer fs (.isEmpty d) false fs
  | rmdir {fs : FS} {d : Str} : fs (norm d) = some .dir → (∀ n, fs (norm d ++ [n]) = none) →
      Answer fs (.rmdir d) true (fs.without (norm d))
  | noRmdir {fs : FS} {d : Str} : fs (norm d) ≠ some .dir ∨ (∃ n, fs (norm d ++ [n]) ≠ none) →
      Answer fs (.rmdir d) false fs

/-- The program, started on the disk `fs`, leaves `fs'` and returns `a`. -/
inductive Runs {α : Type} : Prog RmCall α → FS → FS → α → Prop where
  | ret (fs : FS) (a : α) : Runs (.ret a) fs fs a
  | call {c : RmCall} {k : Bool → Prog RmCall α} {ok : Bool} {fs fs1 fs2 : FS} {a : α} :
      Answer fs c ok fs1 → Runs (k ok) fs1 fs2 a → Runs (.call c k) fs fs2 a

/-- Entries are found only in directories. -/
def Tree (fs : FS) : Prop := ∀ p n, fs (p ++ [n]) ≠ none → fs p = some .dir

open Classical in
/-- What cleaning is meant to leave: from `out` on, all that is nothing but listed
files and directories on the way to them is gone. Anything else stays, and so do the
directories around it. -/
noncomputable def Cleaned (fs : FS) (out : Remove.Path) (listed : List Remove.Path) : FS := fun q =>
  if out <+: q ∧ ∀ r, q <+: r → fs r ≠ none → ∃ l ∈ listed, r <+: l then none else fs q

/-! ## Writing -/

/-- `mkdir`, where an existing entry is no error. -/
def mkdir (fs : FS) (p : Remove.Path) : FS := fun q => if q = p then (fs p).orElse fun _ => some .dir else fs q

/-- A file is written: the directories on the way are created first, as blogc
(src/blogc/main.c:91-123) and `bm_exec_native_cp` (src/blogc-make/exec-native.c:30-62) do. -/
def write (fs : FS) (path : Str) : FS := fun q =>
  if q = norm path then some .file else ((parentDirs [] path).map norm).foldl mkdir fs q

/-! ## Files of a build -/

/-- A name of a file or directory. -/
def Proper (n : Str) : Prop := n ≠ [] ∧ c!"/" ∉ n ∧ n ≠ b!"." ∧ n ≠ b!".."

/-- The path from `base` through names. -/
def below (base : Str) (names : List Str) : Str := base ++ names.flatMap fun n => c!"/" :: n

/-- A text that `dirname` leaves alone as a directory. -/
def Base (b : Str) : Prop := b ≠ [] ∧ stripSlashes b = b

/-- A file of the output directory, by its path and its short path. -/
structure Listed (out short : Str) (f : FileCtx) (names : List Str) : Prop where
  proper : names ≠ [] ∧ ∀ n ∈ names, Proper n
  path : f.path = below out names
  shortPath : f.shortPath = below short names

/-- What the directories have to be like: not written with a slash at the end, and
not "." or "/". -/
structure Dirs (out short : Str) : Prop where
  outBase : Base out
  shortBase : Base short
  notDot : short ≠ b!"."
  notRoot : short ≠ b!"/"

/-- The files of a disk: what a listing says is there is there, and is not a
directory. -/
structure OnDisk (out short : Str) (fs : FS) (files : List FileCtx) : Prop where
  listed : ∀ f ∈ files, f.readable = true → ∃ names, Listed out short f names
  there : ∀ f ∈ files, f.readable = true → ∃ o, fs (norm f.path) = some o ∧ o ≠ .dir
  once : ((files.filter (·.readable)).map fun f => norm f.path).Nodup

/-- The directories on the way to the output directory are there. -/
def Reachable (fs : FS) (out : Str) : Prop := ∀ d ∈ parentDirs [] out, fs (norm d) ≠ none

/-- All files of a build are written, one after the other. -/
def writeAll (fs : FS) (files : List FileCtx) : FS := files.foldl (fun fs f => write fs f.path) fs

/-- What the outputs of a build have to be like for cleaning to undo it: proper files
below the output directory, no two in the same place and none inside another. -/
structure Outputs (out short : Str) (files : List FileCtx) : Prop where
  readable : ∀ f ∈ files, f.readable = true
  listed : ∀ f ∈ files, ∃ names, Listed out short f names ∧ ∀ n ∈ names, c!"\\" ∉ n
  once : (files.map fun f => norm f.path).Nodup
  apart : ∀ f ∈ files, ∀ g ∈ files, norm f.path <+: norm g.path → norm f.path = norm g.path

/-- The disk after a build that writes to the given places of the output directory. -/
def built (fs : FS) (out : Str) (places : List (List Str)) : FS :=
  places.foldl (fun fs names => write fs (below out names)) fs

/-- Places for files: proper names, none twice, and none inside another. -/
structure Places (places : List (List Str)) : Prop where
  proper : ∀ names ∈ places, names ≠ [] ∧ ∀ n ∈ names, Proper n ∧ c!"\\" ∉ n
  once : places.Nodup
  apart : ∀ p ∈ places, ∀ q ∈ places, p <+: q → p = q

end Blogc.Spec.Disk
