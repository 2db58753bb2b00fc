import Verif.Model.Remove

/-!
# Memory and directory streams of `rmdir_recursive`, src/blogc-git-receiver/pre-receive.c:33-84

The relation `Remove.Rm` again, with the directory streams that are opened and closed, and the names that
are made and released. `d` is the number of calls of the function that have not returned yet.
-/

namespace Blogc.RemoveMem

open Blogc Blogc.Remove

inductive Thing where
  | stream (d : Nat)  -- `d`, line 46, of the call number `d`
  | name (d : Nat)    -- `f`, line 56, of the call number `d`
  deriving DecidableEq, Repr

inductive Event where
  | acquire (x : Thing)
  | release (x : Thing)
  | use (x : Thing)
  deriving DecidableEq, Repr

/-- The argument `dir`: the name made by the call before; that of the first call belongs to the hook. -/
def dirName : Nat → List Event
  | 0 => []
  | d + 1 => [.use (.name d)]

/-- Lines 39 and 46: `stat` and `opendir`. -/
def opening (d : Nat) : List Event := dirName d ++ [.acquire (.stream d)]

/-- Lines 53 and 74: `readdir` finds no other entry, and `closedir`. -/
def closing (d : Nat) : List Event := [.use (.stream d), .release (.stream d)]

/-- Lines 53-57: `readdir`, the name of the entry, and `stat`. -/
def nextEntry (d : Nat) : List Event :=
  [.use (.stream d)] ++ dirName d ++ [.acquire (.name d), .use (.name d)]

/-- `RmM d part fs fs' o ev`: the part leads from `fs` to `fs'` with the events `ev`. -/
inductive RmM : Nat → Part → FS → FS → Out → List Event → Prop where
  /-- `stat` or `opendir` fails (lines 39-51), or the process is killed. -/
  | failed (d : Nat) (x : Part) (fs : FS) : RmM d x fs fs .failed []
  /-- Line 66: `unlink` fails; the name is released in line 69. -/
  | noUnlink {d : Nat} {fs : FS} {p : Path} {n : Str} {ns : List Str} :
      RmM d (.entries p (n :: ns)) fs fs .failed (nextEntry d ++ [.use (.name d), .release (.name d)])
  /-- Lines 52-73 end early. -/
  | stopped {d : Nat} {fs fs' : FS} {p : Path} {linked : Bool} {names : List Str} {o : Out} {ev : List Event} :
      fs.Listing p names → RmM d (.entries p names) fs fs' o ev → o ≠ .done →
      RmM d (.dir p linked) fs fs' o (opening d ++ ev)
  /-- Line 79: `rmdir` of an empty directory. -/
  | done {d : Nat} {fs fs' : FS} {p : Path} {names : List Str} {ev : List Event} :
      fs.Listing p names → RmM d (.entries p names) fs fs' .done ev → (∀ n, fs' (p ++ [n]) = none) →
      RmM d (.dir p false) fs (fs'.without p) .done (opening d ++ ev ++ closing d ++ dirName d)
  /-- Lines 79-82: `rmdir` fails. -/
  | notEmpty {d : Nat} {fs fs' : FS} {p : Path} {linked : Bool} {names : List Str} {ev : List Event} :
      fs.Listing p names → RmM d (.entries p names) fs fs' .done ev →
      (linked = true ∨ ∃ n, fs' (p ++ [n]) ≠ none) →
      RmM d (.dir p linked) fs fs' .refused (opening d ++ ev ++ closing d ++ dirName d)
  /-- Lines 79-82: `rmdir` fails for another reason. -/
  | late {d : Nat} {fs fs' : FS} {p : Path} {linked : Bool} {names : List Str} {ev : List Event} :
      fs.Listing p names → RmM d (.entries p names) fs fs' .done ev →
      RmM d (.dir p linked) fs fs' .failed (opening d ++ ev ++ closing d ++ dirName d)
  | nil (d : Nat) (fs : FS) (p : Path) : RmM d (.entries p []) fs fs .done []
  /-- Lines 57-62. -/
  | refused {d : Nat} {fs : FS} {p : Path} {n : Str} {ns : List Str} : fs.stat (p ++ [n]) = none →
      RmM d (.entries p (n :: ns)) fs fs .refused (nextEntry d ++ [.release (.name d)])
  /-- Lines 66-72. -/
  | file {d : Nat} {fs fs' : FS} {p q : Path} {n : Str} {ns : List Str} {o : Out} {ev : List Event} :
      fs.stat (p ++ [n]) = some (q, .file) → RmM d (.entries p ns) (fs.without (p ++ [n])) fs' o ev →
      RmM d (.entries p (n :: ns)) fs fs' o (nextEntry d ++ [.use (.name d), .release (.name d)] ++ ev)
  /-- Lines 63-65 and 72. -/
  | sub {d : Nat} {fs fs1 fs' : FS} {p q : Path} {n : Str} {ns : List Str} {o : Out} {ev ev' : List Event} :
      fs.stat (p ++ [n]) = some (q, .dir) → RmM (d + 1) (.dir q (decide (q ≠ p ++ [n]))) fs fs1 .done ev →
      RmM d (.entries p ns) fs1 fs' o ev' →
      RmM d (.entries p (n :: ns)) fs fs' o (nextEntry d ++ ev ++ [.release (.name d)] ++ ev')
  | subStopped {d : Nat} {fs fs' : FS} {p q : Path} {n : Str} {ns : List Str} {o : Out} {ev : List Event} :
      fs.stat (p ++ [n]) = some (q, .dir) → RmM (d + 1) (.dir q (decide (q ≠ p ++ [n]))) fs fs' o ev → o ≠ .done →
      RmM d (.entries p (n :: ns)) fs fs' o (nextEntry d ++ ev)

/-- `rmdir_recursive`, lines 36-45, called by the hook. -/
inductive RemoveM : FS → Path → FS → Out → List Event → Prop where
  | absent {fs : FS} {p : Path} : fs p = none → RemoveM fs p fs .done []
  | notDir {fs : FS} {p : Path} : fs p = some .file → RemoveM fs p fs .refused []
  | failed (fs : FS) (p : Path) : RemoveM fs p fs .failed []
  | dir {fs fs' : FS} {p : Path} {o : Out} {ev : List Event} : fs p = some .dir →
      RmM 0 (.dir p false) fs fs' o ev → RemoveM fs p fs' o ev

end Blogc.RemoveMem
