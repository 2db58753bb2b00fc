import Verif.Spec.MakeJobs

/-!
# Specification of the rule `copy` of blogc-make

The manual page: the files listed in the section `[copy]` are copied to the output
directory as they are, and a directory is copied with everything below it.
-/

namespace Blogc.Spec.MakeCopy

open Blogc Blogc.Make
open Blogc.Spec.MakeJobs

/-- `Below d p t`: the directory `d` has, at the path `p` (the names on the way
down), a file of time `t`. The entries "." and ".." are not on any way down. -/
inductive Below : Forest → List Str → Int × Int → Prop
  | file (n : Str) (sec nsec : Int) (rest : Forest) (h : n ≠ b!"." ∧ n ≠ b!"..") :
    Below (.file n sec nsec rest) [n] (sec, nsec)
  | inside (n : Str) (kids rest : Forest) (p : List Str) (t : Int × Int) (h : n ≠ b!"." ∧ n ≠ b!"..") :
    Below kids p t → Below (.dir n kids rest) (n :: p) t
  | nextFile (n : Str) (sec nsec : Int) (rest : Forest) (p : List Str) (t : Int × Int) :
    Below rest p t → Below (.file n sec nsec rest) p t
  | nextDir (n : Str) (kids rest : Forest) (p : List Str) (t : Int × Int) :
    Below rest p t → Below (.dir n kids rest) p t
  | nextGone (n : Str) (rest : Forest) (p : List Str) (t : Int × Int) :
    Below rest p t → Below (.gone n rest) p t

/-- `Found w p t`: at a path with what is described by `w` there is a file of time
`t` (and `p` is empty), or a directory with such a file at the path `p`. -/
inductive Found : Forest → List Str → Int × Int → Prop
  | file (n : Str) (sec nsec : Int) (rest : Forest) : Found (.file n sec nsec rest) [] (sec, nsec)
  | dir (n : Str) (kids rest : Forest) (p : List Str) (t : Int × Int) :
    Below kids p t → Found (.dir n kids rest) p t

/-- A name, and the names on the way down from it. -/
def under (f : Str) : List Str → Str
  | [] => f
  | n :: p => under (f ++ b!"/" ++ n) p

/-- The names of a directory: no two entries have the same one, none is empty, and
none has a slash. -/
def names : Forest → List Str
  | .nil => []
  | .file n _ _ rest => n :: names rest
  | .dir n _ rest => n :: names rest
  | .gone n rest => n :: names rest

def GoodDir : Forest → Prop
  | .nil => True
  | .file n _ _ rest => n ∉ names rest ∧ c!"/" ∉ n ∧ GoodDir rest
  | .dir n kids rest => n ∉ names rest ∧ c!"/" ∉ n ∧ GoodDir kids ∧ GoodDir rest
  | .gone n rest => n ∉ names rest ∧ c!"/" ∉ n ∧ GoodDir rest

/-- What is found at a path can be found on a disk. -/
def Good : Forest → Prop
  | .dir _ kids _ => GoodDir kids
  | _ => True

/-- A copy to be made. -/
structure Copy where
  source : Str
  dest : Str
  /-- The time of the source. -/
  time : Int × Int
  deriving DecidableEq, Repr

/-- The destination has to be made: it is missing, or the source or the settings
file is newer (or the settings file is missing). -/
def due (s : Site) (c : Copy) : Bool :=
  match s.stat c.dest with
  | none => true
  | some t => (match s.stat s.settingsFile with
    | none => true
    | some u => decide (Later u t)) || decide (Later c.time t)

/-- `c` is the copy of something found at the entry `f` of the section. -/
def Of (s : Site) (f : Str) (c : Copy) : Prop :=
  ∃ p t, Found (s.disk (absPath s.root f)) p t ∧
    c = ⟨under (absPath s.root f) p, outDir s ++ b!"/" ++ under f p, t⟩

/-- The copies made and the status of the rule: those that are due, in order, up to
the first that fails; its status, or 0. -/
def Makes (s : Site) (cp : Str → Str → Int) (cs : List Copy) (r : List (Str × Str) × Int) : Prop :=
  ∃ n, r.1 = (((cs.filter (due s)).take n).map fun c => (c.source, c.dest)) ∧
    (r.2 = 0 → n = (cs.filter (due s)).length ∧ ∀ j ∈ r.1, cp j.1 j.2 = 0) ∧
    (r.2 ≠ 0 → ∃ js j, r.1 = js ++ [j] ∧ cp j.1 j.2 = r.2 ∧ ∀ j ∈ js, cp j.1 j.2 = 0)

end Blogc.Spec.MakeCopy
