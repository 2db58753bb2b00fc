import Verif.Basic

/-!
# Paths

The meaning of an absolute path without symbolic links: `.` and empty
components are skipped, `..` goes one directory up (staying at the root there).
-/

namespace Blogc.Path

open Blogc

/-- The texts between the slashes. -/
def comps : Str → List Str
  | [] => [[]]
  | c :: r =>
    if c = c!"/" then [] :: comps r
    else match comps r with
      | [] => [[c]]
      | h :: t => (c :: h) :: t

/-- Walk through components from a directory, given by its names from the
innermost to the root. -/
def walk : List Str → List Str → List Str
  | dir, [] => dir
  | dir, x :: r =>
    if x = [] ∨ x = b!"." then walk dir r
    else if x = b!".." then walk dir.tail r
    else walk (x :: dir) r

/-- The names on the way from the root to the file. -/
def norm (path : Str) : List Str := (walk [] (comps path)).reverse

/-- `path` is `dir` or is below it. -/
def Inside (dir path : Str) : Prop := norm dir <+: norm path

instance (dir path : Str) : Decidable (Inside dir path) :=
  inferInstanceAs (Decidable (_ <+: _))

/-- Following the components from some directory never goes above it;
`depth` is the current depth below it. -/
def StaysBelow : (depth : Nat) → List Str → Prop
  | _, [] => True
  | d, x :: r =>
    if x = [] ∨ x = b!"." then StaysBelow d r
    else if x = b!".." then 0 < d ∧ StaysBelow (d - 1) r
    else StaysBelow (d + 1) r

example : norm b!"/a/./b//../c" = [b!"a", b!"c"] := by decide
example : Inside b!"/srv/www" b!"/srv/www/x/../y" := by decide
example : ¬ Inside b!"/srv/www" b!"/srv/www2" := by decide

end Blogc.Path
