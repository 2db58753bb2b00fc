import Verif.Basic

/-!
# Model of `src/blogc/toctree.c`
-/

namespace Blogc.Toctree

/-- `blogc_toctree_header_t` (src/blogc/toctree.h); `none` is `NULL`. -/
structure Header where
  level : Nat
  slug : Option Str
  text : Option Str
  deriving DecidableEq, Repr

/-- `blogc_toctree_append`, src/blogc/toctree.c:8-19 (`bc_strdup(NULL)` is
`NULL`). -/
def append (hs : List Header) (level : Nat) (slug text : Option Str) : List Header :=
  if level = 0 then hs else hs ++ [⟨level, slug, text⟩]

/-- The loop of lines 30-35. -/
def lowerLevel : (acc : Nat) → List Header → Nat
  | acc, [] => acc
  | acc, h :: hs => lowerLevel (if acc = 0 ∨ acc > h.level then h.level else acc) hs

/-- `%*s` with an empty string. (The width is a `size_t` where `printf` reads an
`int`; the model takes the intended value.) -/
def pad (n : Nat) : Str := List.replicate n 0x20

/-- Conversion of an `int` to `size_t` in the comparison of line 47. -/
def toSizeT (m : Int) : Nat := (m % 2 ^ 64).toNat

/-- `while (current_level > t->level)`, lines 50-55. A wrap-around of `spacing`
is an undefined outcome. -/
def closeLoop (endl : Str) (level : Nat) : (current spacing : Nat) → Str → Res (Nat × Nat × Str)
  | 0, spacing, out => .ok (0, spacing, out)
  | c + 1, spacing, out =>
    if c + 1 > level then
      if spacing < 4 then .ub
      else closeLoop endl level c (spacing - 4) (out ++ pad (spacing - 4) ++ b!"</ul>" ++ endl)
    else .ok (c + 1, spacing, out)

/-- `while (current_level < t->level)`, lines 56-61, `d` iterations. -/
def openLoop (endl : Str) : (d spacing : Nat) → Str → Nat × Str
  | 0, spacing, out => (spacing, out)
  | d + 1, spacing, out => openLoop endl d (spacing + 4) (out ++ pad spacing ++ b!"<ul>" ++ endl)

/-- The list item, lines 62-70. `bc_string_append` with `NULL` appends nothing
(src/common/utils.c:450-457). -/
def item (endl : Str) (h : Header) (spacing : Nat) : Str :=
  pad spacing ++ b!"<li>" ++
    (match h.slug with
     | some s => b!"<a href=\"#" ++ s ++ b!"\">" ++ h.text.getD [] ++ b!"</a>"
     | none => h.text.getD []) ++ b!"</li>" ++ endl

/-- The loop over the headers, lines 45-71. -/
def headerLoop (endl : Str) (lower : Nat) (maxdepth : Int) :
    List Header → (current spacing : Nat) → Str → Res (Nat × Nat × Str)
  | [], current, spacing, out => .ok (current, spacing, out)
  | h :: hs, current, spacing, out =>
    if h.level - lower ≥ toSizeT maxdepth then
      headerLoop endl lower maxdepth hs current spacing out
    else do
      let r ← closeLoop endl h.level current spacing out
      let o := openLoop endl (h.level - r.1) r.2.1 r.2.2
      headerLoop endl lower maxdepth hs (max r.1 h.level) o.1 (o.2 ++ item endl h o.1)

/-- `while (current_level >= lower_level)`, lines 74-79. A wrap-around of
`current_level` or of `spacing` is an undefined outcome. -/
def finish (endl : Str) (lower : Nat) : (current spacing : Nat) → Str → Res Str
  | 0, _, out => if lower = 0 then .ub else .ok out
  | c + 1, spacing, out =>
    if c + 1 ≥ lower then
      if spacing < 4 then .ub
      else finish endl lower c (spacing - 4) (out ++ pad (spacing - 4) ++ b!"</ul>" ++ endl)
    else .ok out

/-- `blogc_toctree_render`, src/blogc/toctree.c:22-82; `none` is `NULL`. -/
def render (hs : List Header) (maxdepth : Int) (endl : Option Str) : Res (Option Str) :=
  if hs = [] ∨ maxdepth = 0 then .ok none
  else
    let lower := lowerLevel 0 hs
    if lower = 0 then .ok none
    else do
      let e := endl.getD b!"\n"
      let r ← headerLoop e lower maxdepth hs lower 4 (b!"<ul>" ++ e)
      let out ← finish e lower r.1 r.2.1 r.2.2
      return some out

end Blogc.Toctree
