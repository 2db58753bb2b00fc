import Verif.Basic

/-!
# Model of `src/common/utf8.c`
-/

namespace Blogc

/-- First part of the table `utf8d`, src/common/utf8.c:20-27 (`static const
uint8_t utf8d[]`, entries 0..255). -/
def utf8Class : List Nat := [
   0,0,0,0,0,0,0,0,0,0,0,0,0,0,0,0,  0,0,0,0,0,0,0,0,0,0,0,0,0,0,0,0,
   0,0,0,0,0,0,0,0,0,0,0,0,0,0,0,0,  0,0,0,0,0,0,0,0,0,0,0,0,0,0,0,0,
   0,0,0,0,0,0,0,0,0,0,0,0,0,0,0,0,  0,0,0,0,0,0,0,0,0,0,0,0,0,0,0,0,
   0,0,0,0,0,0,0,0,0,0,0,0,0,0,0,0,  0,0,0,0,0,0,0,0,0,0,0,0,0,0,0,0,
   1,1,1,1,1,1,1,1,1,1,1,1,1,1,1,1,  9,9,9,9,9,9,9,9,9,9,9,9,9,9,9,9,
   7,7,7,7,7,7,7,7,7,7,7,7,7,7,7,7,  7,7,7,7,7,7,7,7,7,7,7,7,7,7,7,7,
   8,8,2,2,2,2,2,2,2,2,2,2,2,2,2,2,  2,2,2,2,2,2,2,2,2,2,2,2,2,2,2,2,
  10,3,3,3,3,3,3,3,3,3,3,3,3,4,3,3, 11,6,6,6,5,8,8,8,8,8,8,8,8,8,8,8]

/-- Second part of the table `utf8d`, src/common/utf8.c:31-35 (entries
256..363). -/
def utf8Trans : List Nat := [
   0,12,24,36,60,96,84,12,12,12,48,72, 12,12,12,12,12,12,12,12,12,12,12,12,
  12, 0,12,12,12,12,12, 0,12, 0,12,12, 12,24,12,12,12,12,12,24,12,24,12,12,
  12,12,12,12,12,12,12,24,12,12,12,12, 12,24,12,12,12,12,12,12,12,24,12,12,
  12,12,12,12,12,12,12,36,12,36,12,12, 12,36,12,12,12,12,12,36,12,36,12,12,
  12,36,12,12,12,12,12,12,12,12,12,12]

/-- The whole table `utf8d`, src/common/utf8.c:17-36. -/
def utf8d : List Nat := utf8Class ++ utf8Trans

/-- A table read; outside the table it is undefined. -/
def utf8Read (i : Nat) : Res Nat :=
  match utf8d[i]? with
  | some v => .ok v
  | none => .ub

/-- One iteration of the loop, src/common/utf8.c:45. -/
def utf8Step (state : Nat) (b : Byte) : Res Nat := do
  let cls ← utf8Read b.toNat
  utf8Read (256 + state + cls)

/-- `bc_utf8_validate`, src/common/utf8.c:39-48. -/
def utf8Validate (s : Str) : Res Bool := do
  let state ← s.foldlM utf8Step 0
  return state == 0

/-- `bc_utf8_skip_bom`, src/common/utf8.c:58-68. -/
def utf8SkipBom (s : Str) : Nat :=
  if s.length < 3 then 0
  else if s.take 3 = [0xef, 0xbb, 0xbf] then 3
  else 0

end Blogc
