import Verif.Basic

/-!
# Model of `bc_error_parser`, `src/common/error.c`
-/

namespace Blogc

/-- Locals of `bc_error_parser`, src/common/error.c:47-50. -/
structure ErrLoc where
  lineno : Nat
  linestart : Nat
  lineend : Nat
  pos : Nat
  deriving DecidableEq, Repr

def isEol (c : Byte) : Bool := c == c!"\n" || c == c!"\r"

/-- The two-byte line terminators of src/common/error.c:56-57. -/
def isEolPair (c d : Byte) : Bool :=
  (c == c!"\n" && d == c!"\r") || (c == c!"\r" && d == c!"\n")

/-- The loop of `bc_error_parser`, src/common/error.c:52-80. `rest` is the source
from index `i` on, `len` is `src_len`. -/
def errLoop (len current : Nat) : (rest : Str) → (i : Nat) → ErrLoc → ErrLoc
  | [], _, st => st
  | [c], i, st =>
    if i < current then
      if isEol c then
        { st with lineno := st.lineno + 1, pos := 1,
                  linestart := if i + 1 < len then i + 1 else st.linestart }
      else { st with pos := st.pos + 1 }
    else if isEol c then { st with lineend := i }
    else st
  | c :: d :: rest, i, st =>
    if i < current then
      if isEolPair c d then
        errLoop len current rest (i + 2)
          { st with lineno := st.lineno + 1, pos := 1,
                    linestart := if i + 2 < len then i + 2 else st.linestart }
      else if isEol c then
        errLoop len current (d :: rest) (i + 1)
          { st with lineno := st.lineno + 1, pos := 1,
                    linestart := if i + 1 < len then i + 1 else st.linestart }
      else errLoop len current (d :: rest) (i + 1) { st with pos := st.pos + 1 }
    else if isEol c then { st with lineend := i }
    else errLoop len current (d :: rest) (i + 1) st

/-- `bc_error_parser` up to the computation of the quoted line,
src/common/error.c:47-83. -/
def errLocate (src : Str) (current : Nat) : ErrLoc :=
  let st := errLoop src.length current src 0 { lineno := 1, linestart := 0, lineend := 0, pos := 1 }
  if st.lineend ≤ st.linestart ∧ src.length ≥ st.linestart
  then { st with lineend := src.length } else st

/-- The quoted line, `bc_strndup(src + linestart, lineend - linestart)`,
src/common/error.c:85. Reading outside the source is undefined; `bc_strndup`
stops at a NUL byte (src/common/utils.c:139). -/
def errLine (src : Str) (current : Nat) : Res Str :=
  let st := errLocate src current
  if st.linestart ≤ st.lineend ∧ st.lineend ≤ src.length
  then .ok (cstr (slice src st.linestart st.lineend)) else .ub

end Blogc
