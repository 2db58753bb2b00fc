import Verif.Model.Error
import Verif.Model.Template

/-!
# Model of what `src/common/error.c` prints
-/

namespace Blogc

/-- `bc_error_type_t`, src/common/error.h:9-27 (`other` is any other number). -/
inductive ErrType where
  | config | file | source | template | loader | datetime | settings | exec | atom | utils | other
  deriving DecidableEq, Repr

/-- A `size_t` printed with `%d`, as in src/common/error.c:92-94: right below 2^31 (on the usual machines), not defined
otherwise. -/
def printInt (n : Nat) : Res Str := if n < 2 ^ 31 then .ok (decNat n) else .ub

/-- The message of `bc_error_parser` for an error at a position, src/common/error.c:85-97. -/
def errText (src : Str) (current : Nat) (msg : Str) : Res Str :=
  (errLine src current).bind fun line =>
    if line = [] then .ok msg
    else (printInt (errLocate src current).lineno).bind fun n =>
      (printInt (errLocate src current).pos).bind fun p =>
        .ok (msg ++ b!"\nError occurred near line " ++ n ++ b!", position " ++ p ++ b!": " ++ line)

/-- The words of `bc_error_print`, src/common/error.c:113-146. -/
def errWords : ErrType → Str
  | .config => b!"error: config-parser: "
  | .file => b!"error: file: "
  | .source => b!"error: source: "
  | .template => b!"error: template: "
  | .loader => b!"error: loader: "
  | .datetime => b!"warning: datetime: "
  | .settings => b!"error: settings: "
  | .exec => b!"error: exec: "
  | .atom => b!"error: atom: "
  | .utils => b!"error: utils: "
  | .other => b!"error: "

/-- What `bc_error_print` writes to the standard error, src/common/error.c:105-147. -/
def errPrint (pre : Option Str) (type : ErrType) (msg : Str) : Str :=
  (match pre with
    | some p => p ++ b!": "
    | none => []) ++ errWords type ++ msg ++ b!"\n"

/-- What blogc prints for an error in a template, src/blogc/main.c:340-345. -/
def complaint (src : Str) (r : Template.Report) : Res Str :=
  match r.place with
  | some at_ => (errText src at_ r.message).map (errPrint (some b!"blogc") .template)
  | none => .ok (errPrint (some b!"blogc") .template r.message)

end Blogc
