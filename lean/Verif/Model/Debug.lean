import Verif.Model.Template

/-!
# Model of src/blogc/debug.c

What `blogc -d` writes to the standard error output about the template (src/blogc/main.c:347-348).
-/

namespace Blogc.Debug

open Blogc Blogc.Template

/-- `get_operator`, src/blogc/debug.c:11-28. -/
def getOperator (op : Op) : Str :=
  if op.neq then b!"!="
  else if op.eq then
    if op.lt then b!"<="
    else if op.gt then b!">="
    else b!"=="
  else if op.lt then b!"<"
  else if op.gt then b!">"
  else []

/-- An argument for `%s`: a null pointer is undefined behaviour. -/
def arg : Option Str → Res Str
  | some s => .ok s
  | none => .ub

/-- The `switch` of `blogc_debug_template`, src/blogc/debug.c:37-72. -/
def nodeText (n : Node) : Res Str :=
  match n.type with
  | .ifdef => (arg n.data0).map fun v => b!"IFDEF: " ++ v
  | .ifndef => (arg n.data0).map fun v => b!"IFNDEF: " ++ v
  | .if_ => (arg n.data0).bind fun v => (arg n.data1).map fun w =>
      b!"IF: " ++ v ++ b!" " ++ getOperator n.op ++ b!" " ++ w
  | .else_ => .ok b!"ELSE"
  | .endif => .ok b!"ENDIF"
  | .foreach => (arg n.data0).map fun v => b!"FOREACH: " ++ v
  | .endforeach => .ok b!"ENDFOREACH"
  | .block => (arg n.data0).map fun v => b!"BLOCK: " ++ v
  | .endblock => .ok b!"ENDBLOCK"
  | .variable => (arg n.data0).map fun v => b!"VARIABLE: " ++ v
  | .content => (arg n.data0).map fun v => b!"CONTENT: `" ++ v ++ b!"`"

/-- `blogc_debug_template`, src/blogc/debug.c:31-75. -/
def template : List Node → Res Str
  | [] => .ok []
  | n :: ns => (nodeText n).bind fun s => (template ns).map fun r => b!"DEBUG: <TEMPLATE " ++ s ++ b!">\n" ++ r

end Blogc.Debug
