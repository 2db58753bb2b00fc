import Verif.Spec.Semantics

/-!
# The listing of a template
-/

namespace Blogc.Spec.DebugListing

open Blogc Blogc.Template Blogc.Doc

/-- How a condition is listed. The operator and a text are listed as they are written in the template. -/
def condition : Cond → Str
  | .defined n => b!"IFDEF: " ++ n
  | .undefined n => b!"IFNDEF: " ++ n
  | .compare n op (.text s) => b!"IF: " ++ n ++ b!" " ++ op ++ b!" \"" ++ s ++ b!"\""
  | .compare n op (.var m) => b!"IF: " ++ n ++ b!" " ++ op ++ b!" " ++ m

/-- The items of a template in the order in which they stand there, with the ends of statements. -/
def items : T → List Str
  | .done => []
  | .text s rest => (b!"CONTENT: `" ++ s ++ b!"`") :: items rest
  | .var n rest => (b!"VARIABLE: " ++ n) :: items rest
  | .cond c yes rest => condition c :: items yes ++ b!"ENDIF" :: items rest
  | .condElse c yes no rest => condition c :: items yes ++ b!"ELSE" :: items no ++ b!"ENDIF" :: items rest
  | .foreach n body rest => (b!"FOREACH: " ++ n) :: items body ++ b!"ENDFOREACH" :: items rest
  | .block k body rest => (b!"BLOCK: " ++ k) :: items body ++ b!"ENDBLOCK" :: items rest

/-- One line for each. -/
def listing (l : List Str) : Str := l.flatMap fun s => b!"DEBUG: <TEMPLATE " ++ s ++ b!">\n"

/-- What a statement or text says: its kind, its name or text, and what is compared with it. -/
def said (n : Node) : NodeType × Option Str × Option (Op × Option Str) :=
  match n.type with
  | .else_ | .endif | .endforeach | .endblock => (n.type, none, none)
  | .if_ => (n.type, n.data0, some (n.op, n.data1))
  | _ => (n.type, n.data0, none)

/-- No line ends within the texts. -/
def OneLine (n : Node) : Prop :=
  (∀ s, n.data0 = some s → c!"\n" ∉ s) ∧ ∀ s, n.data1 = some s → c!"\n" ∉ s

end Blogc.Spec.DebugListing
