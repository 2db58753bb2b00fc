import Verif.Model.Template

/-!
# What a template is

Independent descriptions used to state the properties of templates.
-/

namespace Blogc.Template

open Blogc

/-- The statements that open a conditional. -/
def isIf (k : NodeType) : Bool := k == .ifdef || k == .ifndef || k == .if_

/-- Every closing statement closes one that was opened before it, and all are closed. -/
def Balanced (opens closes : NodeType → Bool) (ks : List NodeType) : Prop :=
  (∀ p, p <+: ks → p.countP closes ≤ p.countP opens) ∧ ks.countP closes = ks.countP opens

/-- At no point are two open. -/
def Flat (opens closes : NodeType → Bool) (ks : List NodeType) : Prop :=
  ∀ p, p <+: ks → p.countP opens ≤ p.countP closes + 1

/-- Every `else` is inside a conditional. -/
def ElseInside (ks : List NodeType) : Prop :=
  ∀ p, p ++ [.else_] <+: ks → p.countP (· == .endif) < p.countP isIf

/-- Conditionals and iterators are closed, and every `else` is inside a conditional. -/
structure Closed (ks : List NodeType) : Prop where
  ifs : Balanced isIf (· == .endif) ks
  foreachs : Balanced (· == .foreach) (· == .endforeach) ks
  elses : ElseInside ks

/-- Blocks are closed and not nested; conditionals and iterators are closed, both in the whole
template and within each block, so that none crosses the boundary of a block; every `else`
belongs to a conditional opened in the same block. -/
structure WellBracketed (ks : List NodeType) : Prop where
  closed : Closed ks
  blocks : Balanced (· == .block) (· == .endblock) ks
  flat : Flat (· == .block) (· == .endblock) ks
  inside : ∀ a body b, ks = a ++ [.block] ++ body ++ [.endblock] ++ b → .endblock ∉ body → Closed body

/-- The template is not cut off within a statement: every `{%` is followed by a `%}`. -/
def Complete (src : Str) : Prop := ∀ a b, src = a ++ b!"{%" ++ b → b!"%}" <:+: b

/-- A variable name as it can be written in a template. -/
def IsName (s : Str) : Prop :=
  (∃ c r, s = c :: r ∧ c!"A" ≤ c ∧ c ≤ c!"Z") ∧
  ∀ c ∈ s, (c!"A" ≤ c ∧ c ≤ c!"Z") ∨ (c!"0" ≤ c ∧ c ≤ c!"9") ∨ c = c!"_"

/-- The right-hand side of a comparison: a variable name or text that begins with a quote. -/
def IsOperand (s : Str) : Prop := IsName s ∨ ∃ r, s = c!"\"" :: r

/-- A node carries what its statement needs. -/
def NodeOk (n : Node) : Prop :=
  match n.type with
  | .block => ∃ t ∈ blockTypes, n.data0 = some t
  | .variable | .ifdef | .ifndef | .foreach => ∃ v, n.data0 = some v ∧ IsName v
  | .if_ => n.op ≠ .none ∧ (∃ v, n.data0 = some v ∧ IsName v) ∧ ∃ v, n.data1 = some v ∧ IsOperand v
  | .content => ∃ t, n.data0 = some t
  | .else_ | .endif | .endforeach | .endblock => True

end Blogc.Template
