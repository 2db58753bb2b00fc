import Verif.Spec.Semantics
import Verif.Spec.Template

/-!
# How templates are written

A template as its author sees it: pieces of text, variable references and statements, with the
white space inside the brackets and the `-` markers that remove the white space around a statement.
-/

namespace Blogc.Tokens

open Blogc Blogc.Template Blogc.Doc

/-- White space, possibly none. -/
def Blank (s : Str) : Prop := ∀ c ∈ s, isSpace c = true

/-- White space that separates. -/
def Gap (s : Str) : Prop := Blank s ∧ s ≠ []

/-- The statements, each with the white space after its words. -/
inductive Stmt where
  | block (a kind b : Str)
  | endblock (a : Str)
  | ifdef (a name b : Str)
  | ifndef (a name b : Str)
  | if_ (a name b op c : Str) (rhs : Operand) (d : Str)
  | else_ (a : Str)
  | endif (a : Str)
  | foreach (a name b : Str)
  | endforeach (a : Str)
  deriving DecidableEq

/-- `{{ NAME }}`, `{% statement %}` (with or without markers), or text. -/
inductive Tok where
  | text (s : Str)
  | var (a name b : Str)
  | stmt (trimL : Bool) (a : Str) (s : Stmt) (trimR : Bool)
  deriving DecidableEq

/-- The words of a statement as they are written. -/
def Stmt.print : Stmt → Str
  | .block a k b => b!"block" ++ a ++ k ++ b
  | .endblock a => b!"endblock" ++ a
  | .ifdef a n b => b!"ifdef" ++ a ++ n ++ b
  | .ifndef a n b => b!"ifndef" ++ a ++ n ++ b
  | .if_ a n b op c rhs d => b!"if" ++ a ++ n ++ b ++ op ++ c ++ rhs.data ++ d
  | .else_ a => b!"else" ++ a
  | .endif a => b!"endif" ++ a
  | .foreach a n b => b!"foreach" ++ a ++ n ++ b
  | .endforeach a => b!"endforeach" ++ a

/-- A marker, if any. -/
def dash (b : Bool) : Str := if b then b!"-" else []

/-- An item as it is written. -/
def Tok.print : Tok → Str
  | .text s => s
  | .var a n b => b!"{{" ++ a ++ n ++ b ++ b!"}}"
  | .stmt l a s r => b!"{%" ++ dash l ++ a ++ s.print ++ dash r ++ b!"%}"

/-- A template as it is written. -/
def print : List Tok → Str
  | [] => []
  | t :: ts => t.print ++ print ts

/-- Text that can be written between quotes: quotes in it follow a backslash, and it does not end
with one. -/
def Quotable (s : Str) : Prop :=
  NulFree s ∧ (∀ p q, s = p ++ c!"\"" :: q → p.getLast? = some c!"\\") ∧ s.getLast? ≠ some c!"\\"

/-- The right-hand side of a comparison and the white space after it, which only a name needs. -/
def OperandOk (rhs : Operand) (d : Str) : Prop :=
  match rhs with
  | .text s => Quotable s ∧ Blank d
  | .var m => IsName m ∧ Gap d

def Stmt.Ok : Stmt → Prop
  | .block a k b => Gap a ∧ k ∈ blockTypes ∧ Gap b
  | .ifdef a n b | .ifndef a n b | .foreach a n b => Gap a ∧ IsName n ∧ Gap b
  | .if_ a n b op c rhs d => Gap a ∧ IsName n ∧ Gap b ∧ op ∈ operators ∧ Gap c ∧ OperandOk rhs d
  | .endblock a | .else_ a | .endif a | .endforeach a => Gap a

/-- Text in which no item begins: not empty, no `{{`, no `{%`, no NUL. -/
def TextOk (s : Str) : Prop := s ≠ [] ∧ NulFree s ∧ ¬ b!"{{" <:+: s ∧ ¬ b!"{%" <:+: s

/-- What text needs of what follows it. Between items the last byte is not `{`; at the end the last
byte but one is not `{` (see `C22.lone_brace_violated`). -/
def TextEnd (s : Str) : List Tok → Prop
  | [] => ∀ p c, s ≠ p ++ [c!"{", c]
  | .text _ :: _ => False
  | _ :: _ => s.getLast? ≠ some c!"{"

/-- A `-%}` stands before text, before the end, or before a statement that itself ends with `-%}`
(see `C22.far_text_violated`). -/
def MarkEnd : List Tok → Prop
  | [] => True
  | .text _ :: _ => True
  | .var _ _ _ :: _ => False
  | .stmt _ _ _ r :: _ => r = true

/-- A template that can be written. -/
def Ok : List Tok → Prop
  | [] => True
  | .text s :: ts => TextOk s ∧ TextEnd s ts ∧ Ok ts
  | .var a n b :: ts => Blank a ∧ IsName n ∧ Blank b ∧ Ok ts
  | .stmt _ a s r :: ts => Blank a ∧ s.Ok ∧ (r = true → MarkEnd ts) ∧ Ok ts

/-- What a statement stands for. -/
def Stmt.node : Stmt → Node
  | .block _ k _ => ⟨.block, .none, some k, none⟩
  | .endblock _ => mark .endblock
  | .ifdef _ n _ => (Cond.defined n).node
  | .ifndef _ n _ => (Cond.undefined n).node
  | .if_ _ n _ op _ rhs _ => (Cond.compare n op rhs).node
  | .else_ _ => mark .else_
  | .endif _ => mark .endif
  | .foreach _ n _ => ⟨.foreach, .none, some n, none⟩
  | .endforeach _ => mark .endforeach

/-- The next item removes the white space before it. -/
def trims : List Tok → Bool
  | .stmt l _ _ _ :: _ => l
  | _ => false

/-- Text without the white space that the neighbours remove. -/
def trim (before after : Bool) (s : Str) : Str :=
  let s := if before then lstrip s else s
  if after then rstrip s else s

/-- What a template stands for; `before` says that the item before ends with `-%}`. -/
def meaning (before : Bool) : List Tok → List Node
  | [] => []
  | .text s :: ts => ⟨.content, .none, some (trim before (trims ts) s), none⟩ :: meaning false ts
  | .var _ n _ :: ts => ⟨.variable, .none, some n, none⟩ :: meaning false ts
  | .stmt _ _ s r :: ts => s.node :: meaning r ts

/-- No markers. -/
def Unmarked (ts : List Tok) : Prop := ∀ l a s r, Tok.stmt l a s r ∈ ts → l = false ∧ r = false

end Blogc.Tokens
