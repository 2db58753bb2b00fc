import Verif.Model.Main
import Verif.Spec.Numeral

/-!
# The variables a template names
-/

namespace Blogc.Spec

open Blogc Blogc.Template

/-- `NAME`, `NAME_n`, `NAME_FORMATTED` and `NAME_FORMATTED_n` stand for `NAME`. -/
inductive StandsFor : (word name : Str) → Prop
  | plain (n : Str) : StandsFor n n
  | sized (n ds : Str) : Digits ds → StandsFor (n ++ c!"_" :: ds) n
  | formatted (n : Str) : StandsFor (n ++ b!"_FORMATTED") n
  | formattedSized (n ds : Str) : Digits ds → StandsFor (n ++ b!"_FORMATTED" ++ c!"_" :: ds) n

/-- The text of a comparison: it begins and ends with a quote. -/
def IsText (d : Str) : Prop := ∃ t, d = c!"\"" :: t ++ b!"\""

/-- The words a statement asks the value of. -/
def Asks (n : Node) (word : Str) : Prop :=
  (n.type = .variable ∨ n.type = .ifdef ∨ n.type = .ifndef ∨ n.type = .if_) ∧ n.data0 = some word ∨
  (n.type = .ifdef ∨ n.type = .ifndef ∨ n.type = .if_) ∧ n.data1 = some word ∧ ¬ IsText word

/-- The list an iterator goes over. -/
def Iterates (n : Node) (word : Str) : Prop := n.type = .foreach ∧ n.data0 = some word

/-- Small letters become large, and what is neither a letter nor a digit an underscore. -/
def nameByte (c : Byte) : Byte :=
  if c!"a" ≤ c ∧ c ≤ c!"z" then c - 32
  else if (c!"A" ≤ c ∧ c ≤ c!"Z") ∨ (c!"0" ≤ c ∧ c ≤ c!"9") then c
  else c!"_"

/-- The variables a template depends on: those its statements ask for, directly or through a
formatter; the lists its iterators go over, and what is mapped to the items of these; and the
format of dates, if it asks for a word beginning with `DATE_`. -/
inductive Names (tmpl : List Node) : Str → Prop
  | asked {n : Node} {word name : Str} : n ∈ tmpl → Asks n word → StandsFor word name → Names tmpl name
  | dates {n : Node} {rest : Str} : n ∈ tmpl → Asks n (b!"DATE_" ++ rest) → Names tmpl b!"DATE_FORMAT"
  | list {n : Node} {name : Str} : n ∈ tmpl → Iterates n name → Names tmpl name
  | mapped {n : Node} {name : Str} (item : Str) : n ∈ tmpl → Iterates n name →
      Names tmpl ((name ++ b!"__" ++ item).map nameByte)

/-- The variables a run of blogc asks for: those its template names, or the one to print with what that
stands for. -/
def RunNames (env : Main.Env) (o : Main.Opts) (k : Str) : Prop :=
  (∃ t tmpl, o.print = none ∧ o.template = some t ∧ env.template t = some tmpl ∧ Names tmpl k) ∨
  ∃ w, o.print = some w ∧ (StandsFor w k ∨ k = b!"DATE_FORMAT" ∧ ∃ r, w = b!"DATE_" ++ r)

/-! ## Tables that do not differ there -/

/-- Two tables agree on the names in `P`. -/
def AgreeOn (P : Str → Prop) (g g' : Trie Str) : Prop := ∀ k, P k → g.lookup k = g'.lookup k

/-- Lists of the same length, related item by item. -/
def All2 {α : Type} (R : α → α → Prop) : List α → List α → Prop
  | [], [] => True
  | a :: as, b :: bs => R a b ∧ All2 R as bs
  | _, _ => False

/-- Both or neither, and then related. -/
def Opt2 {α : Type} (R : α → α → Prop) : Option α → Option α → Prop
  | none, none => True
  | some a, some b => R a b
  | _, _ => False

end Blogc.Spec
