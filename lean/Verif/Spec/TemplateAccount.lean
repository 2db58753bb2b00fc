import Verif.Model.TemplateMemory

/-!
# Keeping account of what a template and a page have in use
-/

namespace Blogc.Spec.TmplAccount

open Blogc Blogc.TmplMem Blogc.Template

/-- What is in use. -/
abbrev InUse := Thing → Bool

/-- One event: what is in use afterwards. Nothing may be acquired again while it is in use (the only reference to it would be
lost), or be used or released while it is not. -/
def account (l : InUse) : Event → Option InUse
  | .acquire x => if l x then none else some fun y => if y = x then true else l y
  | .release x => if l x then some fun y => if y = x then false else l y else none
  | .use x => if l x then some l else none

/-- What is in use after some events, if all of them are allowed. -/
def inUse : List Event → InUse → Option InUse
  | [], l => some l
  | e :: rest, l => (account l e).bind (inUse rest)

/-- Nothing is in use. -/
def nothing : InUse := fun _ => false

/-- A template: the nodes, the elements of their list, and the data they carry. -/
def ofTemplate (ns : List Node) : InUse
  | .node k | .link k => k < ns.length
  | .first k => ns[k]?.any fun n => n.data0.isSome
  | .second k => ns[k]?.any fun n => n.data1.isSome
  | _ => false

/-- Only `x` is in use. -/
def only (x : Thing) : InUse := fun y => y = x

/-- What an iterator has taken: the words of its list and its name. -/
def OfIterator : Thing → Prop
  | .word _ | .wordLink _ | .name => True
  | _ => False

/-- What can be open at a place of a template. -/
inductive Open where
  | block | iterator | conditional
  deriving DecidableEq

/-- The statements are properly nested, given what is open, innermost first: each closing statement closes what was opened
last, an `else` is directly within a conditional, blocks are not within blocks and iterators not within iterators. -/
def Nested : List Open → List NodeType → Prop
  | s, [] => s = []
  | s, .block :: ks => Open.block ∉ s ∧ Nested (.block :: s) ks
  | s, .foreach :: ks => Open.iterator ∉ s ∧ Nested (.iterator :: s) ks
  | s, .if_ :: ks | s, .ifdef :: ks | s, .ifndef :: ks => Nested (.conditional :: s) ks
  | s, .else_ :: ks => s.head? = some .conditional ∧ Nested s ks
  | s, .endblock :: ks => s.head? = some .block ∧ Nested s.tail ks
  | s, .endforeach :: ks => s.head? = some .iterator ∧ Nested s.tail ks
  | s, .endif :: ks => s.head? = some .conditional ∧ Nested s.tail ks
  | s, .variable :: ks | s, .content :: ks => Nested s ks

end Blogc.Spec.TmplAccount
