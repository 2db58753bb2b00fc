import Verif.Model.Render
import Verif.Spec.Order

/-!
# What a template means

Templates as trees, and the text they stand for as described in man/blogc-template.7.ronn. Nothing
here refers to how templates are rendered: there are no positions, flags or counters, and what can
be seen of the entries is passed down as an argument.
-/

namespace Blogc.Doc

open Blogc Blogc.Template Blogc.Render Blogc.Spec

/-- What a variable is compared with. -/
inductive Operand where
  | text (s : Str)
  | var (name : Str)
  deriving DecidableEq

/-- Conditions. -/
inductive Cond where
  | defined (name : Str)
  | undefined (name : Str)
  | compare (name op : Str) (rhs : Operand)
  deriving DecidableEq

/-- Templates. Each item is followed by the rest of the template. -/
inductive T where
  | done
  | text (s : Str) (rest : T)
  | var (name : Str) (rest : T)
  | cond (c : Cond) (yes rest : T)
  | condElse (c : Cond) (yes no rest : T)
  | foreach (name : Str) (body rest : T)
  | block (kind : Str) (body rest : T)
  deriving DecidableEq

/-- The comparison operators. -/
def operators : List Str := [b!"<", b!">", b!"<=", b!">=", b!"==", b!"!="]

/-- Names are not empty; operators are known. -/
def Cond.Ok : Cond → Prop
  | .defined n => n ≠ []
  | .undefined n => n ≠ []
  | .compare n op rhs => n ≠ [] ∧ op ∈ operators ∧
    match rhs with
    | .text _ => True
    | .var m => m ≠ [] ∧ m.head? ≠ some c!"\""

/-- Blocks are of a known kind and not within blocks, iterators are not within iterators, names are
not empty. -/
def Ok (inBlock inForeach : Bool) : T → Prop
  | .done => True
  | .text _ rest => Ok inBlock inForeach rest
  | .var n rest => n ≠ [] ∧ Ok inBlock inForeach rest
  | .cond c yes rest => c.Ok ∧ Ok inBlock inForeach yes ∧ Ok inBlock inForeach rest
  | .condElse c yes no rest =>
    c.Ok ∧ Ok inBlock inForeach yes ∧ Ok inBlock inForeach no ∧ Ok inBlock inForeach rest
  | .foreach n body rest =>
    n ≠ [] ∧ inForeach = false ∧ Ok inBlock true body ∧ Ok inBlock inForeach rest
  | .block k body rest =>
    k ∈ blockTypes ∧ inBlock = false ∧ Ok true inForeach body ∧ Ok inBlock inForeach rest

variable {G L S : Type}

/-- One text, then another. -/
def seq (a : Res (Str × S)) (f : S → Res (Str × S)) : Res (Str × S) :=
  a.bind fun (o, s) => (f s).map fun (o', s') => (o ++ o', s')

/-- The texts for each item of a list, in order. -/
def each {α : Type} (f : α → S → Res (Str × S)) : List α → S → Res (Str × S)
  | [], s => .ok ([], s)
  | a :: as, s => seq (f a s) (each f as)

/-- What changes while a template is read: the entries given with `-e` that are not used yet, and
the global variables, as some are computed and kept on first use. -/
structure Env (G L : Type) where
  entries : List (Option L)
  global : G

/-- The value of a variable, given the entry whose variables are visible (if any) and the item of the
iterator (if any). -/
def value (E : Evaluator G L) (loc : Option L) (it : Item) (name : Str) (s : Env G L) :
    Res (Option Str × Env G L) :=
  (E.value s.global loc it name).map fun (g, v) => (v, { s with global := g })

/-- The value of the right-hand side of a comparison. -/
def Operand.value (E : Evaluator G L) (loc : Option L) (it : Item) (s : Env G L) :
    Operand → Res (Option Str × Env G L)
  | .text t => .ok (some t, s)
  | .var n => Doc.value E loc it n s

/-- Whether two values compare: both must be defined. -/
def Holds (op : Str) (a b : Option Str) : Prop := ∃ x y, a = some x ∧ b = some y ∧ Compares op x y

open Classical in
/-- Whether a condition is true. -/
noncomputable def Cond.value (E : Evaluator G L) (loc : Option L) (it : Item) (s : Env G L) :
    Cond → Res (Bool × Env G L)
  | .defined n => (Doc.value E loc it n s).map fun (v, s) => (v.isSome, s)
  | .undefined n => (Doc.value E loc it n s).map fun (v, s) => (v.isNone, s)
  | .compare n op rhs => (Doc.value E loc it n s).bind fun (a, s) =>
    (rhs.value E loc it s).map fun (b, s) => (decide (Holds op a b), s)

/-- The times the content of a block is included, each with the entry whose variables are visible, and
the entries that remain. -/
def scopes (ctx : Ctx L) (kind : Str) (entries : List (Option L)) : List (Option L) × List (Option L) :=
  if kind = b!"entry" then (if ctx.listing then [] else [ctx.sources.head?], entries)
  else if kind = b!"listing" then (if ctx.listing then ctx.sources.map some else [], entries)
  else if kind = b!"listing_once" then (if ctx.listing then [none] else [], entries)
  else if kind = b!"listing_empty" then
    (if ctx.listing = true ∧ ctx.sources = [] then [none] else [], entries)
  else
    match entries with
    | [] => ([], [])
    | none :: es => ([], es)
    | some l :: es => (if ctx.listing then [some l] else [], es)

/-- The text a template stands for. -/
noncomputable def sem (E : Evaluator G L) (ctx : Ctx L) :
    T → Option L → Item → Env G L → Res (Str × Env G L)
  | .done, _, _, s => .ok ([], s)
  | .text t rest, loc, it, s => seq (.ok (t, s)) (sem E ctx rest loc it)
  | .var n rest, loc, it, s =>
    seq ((value E loc it n s).map fun (v, s) => (v.getD [], s)) (sem E ctx rest loc it)
  | .cond c yes rest, loc, it, s =>
    seq ((c.value E loc it s).bind fun (b, s) => if b then sem E ctx yes loc it s else .ok ([], s))
      (sem E ctx rest loc it)
  | .condElse c yes no rest, loc, it, s =>
    seq ((c.value E loc it s).bind fun (b, s) => if b then sem E ctx yes loc it s else sem E ctx no loc it s)
      (sem E ctx rest loc it)
  | .foreach n body rest, loc, it, s =>
    seq (each (fun i => sem E ctx body loc ⟨some n, some i⟩) (E.list s.global loc n) s)
      (sem E ctx rest loc it)
  | .block k body rest, loc, it, s =>
    seq (each (fun l => sem E ctx body l it) (scopes ctx k s.entries).1
        { s with entries := (scopes ctx k s.entries).2 })
      (sem E ctx rest loc it)

/-- The text of a whole template: outside blocks no entry is visible. -/
noncomputable def text (E : Evaluator G L) (ctx : Ctx L) (t : T) (entries : List (Option L)) (g : G) : Res Str :=
  (sem E ctx t none ⟨none, none⟩ ⟨entries, g⟩).map Prod.fst

end Blogc.Doc

namespace Blogc.Doc

open Blogc Blogc.Template Blogc.Render

/-- The operand as it is kept in the node. -/
def Operand.data : Operand → Str
  | .text s => b!"\"" ++ s ++ b!"\""
  | .var n => n

/-- The node that opens a conditional. -/
def Cond.node : Cond → Node
  | .defined n => ⟨.ifdef, .none, some n, none⟩
  | .undefined n => ⟨.ifndef, .none, some n, none⟩
  | .compare n op rhs => ⟨.if_, operator op, some n, some rhs.data⟩

/-- A node without data. -/
def mark (k : NodeType) : Node := ⟨k, .none, none, none⟩

/-- The nodes of a template. -/
def nodes : T → List Node
  | .done => []
  | .text s rest => ⟨.content, .none, some s, none⟩ :: nodes rest
  | .var n rest => ⟨.variable, .none, some n, none⟩ :: nodes rest
  | .cond c yes rest => c.node :: nodes yes ++ mark .endif :: nodes rest
  | .condElse c yes no rest => c.node :: nodes yes ++ mark .else_ :: nodes no ++ mark .endif :: nodes rest
  | .foreach n body rest => ⟨.foreach, .none, some n, none⟩ :: nodes body ++ mark .endforeach :: nodes rest
  | .block k body rest => ⟨.block, .none, some k, none⟩ :: nodes body ++ mark .endblock :: nodes rest

/-- What a list of nodes says, without the data that closing statements happen to carry. -/
def bare (n : Node) : Node :=
  match n.type with
  | .else_ | .endif | .endforeach | .endblock => mark n.type
  | _ => n

end Blogc.Doc
