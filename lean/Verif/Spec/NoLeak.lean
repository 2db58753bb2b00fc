import Verif.Spec.Semantics

/-!
# Templates in which no entry is visible where it should not be
-/

namespace Blogc.Doc

open Blogc Blogc.Template Blogc.Render

variable {G L : Type}

/-- The names a condition refers to. -/
def Cond.names : Cond → List Str
  | .defined n => [n]
  | .undefined n => [n]
  | .compare n _ (.text _) => [n]
  | .compare n _ (.var m) => [n, m]

/-- All names referred to are as `P` says. -/
def Refs (P : Str → Prop) : T → Prop
  | .done => True
  | .text _ rest => Refs P rest
  | .var n rest => P n ∧ Refs P rest
  | .cond c yes rest => (∀ n ∈ c.names, P n) ∧ Refs P yes ∧ Refs P rest
  | .condElse c yes no rest => (∀ n ∈ c.names, P n) ∧ Refs P yes ∧ Refs P no ∧ Refs P rest
  | .foreach n body rest => P n ∧ Refs P body ∧ Refs P rest
  | .block _ body rest => Refs P body ∧ Refs P rest

/-- Whether the content of a block is used at least once, whatever the remaining entries. -/
def Used (ctx : Ctx L) (kind : Str) : Prop :=
  (kind = b!"entry" ∧ ctx.listing = false) ∨
  (kind = b!"listing" ∧ ctx.listing = true ∧ ctx.sources ≠ []) ∨
  (kind = b!"listing_once" ∧ ctx.listing = true) ∨
  (kind = b!"listing_empty" ∧ ctx.listing = true ∧ ctx.sources = [])

/-- The source files given to blogc, among `sources` and `entries`, have no say in the value of a name. -/
def Neutral (E : Evaluator G L) (ctx : Ctx L) (entries : List (Option L)) (n : Str) : Prop :=
  ∀ l, l ∈ ctx.sources ∨ some l ∈ entries →
    (∀ g it, E.value g (some l) it n = E.value g none it n) ∧ ∀ g, E.list g (some l) n = E.list g none n

/-- The blocks in which no entry is visible. -/
def Plain (kind : Str) : Prop := kind = b!"listing_once" ∨ kind = b!"listing_empty"

instance (kind : Str) : Decidable (Plain kind) := inferInstanceAs (Decidable (_ ∨ _))

/-- Whether a template has a block in which an entry is visible. -/
def shows : T → Bool
  | .done => false
  | .text _ rest => shows rest
  | .var _ rest => shows rest
  | .cond _ yes rest => shows yes || shows rest
  | .condElse _ yes no rest => shows yes || shows no || shows rest
  | .foreach _ body rest => shows body || shows rest
  | .block k _ rest => decide (¬ Plain k) || shows rest

/-- Names in `listing_once` and `listing_empty` blocks are as `N` says, unless such a block comes before
all blocks that show entries (`seen`: there was one); and either every block is used (`used`) or the
names outside blocks are as `N` says. -/
def NoLeak (ctx : Ctx L) (N : Str → Prop) (used : Prop) (seen : Bool) : T → Prop
  | .done => True
  | .text _ rest => NoLeak ctx N used seen rest
  | .var n rest => (used ∨ N n) ∧ NoLeak ctx N used seen rest
  | .cond c yes rest =>
    (used ∨ ∀ n ∈ c.names, N n) ∧ NoLeak ctx N used seen yes ∧ NoLeak ctx N used (seen || shows yes) rest
  | .condElse c yes no rest =>
    (used ∨ ∀ n ∈ c.names, N n) ∧ NoLeak ctx N used seen yes ∧ NoLeak ctx N used seen no ∧
      NoLeak ctx N used (seen || shows yes || shows no) rest
  | .foreach n body rest =>
    (used ∨ N n) ∧ NoLeak ctx N used (seen || shows body) body ∧ NoLeak ctx N used (seen || shows body) rest
  | .block k body rest =>
    (used → Used ctx k) ∧ (Plain k → seen = false ∨ Refs N body) ∧
      NoLeak ctx N used (seen || decide (¬ Plain k)) rest

/-- The names referred to within blocks that show entries are as `P` says. -/
def Within (P : Str → Prop) : T → Prop
  | .done => True
  | .text _ rest => Within P rest
  | .var _ rest => Within P rest
  | .cond _ yes rest => Within P yes ∧ Within P rest
  | .condElse _ yes no rest => Within P yes ∧ Within P no ∧ Within P rest
  | .foreach _ body rest => Within P body ∧ Within P rest
  | .block k body rest => (¬ Plain k → Refs P body) ∧ Within P rest

open Classical in
/-- Variables evaluated so that the names `S` are never looked up in an entry. -/
noncomputable def hide (S : Str → Prop) (E : Evaluator G L) : Evaluator G L where
  value g l it n := E.value g (if S n then none else l) it n
  list g l n := E.list g (if S n then none else l) n

end Blogc.Doc
