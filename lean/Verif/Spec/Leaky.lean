import Verif.Spec.Semantics

/-!
# What the renderer makes of a template

The same as `Doc.sem` except for which entry is visible. The renderer remembers the last entry it
used and whether it is inside a block. It takes itself to be inside a block after a block that was
left out, and it shows the last entry in `listing_once` and `listing_empty` blocks.
-/

namespace Blogc.Leaky

open Blogc Blogc.Template Blogc.Render Blogc.Doc

/-- What is remembered. -/
structure Env (G L : Type) where
  env : Doc.Env G L
  inside : Bool
  last : Option L

variable {G L : Type}

/-- The entry that is visible. -/
def Env.loc (s : Env G L) : Option L := if s.inside then s.last else none

/-- A block begins, with the entry `l`. -/
def Env.enter (s : Env G L) (kind : Str) (l : Option L) : Env G L :=
  { s with inside := true, last := if kind = b!"listing_once" ∨ kind = b!"listing_empty" then s.last else l }

/-- A block ends. -/
def Env.leave (s : Env G L) : Env G L := { s with inside := false }

/-- The text made of a template. -/
noncomputable def sem (E : Evaluator G L) (ctx : Ctx L) : T → Item → Env G L → Res (Str × Env G L)
  | .done, _, s => .ok ([], s)
  | .text t rest, it, s => seq (.ok (t, s)) (sem E ctx rest it)
  | .var n rest, it, s =>
    seq ((value E s.loc it n s.env).map fun (v, e) => (v.getD [], { s with env := e })) (sem E ctx rest it)
  | .cond c yes rest, it, s =>
    seq ((c.value E s.loc it s.env).bind fun (b, e) =>
        if b then sem E ctx yes it { s with env := e } else .ok ([], { s with env := e }))
      (sem E ctx rest it)
  | .condElse c yes no rest, it, s =>
    seq ((c.value E s.loc it s.env).bind fun (b, e) =>
        if b then sem E ctx yes it { s with env := e } else sem E ctx no it { s with env := e })
      (sem E ctx rest it)
  | .foreach n body rest, it, s =>
    seq (each (fun i => sem E ctx body ⟨some n, some i⟩) (E.list s.env.global s.loc n) s)
      (sem E ctx rest it)
  | .block k body rest, it, s =>
    seq (each (fun l s => (sem E ctx body it (s.enter k l)).map fun (o, s) => (o, s.leave))
        (scopes ctx k s.env.entries).1
        { s with env := { s.env with entries := (scopes ctx k s.env.entries).2 }, inside := true })
      (sem E ctx rest it)

/-- The text made of a whole template. -/
noncomputable def text (E : Evaluator G L) (ctx : Ctx L) (t : T) (entries : List (Option L)) (g : G) : Res Str :=
  (sem E ctx t ⟨none, none⟩ ⟨⟨entries, g⟩, false, none⟩).map Prod.fst

end Blogc.Leaky
