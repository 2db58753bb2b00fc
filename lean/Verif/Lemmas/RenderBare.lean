import Verif.Spec.Semantics

/-!
# The data that closing statements happen to carry does not matter
-/

namespace Blogc.Render

open Blogc Blogc.Template Blogc.Doc

variable {G L : Type}

/-- The state with the data of closing statements erased. -/
def St.bare (st : St G L) : St G L :=
  { st with
    tmp := st.tmp.map Doc.bare
    listingStart := st.listingStart.map (List.map Doc.bare)
    foreachStart := st.foreachStart.map (List.map Doc.bare) }

/-- The result of a round with the data of closing statements erased. -/
def bareOut : Run (St G L ⊕ Str) → Run (St G L ⊕ Str)
  | .ok (.inl st) => .ok (.inl st.bare)
  | .ok (.inr o) => .ok (.inr o)
  | .ub => .ub
  | .out => .out

theorem bare_type (n : Node) : (Doc.bare n).type = n.type := by
  rw [Doc.bare]; split <;> rfl

theorem bare_eq {n : Node} (h1 : n.type ≠ .else_) (h2 : n.type ≠ .endif) (h3 : n.type ≠ .endforeach)
    (h4 : n.type ≠ .endblock) : Doc.bare n = n := by
  rw [Doc.bare]; split <;> simp_all

theorem skipTo_bare (k : NodeType) (l : List Node) :
    skipTo k (l.map Doc.bare) = (skipTo k l).map (List.map Doc.bare) := by
  induction l with
  | nil => rfl
  | cons n l ih =>
    simp only [List.map_cons, skipTo, bare_type]
    split
    · rfl
    · exact ih

theorem skipIf_bare (b : Bool) (l : List Node) (c : Nat) :
    skipIf b (l.map Doc.bare) c = (skipIf b l c).map fun (l, c) => (l.map Doc.bare, c) := by
  induction l generalizing c with
  | nil => rfl
  | cons n l ih =>
    rw [List.map_cons, skipIf.eq_def, skipIf.eq_def b (n :: l)]
    simp only [bare_type]
    split
    · exact ih _
    · split
      · rfl
      · split
        · cases c with
          | zero => rfl
          | succ c => exact ih _
        · exact ih _

theorem next_bare (st : St G L) (rest : List Node) : next st.bare (rest.map Doc.bare) = bareOut (next st rest) := rfl

theorem skip_bare (k : NodeType) (st : St G L) (rest : List Node) :
    skip k st.bare (rest.map Doc.bare) = bareOut (skip k st rest) := by
  simp only [skip, skipTo_bare]
  cases skipTo k rest <;> rfl

theorem local_bare (st : St G L) : st.bare.local = st.local := rfl
theorem item_bare (st : St G L) : st.bare.item = st.item := rfl

theorem valueOf_bare (E : Evaluator G L) (st : St G L) (n : Option Str) : valueOf E st.bare n = valueOf E st n := by
  cases n <;> rfl

theorem condition_bare (E : Evaluator G L) (st : St G L) (n : Node) : condition E st.bare n = condition E st n := by
  rw [condition, condition, valueOf_bare]
  congr 1

theorem listingEntry_bare (ctx : Ctx L) (st : St G L) (rest : List Node) :
    listingEntry ctx st.bare (rest.map Doc.bare) = bareOut (listingEntry ctx st rest) := by
  rw [listingEntry, listingEntry, show st.bare.entries = st.entries from rfl]
  cases st.entries with
  | nil => exact skip_bare _ _ _
  | cons e es =>
    cases e with
    | none => exact skip_bare _ { st with entries := es } _
    | some l =>
      simp only
      split
      · exact skip_bare _ { st with entries := es } _
      · rfl

theorem listingBlock_bare (ctx : Ctx L) (st : St G L) (rest : List Node) :
    listingBlock ctx st.bare (rest.map Doc.bare) = bareOut (listingBlock ctx st rest) := by
  rw [listingBlock, listingBlock, show st.bare.currentSource = st.currentSource from rfl]
  cases ctx.sources with
  | nil => exact skip_bare _ _ _
  | cons s ss => cases st.currentSource <;> rfl

theorem blockOf_bare (ctx : Ctx L) (st : St G L) (rest : List Node) (k : Str) :
    blockOf ctx st.bare (rest.map Doc.bare) k = bareOut (blockOf ctx st rest k) := by
  unfold blockOf
  by_cases h1 : k = b!"entry"
  · rw [if_pos h1, if_pos h1]
    split
    · exact skip_bare _ _ _
    · rfl
  · rw [if_neg h1, if_neg h1]
    by_cases h2 : k = b!"listing_entry"
    · rw [if_pos h2, if_pos h2]; exact listingEntry_bare _ _ _
    · rw [if_neg h2, if_neg h2]
      by_cases h3 : k = b!"listing" ∨ k = b!"listing_empty" ∨ k = b!"listing_once"
      · rw [if_pos h3, if_pos h3]
        split
        · exact skip_bare _ _ _
        · split
          · split
            · rfl
            · exact skip_bare _ _ _
          · split
            · exact listingBlock_bare _ _ _
            · rfl
      · rw [if_neg h3, if_neg h3]; rfl

theorem block_bare (ctx : Ctx L) (st : St G L) (n : Node) (rest : List Node) :
    block ctx st.bare n (rest.map Doc.bare) = bareOut (block ctx st n rest) := by
  rw [block, block]
  cases n.data0 with
  | none => rfl
  | some k => exact blockOf_bare ctx { st with insideBlock := true, ifCount := 0 } rest k

theorem endblock_bare (st : St G L) (rest : List Node) :
    endblock st.bare (rest.map Doc.bare) = bareOut (endblock st rest) := by
  obtain ⟨tmp, out, cur, ls⟩ := st
  cases ls with
  | none => rfl
  | some s =>
    cases cur with
    | nil => rfl
    | cons a cur => cases cur <;> rfl

theorem branch_bare (st : St G L) (rest : List Node) (b : Bool) :
    branch st.bare (rest.map Doc.bare) b = bareOut (branch st rest b) := by
  rw [branch, branch, skipIf_bare]
  split
  · rfl
  · cases skipIf true rest 0 with
    | ub => rfl
    | ok p =>
      obtain ⟨l, c⟩ := p
      cases l with
      | nil => rfl
      | cons n l =>
        simp only [Res.map, List.map_cons, bare_type]
        split <;> rfl

theorem ifNode_bare (E : Evaluator G L) (st : St G L) (n : Node) (rest : List Node) :
    ifNode E st.bare n (rest.map Doc.bare) = bareOut (ifNode E st n rest) := by
  rw [ifNode, ifNode, condition_bare]
  cases condition E st n with
  | ub => rfl
  | ok p => exact branch_bare { st with global := p.1, ifCount := 0 } rest p.2

theorem elseNode_bare (st : St G L) (rest : List Node) :
    elseNode st.bare (rest.map Doc.bare) = bareOut (elseNode st rest) := by
  rw [elseNode, elseNode, skipIf_bare, show st.bare.validElse = st.validElse from rfl]
  split
  · rfl
  · cases skipIf false rest 0 with
    | ub => rfl
    | ok p =>
      obtain ⟨l, c⟩ := p
      cases l <;> rfl

theorem foreachNode_bare (E : Evaluator G L) (st : St G L) (n : Node) (rest : List Node) :
    foreachNode E st.bare n (rest.map Doc.bare) = bareOut (foreachNode E st n rest) := by
  rw [foreachNode, foreachNode, show st.bare.foreachVarStart = st.foreachVarStart from rfl,
    show st.bare.foreachVar = st.foreachVar from rfl]
  cases st.foreachVarStart with
  | nil =>
    have : listOf E st.bare n.data0 = listOf E st n.data0 := by cases n.data0 <;> rfl
    rw [this]
    cases listOf E st n.data0 with
    | nil => exact skip_bare _ _ _
    | cons i is => rfl
  | cons i is => cases st.foreachVar <;> rfl

theorem endForeach_bare (st : St G L) (rest : List Node) :
    endForeach st.bare (rest.map Doc.bare) = bareOut (endForeach st rest) := by
  rw [endForeach, endForeach, show st.bare.foreachVarStart = st.foreachVarStart from rfl,
    show st.bare.foreachVar = st.foreachVar from rfl]
  cases st.foreachVar with
  | nil => rfl
  | cons i is => cases st.foreachVarStart <;> rfl

theorem endforeachNode_bare (st : St G L) (rest : List Node) :
    endforeachNode st.bare (rest.map Doc.bare) = bareOut (endforeachNode st rest) := by
  rw [endforeachNode, endforeachNode, show st.bare.foreachVar = st.foreachVar from rfl,
    show st.bare.foreachStart = st.foreachStart.map (List.map Doc.bare) from rfl]
  cases st.foreachStart with
  | none => exact endForeach_bare st rest
  | some s =>
    cases st.foreachVar with
    | nil => exact endForeach_bare st rest
    | cons i is =>
      cases is with
      | nil => exact endForeach_bare { st with foreachVar := [] } rest
      | cons j js => rfl

theorem step_bare (E : Evaluator G L) (ctx : Ctx L) (st : St G L) :
    step E ctx st.bare = bareOut (step E ctx st) := by
  rw [step, step, show st.bare.tmp = st.tmp.map Doc.bare from rfl]
  cases st.tmp with
  | nil => rfl
  | cons n rest =>
    simp only [List.map_cons, bare_type]
    cases hty : n.type with
    | content => rw [bare_eq (by simp [hty]) (by simp [hty]) (by simp [hty]) (by simp [hty])]; rfl
    | block =>
      rw [bare_eq (by simp [hty]) (by simp [hty]) (by simp [hty]) (by simp [hty])]; exact block_bare _ _ _ _
    | «variable» =>
      rw [bare_eq (by simp [hty]) (by simp [hty]) (by simp [hty]) (by simp [hty])]
      simp only [variableNode, valueOf_bare]
      cases valueOf E st n.data0 <;> rfl
    | endblock => exact endblock_bare st rest
    | ifdef | ifndef | if_ =>
      rw [bare_eq (by simp [hty]) (by simp [hty]) (by simp [hty]) (by simp [hty])]; exact ifNode_bare _ _ _ _
    | else_ => exact elseNode_bare st rest
    | endif => rfl
    | foreach =>
      rw [bare_eq (by simp [hty]) (by simp [hty]) (by simp [hty]) (by simp [hty])]; exact foreachNode_bare _ _ _ _
    | endforeach => exact endforeachNode_bare st rest

theorem run_bare (E : Evaluator G L) (ctx : Ctx L) (n : Nat) (st : St G L) :
    runL (step E ctx) n st.bare = runL (step E ctx) n st := by
  induction n generalizing st with
  | zero => rfl
  | succ n ih =>
    rw [runL, runL, step_bare]
    cases step E ctx st with
    | ub => rfl
    | out => rfl
    | ok r =>
      cases r with
      | inl st' => exact ih st'
      | inr o => rfl

/-- Rendering does not depend on the data of closing statements. -/
theorem render_bare (E : Evaluator G L) (n : Nat) (tmpl : List Node) (ctx : Ctx L) (entries : List (Option L)) (g : G) :
    render E n (tmpl.map Doc.bare) ctx entries g = render E n tmpl ctx entries g :=
  run_bare E ctx n { tmp := tmpl, entries := entries, global := g }

end Blogc.Render
