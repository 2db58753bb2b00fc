import Verif.Model.Render
import Verif.Lemmas.Trie

/-!
# Rendering depends on the global table only through its values
-/

namespace Blogc.Render

open Blogc Blogc.Template

variable {G L : Type}

/-- States that differ in the global table only. -/
def StRel (R : G → G → Prop) (a b : St G L) : Prop := ∃ g, b = { a with global := g } ∧ R a.global g

/-- Outcomes of a round that differ in the global table only. -/
def OutRel (R : G → G → Prop) : Run (St G L ⊕ Str) → Run (St G L ⊕ Str) → Prop
  | .ok (.inl a), .ok (.inl b) => StRel R a b
  | .ok (.inr a), .ok (.inr b) => a = b
  | .ub, .ub => True
  | .out, .out => True
  | _, _ => False

/-- Values that differ in the global table only. -/
def ValRel (R : G → G → Prop) {α : Type} : Res (G × α) → Res (G × α) → Prop
  | .ok a, .ok b => R a.1 b.1 ∧ a.2 = b.2
  | .ub, .ub => True
  | _, _ => False

/-- Evaluation respects the relation. -/
structure Respects (R : G → G → Prop) (E : Evaluator G L) : Prop where
  value : ∀ g g' l it n, R g g' → ValRel R (E.value g l it n) (E.value g' l it n)
  list : ∀ g g' l n, R g g' → E.list g l n = E.list g' l n

theorem next_rel {R : G → G → Prop} {a : St G L} {g : G} (h : R a.global g) (rest : List Node) :
    OutRel R (next a rest) (next { a with global := g } rest) := ⟨g, rfl, h⟩

theorem skip_rel {R : G → G → Prop} {a : St G L} {g : G} (h : R a.global g) (k : NodeType) (rest : List Node) :
    OutRel R (skip k a rest) (skip k { a with global := g } rest) := by
  unfold skip
  cases skipTo k rest with
  | ok l => exact next_rel h l
  | ub => trivial

theorem listingEntry_rel {R : G → G → Prop} (ctx : Ctx L) {a : St G L} {g : G} (h : R a.global g)
    (rest : List Node) : OutRel R (listingEntry ctx a rest) (listingEntry ctx { a with global := g } rest) := by
  obtain ⟨tmp, out, cs, ls, ts, ic, fn, fv, fvs, fs, ib, ve, en, gl⟩ := a
  unfold listingEntry
  cases en with
  | nil => exact skip_rel h _ _
  | cons e es =>
    cases e with
    | none => exact skip_rel (a := ⟨tmp, out, cs, ls, ts, ic, fn, fv, fvs, fs, ib, ve, es, gl⟩) h _ _
    | some l =>
      simp only
      split
      · exact skip_rel (a := ⟨tmp, out, cs, ls, ts, ic, fn, fv, fvs, fs, ib, ve, es, gl⟩) h _ _
      · exact next_rel (a := ⟨tmp, out, [], ls, some l, ic, fn, fv, fvs, fs, ib, ve, es, gl⟩) h _

theorem listingBlock_rel {R : G → G → Prop} (ctx : Ctx L) {a : St G L} {g : G} (h : R a.global g)
    (rest : List Node) : OutRel R (listingBlock ctx a rest) (listingBlock ctx { a with global := g } rest) := by
  obtain ⟨tmp, out, cs, ls, ts, ic, fn, fv, fvs, fs, ib, ve, en, gl⟩ := a
  unfold listingBlock
  cases ctx.sources with
  | nil => exact skip_rel h _ _
  | cons s ss =>
    cases cs with
    | nil => exact next_rel (a := ⟨tmp, out, s :: ss, some tmp, some s, ic, fn, fv, fvs, fs, ib, ve, en, gl⟩) h _
    | cons c cs => exact next_rel (a := ⟨tmp, out, c :: cs, ls, some c, ic, fn, fv, fvs, fs, ib, ve, en, gl⟩) h _

theorem blockOf_rel {R : G → G → Prop} (ctx : Ctx L) {a : St G L} {g : G} (h : R a.global g)
    (rest : List Node) (t : Str) :
    OutRel R (blockOf ctx a rest t) (blockOf ctx { a with global := g } rest t) := by
  unfold blockOf
  repeat' split
  all_goals first
    | exact skip_rel h _ _
    | exact next_rel h _
    | exact listingEntry_rel ctx h _
    | exact listingBlock_rel ctx h _
    | exact next_rel (a := { a with currentSource := ctx.sources, tmpSource := ctx.sources.head? }) h _

theorem block_rel {R : G → G → Prop} (ctx : Ctx L) {a : St G L} {g : G} (h : R a.global g) (node : Node)
    (rest : List Node) : OutRel R (block ctx a node rest) (block ctx { a with global := g } node rest) := by
  unfold block
  cases node.data0 with
  | none => trivial
  | some t => exact blockOf_rel ctx (a := { a with insideBlock := true, ifCount := 0 }) h rest t

theorem endblock_rel {R : G → G → Prop} {a : St G L} {g : G} (h : R a.global g) (rest : List Node) :
    OutRel R (endblock a rest) (endblock { a with global := g } rest) := by
  obtain ⟨tmp, out, cs, ls, ts, ic, fn, fv, fvs, fs, ib, ve, en, gl⟩ := a
  unfold endblock
  cases ls with
  | none => exact next_rel (a := ⟨tmp, out, cs, none, ts, ic, fn, fv, fvs, fs, false, ve, en, gl⟩) h _
  | some start =>
    match cs with
    | [] => exact next_rel (a := ⟨tmp, out, [], some start, ts, ic, fn, fv, fvs, fs, false, ve, en, gl⟩) h _
    | [_] => exact next_rel (a := ⟨tmp, out, [], none, ts, ic, fn, fv, fvs, fs, false, ve, en, gl⟩) h _
    | _ :: s :: ss => exact ⟨g, rfl, h⟩

theorem valueOf_rel {R : G → G → Prop} {E : Evaluator G L} (hE : Respects R E) {a : St G L} {g : G}
    (h : R a.global g) (name : Option Str) :
    ValRel R (valueOf E a name) (valueOf E { a with global := g } name) := by
  cases name with
  | none => exact ⟨h, rfl⟩
  | some n => exact hE.value _ _ _ _ _ h

theorem variableNode_rel {R : G → G → Prop} {E : Evaluator G L} (hE : Respects R E) {a : St G L} {g : G}
    (h : R a.global g) (node : Node) (rest : List Node) :
    OutRel R (variableNode E a node rest) (variableNode E { a with global := g } node rest) := by
  unfold variableNode
  have := valueOf_rel hE h node.data0
  revert this
  cases valueOf E a node.data0 with
  | ub => cases valueOf E { a with global := g } node.data0 <;> intro h' <;> first | trivial | cases h'
  | ok r =>
    cases valueOf E { a with global := g } node.data0 with
    | ub => intro h'; cases h'
    | ok r' =>
      obtain ⟨r1, r2⟩ := r
      obtain ⟨r1', r2'⟩ := r'
      rintro ⟨h1, h2⟩
      simp only at h1 h2
      subst h2
      exact next_rel (a := { a with global := r1, out := a.out ++ r2.getD [] }) h1 rest

theorem operand_rel {R : G → G → Prop} {E : Evaluator G L} (hE : Respects R E) {a : St G L} {g : G}
    (h : R a.global g) (d : Option Str) :
    ValRel R (operand E a d) (operand E { a with global := g } d) := by
  unfold operand
  cases d with
  | none => exact ⟨h, rfl⟩
  | some d =>
    simp only
    cases quoted d with
    | some s => exact ⟨h, rfl⟩
    | none => exact valueOf_rel hE h _

theorem bind_rel {R : G → G → Prop} {α β : Type} {x y : Res (G × α)} {f f' : G × α → Res (G × β)}
    (h : ValRel R x y) (hf : ∀ g g' a, R g g' → ValRel R (f (g, a)) (f' (g', a))) :
    ValRel R (x.bind f) (y.bind f') := by
  match x, y, h with
  | .ub, .ub, _ => trivial
  | .ok (g, a), .ok (g', b), h =>
    obtain ⟨h1, h2⟩ := h
    simp only at h1 h2
    subst h2
    exact hf g g' a h1

theorem condition_rel {R : G → G → Prop} {E : Evaluator G L} (hE : Respects R E) {a : St G L} {g : G}
    (h : R a.global g) (node : Node) :
    ValRel R (condition E a node) (condition E { a with global := g } node) := by
  unfold condition
  refine bind_rel (valueOf_rel hE h _) fun g1 g2 v hg => ?_
  simp only
  split
  · exact ⟨hg, rfl⟩
  · refine bind_rel (operand_rel hE (a := { a with global := g1 }) hg _) fun g3 g4 b hg' => ?_
    exact ⟨hg', rfl⟩

theorem branch_rel {R : G → G → Prop} {a : St G L} {g : G} (h : R a.global g) (rest : List Node) (b : Bool) :
    OutRel R (branch a rest b) (branch { a with global := g } rest b) := by
  unfold branch
  split
  · exact next_rel (a := { a with validElse := false }) h _
  · match skipIf true rest 0 with
    | .ub => trivial
    | .ok ([], _) => trivial
    | .ok (n :: after, count) =>
      simp only
      split
      · exact next_rel (a := { a with validElse := true, ifCount := count }) h _
      · exact next_rel (a := { a with ifCount := count }) h _

theorem ifNode_rel {R : G → G → Prop} {E : Evaluator G L} (hE : Respects R E) {a : St G L} {g : G}
    (h : R a.global g) (node : Node) (rest : List Node) :
    OutRel R (ifNode E a node rest) (ifNode E { a with global := g } node rest) := by
  unfold ifNode
  have := condition_rel hE h node
  revert this
  match condition E a node, condition E { a with global := g } node with
  | .ub, .ub => intro _; trivial
  | .ub, .ok _ => intro h'; cases h'
  | .ok _, .ub => intro h'; cases h'
  | .ok (r1, r2), .ok (r1', r2') =>
    rintro ⟨h1, h2⟩
    simp only at h1 h2
    subst h2
    exact branch_rel (a := { a with global := r1, ifCount := 0 }) h1 rest _

theorem elseNode_rel {R : G → G → Prop} {a : St G L} {g : G} (h : R a.global g) (rest : List Node) :
    OutRel R (elseNode a rest) (elseNode { a with global := g } rest) := by
  unfold elseNode
  simp only
  split
  · exact next_rel (a := { a with ifCount := 0, validElse := false }) h _
  · match skipIf false rest 0 with
    | .ub => trivial
    | .ok ([], _) => trivial
    | .ok (n :: after, count) => exact next_rel (a := { a with ifCount := count, validElse := false }) h _

theorem listOf_rel {R : G → G → Prop} {E : Evaluator G L} (hE : Respects R E) {a : St G L} {g : G}
    (h : R a.global g) (name : Option Str) : listOf E { a with global := g } name = listOf E a name := by
  cases name with
  | none => rfl
  | some n => exact (hE.list _ _ _ _ h).symm

theorem foreachNode_rel {R : G → G → Prop} {E : Evaluator G L} (hE : Respects R E) {a : St G L} {g : G}
    (h : R a.global g) (node : Node) (rest : List Node) :
    OutRel R (foreachNode E a node rest) (foreachNode E { a with global := g } node rest) := by
  unfold foreachNode
  rw [listOf_rel hE h]
  generalize listOf E a node.data0 = items
  obtain ⟨tmp, out, cs, ls, ts, ic, fn, fv, fvs, fs, ib, ve, en, gl⟩ := a
  cases fvs with
  | nil =>
    cases items with
    | nil => exact skip_rel h _ _
    | cons i is =>
      exact next_rel
        (a := ⟨tmp, out, cs, ls, ts, ic, node.data0, i :: is, i :: is, some tmp, ib, ve, en, gl⟩) h _
  | cons i is =>
    cases fv with
    | nil =>
      exact next_rel
        (a := ⟨tmp, out, cs, ls, ts, ic, node.data0, i :: is, i :: is, some tmp, ib, ve, en, gl⟩) h _
    | cons j js => exact next_rel h _

theorem endForeach_rel {R : G → G → Prop} {a : St G L} {g : G} (h : R a.global g) (rest : List Node) :
    OutRel R (endForeach a rest) (endForeach { a with global := g } rest) := by
  obtain ⟨tmp, out, cs, ls, ts, ic, fn, fv, fvs, fs, ib, ve, en, gl⟩ := a
  unfold endForeach
  cases fv with
  | nil => exact next_rel (a := ⟨tmp, out, cs, ls, ts, ic, none, [], [], none, ib, ve, en, gl⟩) h _
  | cons x xs =>
    cases fvs with
    | nil => exact next_rel (a := ⟨tmp, out, cs, ls, ts, ic, none, x :: xs, [], none, ib, ve, en, gl⟩) h _
    | cons _ _ => trivial

theorem endforeachNode_rel {R : G → G → Prop} {a : St G L} {g : G} (h : R a.global g) (rest : List Node) :
    OutRel R (endforeachNode a rest) (endforeachNode { a with global := g } rest) := by
  obtain ⟨tmp, out, cs, ls, ts, ic, fn, fv, fvs, fs, ib, ve, en, gl⟩ := a
  unfold endforeachNode
  cases fs with
  | none => exact endForeach_rel h _
  | some start =>
    match fv with
    | [] => exact endForeach_rel h _
    | [_] => exact endForeach_rel (a := ⟨tmp, out, cs, ls, ts, ic, fn, [], fvs, some start, ib, ve, en, gl⟩) h _
    | _ :: i :: is => exact ⟨g, rfl, h⟩

theorem step_rel {R : G → G → Prop} {E : Evaluator G L} (hE : Respects R E) (ctx : Ctx L) {a b : St G L}
    (h : StRel R a b) : OutRel R (step E ctx a) (step E ctx b) := by
  obtain ⟨g, rfl, h⟩ := h
  obtain ⟨tmp, out, cs, ls, ts, ic, fn, fv, fvs, fs, ib, ve, en, gl⟩ := a
  unfold step
  cases tmp with
  | nil => rfl
  | cons node rest =>
    simp only
    split
    · exact next_rel (a := ⟨node :: rest, out ++ node.data0.getD [], cs, ls, ts, ic, fn, fv, fvs, fs, ib, ve, en,
        gl⟩) h _
    · exact block_rel ctx h _ _
    · exact variableNode_rel hE h _ _
    · exact endblock_rel h _
    · exact ifNode_rel hE h _ _
    · exact ifNode_rel hE h _ _
    · exact ifNode_rel hE h _ _
    · exact elseNode_rel h _
    · exact next_rel (a := ⟨node :: rest, out, cs, ls, ts, ic - 1, fn, fv, fvs, fs, ib, false, en, gl⟩) h _
    · exact foreachNode_rel hE h _ _
    · exact endforeachNode_rel h _

theorem runL_rel {R : G → G → Prop} {f : St G L → Run (St G L ⊕ Str)}
    (hf : ∀ a b, StRel R a b → OutRel R (f a) (f b)) (n : Nat) (a b : St G L) (h : StRel R a b) :
    runL f n a = runL f n b := by
  induction n generalizing a b with
  | zero => rfl
  | succ n ih =>
    have := hf a b h
    rw [runL, runL]
    revert this
    generalize f a = x
    generalize f b = y
    intro h
    rcases x with (a | a) | _ | _ <;> rcases y with (b | b) | _ | _ <;> try (exact h.elim)
    · exact ih a b h
    · exact congrArg Run.ok h
    · rfl
    · rfl

/-- The text depends on the global table only through the values of variables. -/
theorem render_rel {R : G → G → Prop} {E : Evaluator G L} (hE : Respects R E) (fuel : Nat) (tmpl : List Node)
    (ctx : Ctx L) (entries : List (Option L)) {g g' : G} (h : R g g') :
    render E fuel tmpl ctx entries g = render E fuel tmpl ctx entries g' :=
  runL_rel (fun _ _ hab => step_rel hE ctx hab) fuel _ _ ⟨g', rfl, h⟩

/-! ## The tables of blogc -/

/-- A key ends at its first NUL. -/
theorem lookup_cut (t : Table) (k : Str) : t.lookup k = t.lookup (k.takeWhile (· ≠ 0)) := by
  induction t generalizing k with
  | nil => rfl
  | node b dat nx ch ihn ihc =>
    cases k with
    | nil => rfl
    | cons c k =>
      by_cases hc : c = 0
      · subst hc
        simp only [List.takeWhile_cons, Trie.lookup, Trie.keyByte]
        by_cases hb : b = 0
        · simp [hb]
        · rw [if_neg hb, if_neg (by simpa using hb), ihn]
          simp
      · simp only [List.takeWhile_cons, hc, Trie.lookup, Trie.keyByte, ne_eq, not_false_eq_true, decide_true,
          if_true]
        by_cases hb : b = c
        · rw [if_pos hb, if_pos hb, ihc]
        · rw [if_neg hb, if_neg hb, ihn]
          simp [hc]

theorem nulFree_cut (k : Str) : NulFree (k.takeWhile (· ≠ 0)) := by
  induction k with
  | nil => intro b hb; simp at hb
  | cons c k ih =>
    intro b hb
    rw [List.takeWhile_cons] at hb
    split at hb
    · rename_i hc
      rcases List.mem_cons.1 hb with rfl | hb
      · simpa using hc
      · exact ih b hb
    · simp at hb

/-- Two tables with the same values. -/
def SameValues (g g' : Table) : Prop := ∀ k, g.lookup k = g'.lookup k

/-- It is enough to look at C strings. -/
theorem sameValues_of {g g' : Table} (h : ∀ k, NulFree k → g.lookup k = g'.lookup k) : SameValues g g' := by
  intro k
  rw [lookup_cut g, lookup_cut g', h _ (nulFree_cut k)]

theorem sameValues_insert {g g' : Table} (h : SameValues g g') (k v : Str) (hk : NulFree k) :
    SameValues (g.insert k v).1 (g'.insert k v).1 := by
  refine sameValues_of fun k' hk' => ?_
  rw [Trie.lookup_insert g k k' v hk hk', Trie.lookup_insert g' k k' v hk hk', h k']

theorem sameValues_insertAll {g g' : Table} (h : SameValues g g') (l : List (Str × Str))
    (hl : ∀ kv ∈ l, NulFree kv.1) : SameValues (insertAll g l) (insertAll g' l) := by
  induction l generalizing g g' with
  | nil => exact h
  | cons kv l ih =>
    obtain ⟨k, v⟩ := kv
    exact ih (sameValues_insert h k v (hl (k, v) (by simp))) fun kv hkv => hl kv (by simp [hkv])

theorem injected_keys (sys : Sys) (name : Str) : ∀ kv ∈ injected sys name, NulFree kv.1 := by
  intro kv hkv
  unfold injected at hkv
  split at hkv
  · split at hkv
    · simp only [List.mem_cons, List.not_mem_nil, or_false] at hkv
      rcases hkv with rfl | rfl <;> (simp only; decide)
    · simp at hkv
  · split at hkv
    · obtain ⟨v, -, rfl⟩ := List.mem_map.1 hkv
      rename_i h; simp only [h]; decide
    · split at hkv
      · obtain ⟨v, -, rfl⟩ := List.mem_map.1 hkv
        rename_i h; simp only [h]; decide
      · split at hkv
        · obtain ⟨v, -, rfl⟩ := List.mem_map.1 hkv
          rename_i h; simp only [h]; decide
        · split at hkv
          · split at hkv
            · simp only [List.mem_singleton] at hkv
              subst hkv
              rename_i h _; simp only [h]; decide
            · simp at hkv
          · simp at hkv

theorem funcvars_same (sys : Sys) {g g' : Table} (h : SameValues g g') (name : Str) :
    SameValues (funcvarsEval sys g name) (funcvarsEval sys g' name) := by
  unfold funcvarsEval
  rw [h name]
  split
  · exact h
  · exact sameValues_insertAll h _ (injected_keys sys name)

theorem getVariable_same {g g' : Table} (h : SameValues g g') (name : Str) (l : Option Table) :
    getVariable name g l = getVariable name g' l := by
  cases l with
  | none => exact h name
  | some l =>
    unfold getVariable
    simp only
    rw [h name]

theorem foreachValue_same {g g' : Table} (h : SameValues g g') (l : Option Table) (it : Item) :
    foreachValue g l it = foreachValue g' l it := by
  unfold foreachValue
  split
  · exact getVariable_same h _ l
  · rfl

theorem formatDate_same (sys : Sys) (date : Str) {g g' : Table} (h : SameValues g g') (l : Option Table) :
    formatDate sys date g l = formatDate sys date g' l := by
  unfold formatDate
  rw [getVariable_same h]

theorem dress_same (sys : Sys) {g g' : Table} (h : SameValues g g') (l : Option Table) (name value : Str)
    (fmt : Bool) (len : Int) : dress sys g l name value fmt len = dress sys g' l name value fmt len := by
  unfold dress
  rw [formatDate_same sys value h l]

theorem baseValue_same (sys : Sys) {g g' : Table} (h : SameValues g g') (l : Option Table) (it : Item)
    (var : Str) : SameValues (baseValue sys g l it var).1 (baseValue sys g' l it var).1 ∧
      (baseValue sys g l it var).2 = (baseValue sys g' l it var).2 := by
  have h1 := funcvars_same sys h var
  unfold baseValue
  split
  · split
    · exact ⟨h, rfl⟩
    · split
      · exact ⟨h, foreachValue_same h l it⟩
      · exact ⟨h1, getVariable_same h1 _ l⟩
  · exact ⟨h1, getVariable_same h1 _ l⟩

theorem derived_same (sys : Sys) {g g' : Table} (h : SameValues g g') (l : Option Table) (it : Item)
    (name : Str) : ValRel SameValues (derived sys g l it name) (derived sys g' l it name) := by
  unfold derived
  cases splitSize name with
  | ub => trivial
  | ok r =>
    obtain ⟨var, len⟩ := r
    have key : ∀ (x y : Table × Option Str) (f : Bool), SameValues x.1 y.1 ∧ x.2 = y.2 →
        ValRel SameValues (.ok (x.1, x.2.map fun v => dress sys x.1 l name v f len))
          (.ok (y.1, y.2.map fun v => dress sys y.1 l name v f len)) := by
      rintro ⟨x1, x2⟩ ⟨y1, y2⟩ f ⟨h1, h2⟩
      simp only at h1 h2
      subst h2
      refine ⟨h1, ?_⟩
      show x2.map _ = x2.map _
      congr 1
      funext v
      exact dress_same sys h1 l _ _ _ _
    exact key _ _ (splitFormatted var).2 (baseValue_same sys h l it (splitFormatted var).1)

theorem evaluator_respects (sys : Sys) : Respects SameValues (evaluator sys) where
  value g g' l it n h := by
    show ValRel SameValues (formatVariable sys g l it n) (formatVariable sys g' l it n)
    unfold formatVariable
    rw [getVariable_same h]
    split
    · exact ⟨h, rfl⟩
    · split
      · exact ⟨h, rfl⟩
      · split
        · exact ⟨h, foreachValue_same h l it⟩
        · exact derived_same sys h l it n
  list g g' l n h := by
    show splitListVariable n g l = splitListVariable n g' l
    unfold splitListVariable
    rw [getVariable_same h]

end Blogc.Render
