import Verif.Model.Debug
import Verif.Spec.DebugListing
import Verif.Spec.Template
import Verif.Lemmas.TemplateOps

/-!
# The listing of a template: lemmas
-/

namespace Blogc.Debug

open Blogc Blogc.Template Blogc.Spec.DebugListing

theorem node_defined {n : Node} (h : NodeOk n) : ∃ s, nodeText n = .ok s := by
  unfold NodeOk at h
  unfold nodeText
  cases ht : n.type <;> simp only [ht] at h ⊢
  case if_ =>
    obtain ⟨_, ⟨v, hv, _⟩, w, hw, _⟩ := h
    rw [hv, hw]
    exact ⟨_, rfl⟩
  case content =>
    obtain ⟨v, hv⟩ := h
    rw [hv]
    exact ⟨_, rfl⟩
  case block =>
    obtain ⟨v, _, hv⟩ := h
    rw [hv]
    exact ⟨_, rfl⟩
  case else_ | endif | endforeach | endblock => exact ⟨_, rfl⟩
  all_goals
    obtain ⟨v, hv, _⟩ := h
    rw [hv]
    exact ⟨_, rfl⟩

/-- The texts of the nodes. -/
inductive Listed : List Node → List Str → Prop where
  | nil : Listed [] []
  | cons {n : Node} {s : Str} {ns : List Node} {l : List Str} : nodeText n = .ok s → Listed ns l → Listed (n :: ns) (s :: l)

/-- The template is listed item by item. -/
theorem template_eq {ns : List Node} {l : List Str} (h : Listed ns l) :
    template ns = .ok (listing l) := by
  induction h with
  | nil => rfl
  | cons h _ ih =>
    rw [template, h, ih]
    simp [Res.bind, Res.map, listing]

theorem texts {ns : List Node} (h : ∀ n ∈ ns, NodeOk n) : ∃ l, Listed ns l := by
  induction ns with
  | nil => exact ⟨[], .nil⟩
  | cons n ns ih =>
    obtain ⟨l, hl⟩ := ih fun m hm => h m (List.mem_cons_of_mem _ hm)
    obtain ⟨s, hs⟩ := node_defined (h n List.mem_cons_self)
    exact ⟨s :: l, .cons hs hl⟩

/-! ## Trees -/

open Blogc.Doc

theorem nodeText_bare (n : Node) : nodeText (bare n) = nodeText n := by
  cases ht : n.type <;> simp [bare, nodeText, mark, ht]

theorem operator_text : ∀ op ∈ operators, getOperator (operator op) = op := by decide

theorem condition_text {c : Cond} (h : c.Ok) : nodeText c.node = .ok (condition c) := by
  cases c with
  | defined n => rfl
  | undefined n => rfl
  | compare n op rhs =>
    have e := operator_text op h.2.1
    cases rhs <;> simp [Cond.node, nodeText, arg, Res.bind, Res.map, condition, Operand.data, e]

theorem forall_append {ns ms : List Node} {l k : List Str} (h : Listed ns l)
    (h' : Listed ms k) :
    Listed (ns ++ ms) (l ++ k) := by
  induction h with
  | nil => exact h'
  | cons h _ ih => exact .cons h ih

theorem tree_texts (t : T) : ∀ (inB inF : Bool), Doc.Ok inB inF t →
    Listed (nodes t) (items t) := by
  induction t with
  | done => intro _ _ _; exact .nil
  | text s rest ih => intro b f h; exact .cons rfl (ih b f h)
  | var n rest ih => intro b f h; exact .cons rfl (ih b f h.2)
  | cond c yes rest ihy ih =>
    intro b f h
    exact .cons (condition_text h.1) (forall_append (ihy b f h.2.1) (.cons rfl (ih b f h.2.2)))
  | condElse c yes no rest ihy ihn ih =>
    intro b f h
    have := forall_append (ihy b f h.2.1) (.cons (n := mark .else_) (s := b!"ELSE") rfl
      (forall_append (ihn b f h.2.2.1) (.cons (n := mark .endif) (s := b!"ENDIF") rfl (ih b f h.2.2.2))))
    simp only [nodes, items, List.append_assoc, List.cons_append]
    exact .cons (condition_text h.1) this
  | foreach n body rest ihb ih =>
    intro b f h
    exact .cons rfl (forall_append (ihb b true h.2.2.1) (.cons rfl (ih b f h.2.2.2)))
  | block k body rest ihb ih =>
    intro b f h
    exact .cons rfl (forall_append (ihb true f h.2.2.1) (.cons rfl (ih b f h.2.2.2)))

theorem bare_texts {ns : List Node} {l : List Str}
    (h : Listed (ns.map bare) l) :
    Listed ns l := by
  induction ns generalizing l with
  | nil => exact h
  | cons n ns ih =>
    cases h with
    | cons h1 h2 => exact .cons (nodeText_bare n ▸ h1) (ih h2)

/-! ## What can be told from the listing -/

theorem separator_inj (e0 : Byte) : ∀ {a b x y : Str}, e0 ∉ a → e0 ∉ b → a ++ e0 :: x = b ++ e0 :: y → a = b ∧ x = y := by
  intro a
  induction a with
  | nil =>
    intro b x y _ hb e
    cases b with
    | nil => simpa using e
    | cons c b =>
      simp only [List.nil_append, List.cons_append, List.cons.injEq] at e
      exact absurd (e.1 ▸ List.mem_cons_self) hb
  | cons c a ih =>
    intro b x y ha hb e
    cases b with
    | nil =>
      simp only [List.nil_append, List.cons_append, List.cons.injEq] at e
      exact absurd (e.1 ▸ List.mem_cons_self) ha
    | cons d b =>
      simp only [List.cons_append, List.cons.injEq] at e
      obtain ⟨h1, h2⟩ := ih (fun h => ha (List.mem_cons_of_mem _ h)) (fun h => hb (List.mem_cons_of_mem _ h)) e.2
      exact ⟨by rw [e.1, h1], h2⟩

theorem lines_inj {l k : List Str} (hl : ∀ s ∈ l, c!"\n" ∉ s) (hk : ∀ s ∈ k, c!"\n" ∉ s) (h : listing l = listing k) :
    l = k := by
  have whole : ∀ s : Str, c!"\n" ∉ s → c!"\n" ∉ b!"DEBUG: <TEMPLATE " ++ s ++ b!">" := by
    intro s hs hm
    simp only [List.mem_append] at hm
    rcases hm with (hm | hm) | hm
    · revert hm; decide
    · exact hs hm
    · revert hm; decide
  have line : ∀ (s : Str) (l : List Str),
      listing (s :: l) = (b!"DEBUG: <TEMPLATE " ++ s ++ b!">") ++ c!"\n" :: listing l := by
    intro s l
    simp [listing]
  induction l generalizing k with
  | nil =>
    cases k with
    | nil => rfl
    | cons s k => rw [line] at h; simp [listing] at h
  | cons s l ih =>
    cases k with
    | nil => rw [line] at h; simp [listing] at h
    | cons t k =>
      rw [line, line] at h
      obtain ⟨h1, h2⟩ := separator_inj _ (whole s (hl s List.mem_cons_self)) (whole t (hk t List.mem_cons_self)) h
      have e : s = t := by simpa using h1
      rw [e, ih (fun x hx => hl x (List.mem_cons_of_mem _ hx)) (fun x hx => hk x (List.mem_cons_of_mem _ hx)) h2]

/-- The operators that can be written, and none. -/
def ops : List Op := [{ lt := true }, { gt := true }, { lt := true, eq := true }, { gt := true, eq := true },
  { eq := true }, { neq := true }, .none]

theorem operator_mem (w : Str) : operator w ∈ ops := by
  unfold operator
  (repeat' split) <;> decide

theorem getOperator_inj : ∀ a ∈ ops, ∀ b ∈ ops, getOperator a = getOperator b → a = b := by decide

theorem getOperator_plain : ∀ a ∈ ops, c!" " ∉ getOperator a ∧ c!"\n" ∉ getOperator a := by decide

theorem name_plain {v : Str} (h : IsName v) : c!" " ∉ v := fun hm =>
  absurd (h.bytes _ hm) (by decide)

theorem node_inj {n m : Node} {s : Str} (hn : NodeOk n) (hm : NodeOk m) (on : OpOk n) (om : OpOk m)
    (h : nodeText n = .ok s) (h' : nodeText m = .ok s) : said n = said m := by
  obtain ⟨tn, pn, an, bn⟩ := n
  obtain ⟨tm, pm, am, bm⟩ := m
  by_cases hi : tn = .if_ ∧ tm = .if_
  · obtain ⟨rfl, rfl⟩ := hi
    obtain ⟨_, ⟨v, rfl, hv⟩, w, rfl, _⟩ := hn
    obtain ⟨_, ⟨v', rfl, hv'⟩, w', rfl, _⟩ := hm
    obtain ⟨x, rfl⟩ := on
    obtain ⟨y, rfl⟩ := om
    cases h
    simp only [Res.ok.injEq, nodeText, arg, Res.map, Res.bind, List.append_assoc, List.append_cancel_left_eq,
      List.cons_append, List.nil_append, List.cons.injEq, true_and] at h'
    obtain ⟨h1, h2⟩ := separator_inj _ (name_plain hv') (name_plain hv) h'
    obtain ⟨h3, h4⟩ := separator_inj _ (getOperator_plain _ (operator_mem y)).1 (getOperator_plain _ (operator_mem x)).1 h2
    have h5 := getOperator_inj _ (operator_mem y) _ (operator_mem x) h3
    simp [said, h1, h4, h5]
  · cases an <;> cases am <;> cases bn <;> cases bm <;> cases tn <;> cases tm <;>
      simp only [nodeText, arg, Res.map, Res.bind, Res.ok.injEq, reduceCtorEq] at h h' <;>
      subst h <;> simp [said] at h' hi ⊢ <;> exact h'.symm

theorem listed_inj {ns ms : List Node} {l : List Str} (h : Listed ns l) (h' : Listed ms l) (hn : ∀ n ∈ ns, NodeOk n)
    (hm : ∀ n ∈ ms, NodeOk n) (on : ∀ n ∈ ns, OpOk n) (om : ∀ n ∈ ms, OpOk n) : ns.map said = ms.map said := by
  induction h generalizing ms with
  | nil => cases h'; rfl
  | cons h1 _ ih =>
    cases h' with
    | cons h2 h3 =>
      rw [List.map_cons, List.map_cons, node_inj (hn _ List.mem_cons_self) (hm _ List.mem_cons_self) (on _ List.mem_cons_self)
        (om _ List.mem_cons_self) h1 h2, ih h3 (fun n h => hn n (List.mem_cons_of_mem _ h))
        (fun n h => hm n (List.mem_cons_of_mem _ h)) (fun n h => on n (List.mem_cons_of_mem _ h))
        (fun n h => om n (List.mem_cons_of_mem _ h))]

theorem node_line {n : Node} {s : Str} (h : nodeText n = .ok s) (hl : OneLine n) (ho : OpOk n) : c!"\n" ∉ s := by
  obtain ⟨t, p, a, b⟩ := n
  obtain ⟨w, rfl⟩ := ho
  have hp := (getOperator_plain _ (operator_mem w)).2
  cases t <;> cases a <;> cases b <;>
    simp only [nodeText, arg, Res.map, Res.bind, Res.ok.injEq, reduceCtorEq] at h <;>
    subst h <;> simp [OneLine] at hl ⊢ <;> grind

theorem one_line {ns : List Node} {l : List Str} (h : Listed ns l) (hl : ∀ n ∈ ns, OneLine n)
    (ho : ∀ n ∈ ns, OpOk n) : ∀ s ∈ l, c!"\n" ∉ s := by
  induction h with
  | nil => intro s hs; cases hs
  | cons h1 _ ih =>
    intro s hs
    rcases List.mem_cons.mp hs with rfl | hs
    · exact node_line h1 (hl _ List.mem_cons_self) (ho _ List.mem_cons_self)
    · exact ih (fun n h => hl n (List.mem_cons_of_mem _ h)) (fun n h => ho n (List.mem_cons_of_mem _ h)) s hs

end Blogc.Debug
