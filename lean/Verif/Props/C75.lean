import Verif.Props.C24
import Verif.Props.C02
import Verif.Spec.Items

/-!
# C75: iterators go over the words of a list, each with its mapped value
-/

namespace Blogc.C75

open Blogc Blogc.Render Blogc.Spec Blogc.Doc

theorem listOf_space {s : Str} {ws : List Str} (h : ListOf s ws) : ListOf (c!" " :: s) ws := by
  cases h with
  | nil h => exact .nil fun c hc => (List.mem_cons.1 hc).elim id (h c)
  | @cons sp w t ws h1 h2 h3 h4 h5 =>
    exact .cons (sp := c!" " :: sp) (fun c hc => (List.mem_cons.1 hc).elim id (h1 c)) h2 h3 h4 h5

theorem listOf_acc : ∀ (rest cur : Str) (n : Nat), c!" " ∉ cur →
    ListOf (cur ++ rest) ((C02.splitAcc c!" " 0 rest cur n).filter fun w => w ≠ [])
  | [], cur, n, h => by
    rw [C02.splitAcc, List.append_nil]
    by_cases h0 : cur = []
    · subst h0; exact .nil (by simp [Spaces])
    · have := ListOf.cons (sp := []) (w := cur) (t := []) (ws := []) (by simp [Spaces]) h0 h (.inl rfl)
        (.nil (by simp [Spaces]))
      simpa [h0] using this
  | b :: rest, cur, n, h => by
    rw [C02.splitAcc]
    by_cases hb : b = c!" "
    · subst hb
      rw [if_pos ⟨rfl, .inl rfl⟩]
      have ih := listOf_acc rest [] (n + 1) (by simp)
      rw [List.nil_append] at ih
      by_cases h0 : cur = []
      · subst h0
        simpa using listOf_space ih
      · have := ListOf.cons (sp := []) (w := cur) (by simp [Spaces]) h0 h (.inr ⟨rest, rfl⟩)
          (listOf_space ih)
        simpa [h0] using this
    · rw [if_neg fun h => hb h.1]
      have := listOf_acc rest (cur ++ [b]) n (by simp [h, Ne.symm hb])
      simpa using this

theorem acc_spaces : ∀ (sp rest : Str) (n : Nat), Spaces sp → ∃ k,
    (C02.splitAcc c!" " 0 (sp ++ rest) [] n).filter (fun w => w ≠ []) =
      (C02.splitAcc c!" " 0 rest [] k).filter fun w => w ≠ []
  | [], rest, n, _ => ⟨n, rfl⟩
  | c :: sp, rest, n, h => by
    obtain ⟨k, hk⟩ := acc_spaces sp rest (n + 1) fun x hx => h x (List.mem_cons_of_mem _ hx)
    refine ⟨k, ?_⟩
    rw [List.cons_append, C02.splitAcc, if_pos ⟨h c (by simp), .inl rfl⟩, ← hk]
    simp

theorem acc_word : ∀ (w t cur : Str) (n : Nat), c!" " ∉ w →
    C02.splitAcc c!" " 0 (w ++ t) cur n = C02.splitAcc c!" " 0 t (cur ++ w) n
  | [], t, cur, n, _ => by simp
  | c :: w, t, cur, n, h => by
    rw [List.mem_cons, not_or] at h
    rw [List.cons_append, C02.splitAcc, if_neg fun x => h.1 x.1.symm, acc_word w t _ n h.2]
    simp

theorem acc_listOf {s : Str} {ws : List Str} (h : ListOf s ws) : ∀ n,
    (C02.splitAcc c!" " 0 s [] n).filter (fun w => w ≠ []) = ws := by
  induction h with
  | @nil s hs =>
    intro n
    obtain ⟨k, hk⟩ := acc_spaces s [] n hs
    rw [List.append_nil] at hk
    rw [hk]
    simp [C02.splitAcc]
  | @cons sp w t ws h1 h2 h3 h4 _ ih =>
    intro n
    obtain ⟨k, hk⟩ := acc_spaces sp (w ++ t) n h1
    rw [List.append_assoc, hk, acc_word w t [] k h3]
    rcases h4 with rfl | ⟨r, rfl⟩
    · have : ws = [] := by rw [← ih 0]; simp [C02.splitAcc]
      simp [C02.splitAcc, this, h2]
    · have := ih k
      rw [C02.splitAcc, if_pos ⟨rfl, .inl rfl⟩] at this ⊢
      simp only [List.nil_append]
      rw [List.filter_cons_of_pos (by simp [h2])]
      rw [List.filter_cons_of_neg (by simp)] at this
      rw [this]

/-- The items are the words of the value, in order. -/
theorem items_iff (name : Str) (g : Table) (l : Option Table) (v : Str) (ws : List Str)
    (h : getVariable name g l = some v) : splitListVariable name g l = ws ↔ ListOf v ws := by
  have key : splitListVariable name g l = (C02.splitAcc c!" " 0 v [] 0).filter fun w => w ≠ [] := by
    simp only [splitListVariable, h]
    by_cases h0 : v = []
    · subst h0; rfl
    · rw [C02.split_eq v _ _ h0]
  rw [key]
  constructor
  · intro h
    have := listOf_acc v [] 0 (by simp)
    rw [h] at this
    exact this
  · intro h
    exact acc_listOf h 0

/-- A variable that is not defined has no items. -/
theorem undefined (name : Str) (g : Table) (l : Option Table) (h : getVariable name g l = none) :
    splitListVariable name g l = [] := by
  simp only [splitListVariable, h]

theorem valueByte_eq (c : Byte) : valueByte c = mapped c := by
  have : ∀ n : Fin 256, valueByte (UInt8.ofFin n) = mapped (UInt8.ofFin n) := by decide +kernel
  exact this c.toFin

/-- The value mapped to an item is that of the documented variable. -/
theorem value_name (name item : Str) (h : TemplateName name) :
    foreachValueVariable name item = valueName name item := by
  unfold foreachValueVariable valueName
  have h1 : name.map valueByte = name := by
    induction name with
    | nil => rfl
    | cons c name ih =>
      have hc : ∀ n : Fin 256, UInt8.ofFin n ∈ b!"ABCDEFGHIJKLMNOPQRSTUVWXYZ0123456789_" →
          valueByte (UInt8.ofFin n) = UInt8.ofFin n := by decide +kernel
      rw [List.map_cons, ih fun x hx => h x (List.mem_cons_of_mem _ hx)]
      have := hc c.toFin (h c (by simp))
      exact congrArg (· :: name) this
  rw [List.map_append, List.map_append, h1]
  have h2 : item.map valueByte = item.map mapped := List.map_congr_left fun c _ => valueByte_eq c
  rw [h2]
  rfl

/-- In an iterator over `name`, at `item`: what the two variables show. -/
theorem item_and_value (sys : Sys) (g : Table) (l : Option Table) (name item : Str) (h : TemplateName name) :
    (getVariable b!"FOREACH_ITEM" g l = none →
      formatVariable sys g l ⟨some name, some item⟩ b!"FOREACH_ITEM" = .ok (g, some item)) ∧
    (getVariable b!"FOREACH_VALUE" g l = none →
      formatVariable sys g l ⟨some name, some item⟩ b!"FOREACH_VALUE" =
        .ok (g, getVariable (valueName name item) g l)) := by
  refine ⟨fun hu => ?_, fun hu => ?_⟩
  · simp only [formatVariable, hu, if_true]
  · have h1 : ¬ (b!"FOREACH_VALUE" : Str) = b!"FOREACH_ITEM" := by decide
    simp only [formatVariable, hu]
    rw [if_neg h1, if_pos trivial, ← value_name name item h]
    rfl

/-- The template `{% foreach NAME %}{{ FOREACH_ITEM }}=...{{ FOREACH_VALUE }}...{% endforeach %}` with the
texts `a` and `b` after the variables. -/
def template (name a b : Str) : T :=
  .foreach name (.var b!"FOREACH_ITEM" (.text a (.var b!"FOREACH_VALUE" (.text b .done)))) .done

/-- Such a template shows each word of the list once, in order, with its mapped value. -/
theorem rendered (sys : Sys) (g : Table) (ctx : Ctx Table) (entries : List (Option Table))
    (name a b v : Str) (ws : List Str) (hne : name ≠ []) (hn : TemplateName name)
    (hv : g.lookup name = some v) (hw : ListOf v ws) (h1 : g.lookup b!"FOREACH_ITEM" = none)
    (h2 : g.lookup b!"FOREACH_VALUE" = none) :
    ∃ n, ∀ m, n ≤ m → render (evaluator sys) m (nodes (template name a b)) ctx entries g =
      .ok (ws.flatMap fun w => w ++ a ++ (g.lookup (valueName name w)).getD [] ++ b) := by
  obtain ⟨out, n, ho, hr⟩ := C24.exact (evaluator sys) (C24.total sys) (template name a b)
    (by simp [template, Ok, hne]) ctx entries g (nodes (template name a b)) (by rfl)
  refine ⟨n, fun m hm => ?_⟩
  rw [hr m hm]
  have hl : (evaluator sys).list g none name = ws := (items_iff name g none v ws hv).2 hw
  have body : ∀ (w : Str) (s : Leaky.Env Table Table), s.env.global = g → s.inside = false →
      Leaky.sem (evaluator sys) ctx
        (.var b!"FOREACH_ITEM" (.text a (.var b!"FOREACH_VALUE" (.text b .done)))) ⟨some name, some w⟩ s =
        .ok (w ++ a ++ (g.lookup (valueName name w)).getD [] ++ b, s) := by
    intro w s hg hi
    obtain ⟨k1, k2⟩ := item_and_value sys g none name w hn
    have k1 := k1 h1
    have k2 := k2 h2
    have hloc : s.loc = none := by simp [Leaky.Env.loc, hi]
    obtain ⟨⟨en, gg⟩, i, la⟩ := s
    simp only at hg hi
    subst hg hi
    simp only [Leaky.sem, hloc, value, evaluator, k1, Res.map, seq, Res.bind]
    simp only [Leaky.Env.loc, Bool.false_eq_true, if_false, k2]
    simp [getVariable]
  have all : ∀ (ws : List Str) (s : Leaky.Env Table Table), s.env.global = g → s.inside = false →
      each (fun i => Leaky.sem (evaluator sys) ctx
        (.var b!"FOREACH_ITEM" (.text a (.var b!"FOREACH_VALUE" (.text b .done)))) ⟨some name, some i⟩) ws s =
        .ok (ws.flatMap (fun w => w ++ a ++ (g.lookup (valueName name w)).getD [] ++ b), s) := by
    intro ws
    induction ws with
    | nil => intro s _ _; rfl
    | cons w ws ih =>
      intro s hg hi
      rw [each, body w s hg hi]
      simp only [seq, Res.bind]
      rw [ih s hg hi]
      rfl
  have : Leaky.text (evaluator sys) ctx (template name a b) entries g =
      .ok (ws.flatMap fun w => w ++ a ++ (g.lookup (valueName name w)).getD [] ++ b) := by
    unfold Leaky.text template
    rw [Leaky.sem]
    have hl' : (Leaky.Env.loc (⟨⟨entries, g⟩, false, none⟩ : Leaky.Env Table Table)) = none := rfl
    simp only [hl', hl]
    rw [all ws _ rfl rfl]
    simp [seq, Res.bind, Leaky.sem, Res.map]
  rw [this] at ho
  cases ho
  rfl

/-- A list with blanks around, with a mapped value. -/
example :
    let g := (Trie.inserts [(b!"TAGS", b!" a  b-1 "), (b!"TAGS__B_1", b!"Bee")]).1
    ListOf b!" a  b-1 " [b!"a", b!"b-1"] ∧ g.lookup b!"TAGS" = some b!" a  b-1 " ∧
    render (evaluator C27.bare) 30 (nodes (template b!"TAGS" b!"=" b!";")) ⟨[], false⟩ [] g =
      .ok b!"a=;b-1=Bee;" := by
  refine ⟨?_, by decide, by decide +kernel⟩
  exact .cons (sp := b!" ") (w := b!"a") (by simp [Spaces]) (by decide) (by decide) (.inr ⟨b!" b-1 ", rfl⟩)
    (.cons (sp := b!"  ") (w := b!"b-1") (by simp [Spaces]) (by decide) (by decide) (.inr ⟨[], rfl⟩)
      (.nil (by simp [Spaces])))

end Blogc.C75
