import Verif.Lemmas.TemplateMemoryRun

/-!
# Rendering properly nested templates
-/

namespace Blogc.TmplMem

open Blogc Blogc.Template Blogc.Render Blogc.Spec.TmplAccount

/-- The nodes are properly nested. -/
abbrev N (S : List Open) (l : List Node) : Prop := Nested S (l.map Node.type)

/-- What was open before `f` was opened. -/
def below (f : Open) : List Open → List Open
  | [] => []
  | g :: S => if g = f then S else below f S

/-- The statement that closes `f`. -/
def closer : Open → NodeType
  | .block => .endblock
  | .iterator => .endforeach
  | .conditional => .endif

theorem skipTo_nested {f : Open} (hf : f ≠ .conditional) {S : List Open} {after : List Node} : ∀ (l : List Node) (T : List Open),
    N (T ++ f :: S) l → f ∉ T → skipTo (closer f) l = .ok after → N S after := by
  intro l
  induction l with
  | nil => intro T _ _ h; cases h
  | cons n l ih =>
    intro T hN hT h
    rw [skipTo] at h
    have hmem : f ∈ T ++ f :: S := by simp
    simp only [N, List.map_cons] at hN
    have pop : ∀ g, g ≠ f → (T ++ f :: S).head? = some g → Nested (T ++ f :: S).tail (l.map Node.type) →
        skipTo (closer f) l = .ok after → N S after := by
      intro g hg hh ht hs
      cases T with
      | nil => simp at hh; exact absurd hh.symm hg
      | cons t T => exact ih T ht (fun hm => hT (List.mem_cons_of_mem _ hm)) hs
    have close : (T ++ f :: S).head? = some f → Nested (T ++ f :: S).tail (l.map Node.type) → N S l := by
      intro hh ht
      cases T with
      | nil => exact ht
      | cons t T =>
        simp at hh
        subst hh
        exact absurd (List.mem_cons_self ..) hT
    have push : ∀ g, g ≠ f → Nested (g :: (T ++ f :: S)) (l.map Node.type) → skipTo (closer f) l = .ok after → N S after := by
      intro g hg ht hs
      refine ih (g :: T) ht ?_ hs
      intro hm
      rcases List.mem_cons.mp hm with e | hm
      · exact hg e.symm
      · exact hT hm
    cases f with
    | conditional => exact absurd rfl hf
    | block =>
      simp only [closer] at *
      cases hn : n.type <;> simp only [hn, Nested] at hN <;> simp only [hn, reduceCtorEq, if_true, if_false] at h
      case ifdef => exact push _ (by simp) hN h
      case ifndef => exact push _ (by simp) hN h
      case if_ => exact push _ (by simp) hN h
      case else_ => exact ih T hN.2 hT h
      case endif => exact pop _ (by simp) hN.1 hN.2 h
      case foreach => exact push _ (by simp) hN.2 h
      case endforeach => exact pop _ (by simp) hN.1 hN.2 h
      case block => exact absurd hmem hN.1
      case endblock => cases h; exact close hN.1 hN.2
      case «variable» => exact ih T hN hT h
      case content => exact ih T hN hT h
    | iterator =>
      simp only [closer] at *
      cases hn : n.type <;> simp only [hn, Nested] at hN <;> simp only [hn, reduceCtorEq, if_true, if_false] at h
      case ifdef => exact push _ (by simp) hN h
      case ifndef => exact push _ (by simp) hN h
      case if_ => exact push _ (by simp) hN h
      case else_ => exact ih T hN.2 hT h
      case endif => exact pop _ (by simp) hN.1 hN.2 h
      case foreach => exact absurd hmem hN.1
      case endforeach => cases h; exact close hN.1 hN.2
      case block => exact push _ (by simp) hN.2 h
      case endblock => exact pop _ (by simp) hN.1 hN.2 h
      case «variable» => exact ih T hN hT h
      case content => exact ih T hN hT h

theorem skipIf_nested {stopElse : Bool} {S : List Open} {n : Node} {after : List Node} {c' : Nat} :
    ∀ (l : List Node) (T : List Open), N (T ++ .conditional :: S) l →
    skipIf stopElse l (T.count .conditional) = .ok (n :: after, c') →
    (n.type = .else_ ∧ stopElse = true ∧ N (.conditional :: S) after) ∨ (n.type = .endif ∧ N S after) := by
  intro l
  induction l with
  | nil => intro T _ h; cases h
  | cons m l ih =>
    intro T hN h
    rw [skipIf.eq_def] at h
    simp only at h
    simp only [N, List.map_cons] at hN
    have pop : ∀ g, g ≠ .conditional → (T ++ .conditional :: S).head? = some g →
        Nested (T ++ .conditional :: S).tail (l.map Node.type) →
        skipIf stopElse l (T.count .conditional) = .ok (n :: after, c') →
        (n.type = .else_ ∧ stopElse = true ∧ N (.conditional :: S) after) ∨ (n.type = .endif ∧ N S after) := by
      intro g hg hh ht hs
      cases T with
      | nil => simp at hh; exact absurd hh.symm hg
      | cons t T =>
        simp at hh
        subst hh
        exact ih T ht (by rw [List.count_cons_of_ne hg] at hs; exact hs)
    have push : ∀ g, g ≠ .conditional → Nested (g :: (T ++ .conditional :: S)) (l.map Node.type) →
        skipIf stopElse l (T.count .conditional) = .ok (n :: after, c') →
        (n.type = .else_ ∧ stopElse = true ∧ N (.conditional :: S) after) ∨ (n.type = .endif ∧ N S after) := by
      intro g hg ht hs
      exact ih (g :: T) ht (by rw [List.count_cons_of_ne hg]; exact hs)
    have enter : Nested (.conditional :: (T ++ .conditional :: S)) (l.map Node.type) →
        skipIf stopElse l (T.count .conditional + 1) = .ok (n :: after, c') →
        (n.type = .else_ ∧ stopElse = true ∧ N (.conditional :: S) after) ∨ (n.type = .endif ∧ N S after) := by
      intro ht hs
      exact ih (.conditional :: T) ht (by rw [List.count_cons_self]; exact hs)
    cases hm : m.type <;> simp only [hm, Nested] at hN <;>
      simp only [hm, reduceCtorEq, or_self, or_true, true_or, and_false, false_and, if_true, if_false, true_and] at h
    case ifdef => exact enter hN h
    case ifndef => exact enter hN h
    case if_ => exact enter hN h
    case else_ =>
      split at h
      · rename_i hc
        cases h
        refine .inl ⟨hm, hc.1, ?_⟩
        cases T with
        | nil => exact hN.2
        | cons t T =>
          have hh := hN.1
          simp at hh
          subst hh
          rw [List.count_cons_self] at hc
          exact absurd hc.2 (by omega)
      · exact ih T hN.2 h
    case endif =>
      cases T with
      | nil =>
        simp only [List.count_nil] at h
        cases h
        exact .inr ⟨hm, hN.2⟩
      | cons t T =>
        have hh := hN.1
        simp at hh
        subst hh
        rw [List.count_cons_self] at h
        exact ih T hN.2 h
    case foreach => exact push _ (by simp) hN.2 h
    case endforeach => exact pop _ (by simp) hN.1 hN.2 h
    case block => exact push _ (by simp) hN.2 h
    case endblock => exact pop _ (by simp) hN.1 hN.2 h
    case «variable» => exact ih T hN h
    case content => exact ih T hN h

/-- Where the iterator would start again. -/
structure IterOk (S : List Open) (st : Render.St Table Table) : Prop where
  absent : st.foreachStart = none → .iterator ∉ S
  present : ∀ s, st.foreachStart = some s →
    (.iterator ∈ S ∧ N (below .iterator S) s) ∨ (.iterator ∉ S ∧ st.tmp = s)

/-- Where the list of entries would go on. -/
def ListOk (ctx : Ctx Table) (S : List Open) (st : Render.St Table Table) : Prop :=
  ∀ s, st.listingStart = some s → st.currentSource ≠ [] ∧ ctx.listing = true ∧ ctx.sources ≠ [] ∧
    (∃ n r, s = n :: r ∧ n.data0 = some b!"listing") ∧
    ((.block ∈ S ∧ N (below .block S) s) ∨ (.block ∉ S ∧ st.tmp = s))

/-- What is open before each round. -/
structure Nest (ctx : Ctx Table) (S : List Open) (st : Render.St Table Table) : Prop where
  nested : N S st.tmp
  one : S.count .iterator ≤ 1
  oneB : S.count .block ≤ 1
  iter : IterOk S st
  list : ListOk ctx S st

theorem IterOk.move {S S' : List Open} {st st' : Render.St Table Table} (h : IterOk S st)
    (hm : .iterator ∈ S' ↔ .iterator ∈ S) (hb : below .iterator S' = below .iterator S)
    (hf : st'.foreachStart = st.foreachStart) (ht : ∀ s, st.foreachStart = some s → st.tmp ≠ s) : IterOk S' st' := by
  constructor
  · intro e
    rw [hm]
    exact h.absent (hf ▸ e)
  · intro s e
    have e' : st.foreachStart = some s := hf ▸ e
    rcases h.present s e' with ⟨h1, h2⟩ | ⟨_, h2⟩
    · exact .inl ⟨hm.mpr h1, hb ▸ h2⟩
    · exact absurd h2 (ht s e')

theorem ListOk.move {ctx : Ctx Table} {S S' : List Open} {st st' : Render.St Table Table} (h : ListOk ctx S st)
    (hm : .block ∈ S' ↔ .block ∈ S) (hb : below .block S' = below .block S)
    (hf : st'.listingStart = st.listingStart) (hc : st'.currentSource = st.currentSource)
    (ht : ∀ s, st.listingStart = some s → st.tmp ≠ s) : ListOk ctx S' st' := by
  intro s e
  have e' : st.listingStart = some s := hf ▸ e
  obtain ⟨h1, h2, h3, h4, h5⟩ := h s e'
  refine ⟨hc ▸ h1, h2, h3, h4, ?_⟩
  rcases h5 with ⟨h5, h6⟩ | ⟨_, h6⟩
  · exact .inl ⟨hm.mpr h5, hb ▸ h6⟩
  · exact absurd h6 (ht s e')

theorem listOk_none {ctx : Ctx Table} {S : List Open} {st : Render.St Table Table} (h : st.listingStart = none) :
    ListOk ctx S st := by
  intro s e
  rw [h] at e
  cases e

/-- The next state is properly nested, whatever it is. -/
def Goes (ctx : Ctx Table) (x : Run (Render.St Table Table ⊕ Str)) : Prop :=
  ∀ st', x = .ok (.inl st') → ∃ S, Nest ctx S st'

theorem goes_ub {ctx : Ctx Table} : Goes ctx .ub := fun _ h => nomatch h

section
variable {ctx : Ctx Table} {tmpl : List Node} {S : List Open} {st : Render.St Table Table} {node : Node} {rest : List Node}

theorem not_iter (hI : Render.Inv ctx tmpl st) (ht : st.tmp = node :: rest) (hk : node.type ≠ .foreach) :
    ∀ s, st.foreachStart = some s → st.tmp ≠ s := by
  intro s hs e
  obtain ⟨_, n, r, e1, e2⟩ := hI.foreach s hs
  rw [← e, ht] at e1
  injection e1 with e1
  rw [e1] at hk
  exact hk e2

theorem not_list (hI : Render.Inv ctx tmpl st) (ht : st.tmp = node :: rest) (hk : node.type ≠ .block) :
    ∀ s, st.listingStart = some s → st.tmp ≠ s := by
  intro s hs e
  obtain ⟨_, n, r, e1, e2⟩ := hI.listing s hs
  rw [← e, ht] at e1
  injection e1 with e1
  rw [e1] at hk
  exact hk e2

/-- A round that changes neither loop, at a node that starts none. -/
theorem goes_next (hI : Render.Inv ctx tmpl st) (hS : Nest ctx S st) (ht : st.tmp = node :: rest)
    (hk : node.type ≠ .foreach) (hk' : node.type ≠ .block) {S' : List Open} {after : List Node} {st₁ : Render.St Table Table}
    (hn : N S' after) (h1 : S'.count .iterator = S.count .iterator) (h2 : S'.count .block = S.count .block)
    (hb1 : below .iterator S' = below .iterator S) (hb2 : below .block S' = below .block S)
    (e1 : st₁.foreachStart = st.foreachStart) (e2 : st₁.listingStart = st.listingStart)
    (e3 : st₁.currentSource = st.currentSource) : Goes ctx (next st₁ after) := by
  intro st' h
  cases h
  have m1 : Open.iterator ∈ S' ↔ Open.iterator ∈ S := by
    rw [← List.count_pos_iff, ← List.count_pos_iff, h1]
  have m2 : Open.block ∈ S' ↔ Open.block ∈ S := by
    rw [← List.count_pos_iff, ← List.count_pos_iff, h2]
  exact ⟨S', hn, h1 ▸ hS.one, h2 ▸ hS.oneB, hS.iter.move m1 hb1 e1 (not_iter hI ht hk),
    hS.list.move m2 hb2 e2 e3 (not_list hI ht hk')⟩

theorem pop_of {f : Open} (h : S.head? = some f) : S = f :: S.tail := by
  cases S with
  | nil => cases h
  | cons a S => simp at h; subst h; rfl

/-- The condition of a conditional has been evaluated. -/
theorem goes_branch (hI : Render.Inv ctx tmpl st) (hS : Nest ctx S st) (ht : st.tmp = node :: rest)
    (hk : node.type ≠ .foreach) (hk' : node.type ≠ .block) (hn : N (.conditional :: S) rest) (g : Table) (b : Bool) :
    Goes ctx (branch { st with global := g, ifCount := 0 } rest b) := by
  simp only [branch]
  split
  · exact goes_next hI hS ht hk hk' hn (by simp) (by simp) (by simp [below]) (by simp [below]) rfl rfl rfl
  · split
    · rename_i n after count hs
      rcases skipIf_nested rest [] hn hs with ⟨h1, _, h3⟩ | ⟨h1, h3⟩
      · rw [if_pos h1]
        exact goes_next hI hS ht hk hk' h3 (by simp) (by simp) (by simp [below]) (by simp [below]) rfl rfl rfl
      · rw [if_neg (by rw [h1]; simp)]
        exact goes_next hI hS ht hk hk' h3 rfl rfl rfl rfl rfl rfl rfl
    · exact goes_ub

theorem goes_if (E : Evaluator Table Table) (hI : Render.Inv ctx tmpl st) (hS : Nest ctx S st) (ht : st.tmp = node :: rest)
    (hk : node.type ≠ .foreach) (hk' : node.type ≠ .block) (hn : N (.conditional :: S) rest) :
    Goes ctx (ifNode E st node rest) := by
  simp only [ifNode]
  split
  · exact goes_ub
  · exact goes_branch hI hS ht hk hk' hn _ _

/-- A block: it is skipped, or entered; no list of entries is being gone through. -/
theorem block_moves (hI : Render.Inv ctx tmpl st) (hS : Nest ctx S st) (ht : st.tmp = node :: rest)
    (hty : node.type = .block) (hb : .block ∉ S) (hn : N (.block :: S) rest) (hl : st.listingStart = none)
    {st₁ : Render.St Table Table} (e1 : st₁.foreachStart = st.foreachStart) (e2 : st₁.listingStart = none) :
    Goes ctx (next st₁ rest) ∧ Goes ctx (skip .endblock st₁ rest) := by
  have hb0 : S.count .block = 0 := List.count_eq_zero.mpr hb
  have ni := not_iter hI ht (by rw [hty]; simp)
  constructor
  · intro st' h
    cases h
    exact ⟨.block :: S, hn, by simpa using hS.one, by simp [hb0],
      hS.iter.move (by simp) (by simp [below]) e1 ni, listOk_none e2⟩
  · simp only [skip]
    split
    · rename_i after hs
      have := skipTo_nested (f := .block) (by simp) rest [] hn (by simp) hs
      intro st' h
      cases h
      exact ⟨S, this, hS.one, hS.oneB, hS.iter.move Iff.rfl rfl e1 ni, listOk_none e2⟩
    · exact goes_ub

theorem goes_block (hI : Render.Inv ctx tmpl st) (hS : Nest ctx S st) (ht : st.tmp = node :: rest)
    (hty : node.type = .block) (hb : .block ∉ S) (hn : N (.block :: S) rest) : Goes ctx (block ctx st node rest) := by
  have hb0 : S.count .block = 0 := List.count_eq_zero.mpr hb
  have ni := not_iter hI ht (by rw [hty]; simp)
  simp only [block]
  cases hd : node.data0 with
  | none => exact goes_ub
  | some t =>
    simp only
    cases hls : st.listingStart with
    | none =>
      have mv : ∀ {st₁ : Render.St Table Table}, st₁.foreachStart = st.foreachStart → st₁.listingStart = none →
          Goes ctx (next st₁ rest) ∧ Goes ctx (skip .endblock st₁ rest) :=
        fun e1 e2 => block_moves hI hS ht hty hb hn hls e1 e2
      simp only [Render.blockOf]
      split
      · split
        · exact (mv (by rfl) (by rfl)).2
        · exact (mv (by rfl) (by rfl)).1
      split
      · simp only [listingEntry]
        split
        · exact (mv (by rfl) (by rfl)).2
        split
        · exact (mv (by rfl) (by rfl)).2
        split
        · exact (mv (by rfl) (by rfl)).2
        · exact (mv (by rfl) (by rfl)).1
      split
      · split
        · exact (mv (by rfl) (by rfl)).2
        · rename_i hlist
          split
          · split
            · exact (mv (by rfl) (by rfl)).1
            · exact (mv (by rfl) (by rfl)).2
          split
          · rename_i ht'
            subst ht'
            simp only [listingBlock]
            split
            · exact (mv (by rfl) (by rfl)).2
            · rename_i s ss hsrc
              split
              · intro st' h
                cases h
                refine ⟨.block :: S, hn, by simpa using hS.one, by simp [hb0],
                  hS.iter.move (by simp) (by simp [below]) rfl ni, ?_⟩
                intro s' e
                cases e
                refine ⟨by simp, by simpa using hlist, by simp [hsrc], ⟨node, rest, ht, hd⟩, .inl ⟨by simp, ?_⟩⟩
                simpa [below] using hS.nested
              · exact (mv (by rfl) (by rfl)).1
          · exact (mv (by rfl) (by rfl)).1
      · exact (mv (by rfl) (by rfl)).1
    | some s =>
      obtain ⟨h1, h2, h3, ⟨n, r, h4, h4'⟩, h5⟩ := hS.list s hls
      have h6 : st.tmp = s := by
        rcases h5 with ⟨h5, _⟩ | ⟨_, h5⟩
        · exact absurd h5 hb
        · exact h5
      have hnode : node = n ∧ rest = r := by
        rw [← h6, ht] at h4
        injection h4 with a b
        exact ⟨a, b⟩
      have htl : t = b!"listing" := by
        rw [← hnode.1, hd] at h4'
        cases h4'
        rfl
      subst htl
      have hlb : ∀ st₁ : Render.St Table Table, Render.blockOf ctx st₁ rest b!"listing" = listingBlock ctx st₁ rest := by
        intro st₁
        rw [Render.blockOf, if_neg (by decide), if_neg (by decide), if_pos (by decide), if_neg (by simp [h2]),
          if_neg (by decide), if_pos rfl]
      rw [hlb]
      simp only [listingBlock]
      split
      · rename_i hnil; exact absurd hnil h3
      · split
        · rename_i hnil; exact absurd hnil h1
        · intro st' h
          cases h
          refine ⟨.block :: S, hn, by simpa using hS.one, by simp [hb0],
            hS.iter.move (by simp) (by simp [below]) rfl ni, ?_⟩
          intro s' e
          have e : some s = some s' := e
          cases e
          refine ⟨h1, h2, h3, ⟨n, r, h4, h4'⟩, .inl ⟨by simp, ?_⟩⟩
          simpa [below, ← h6] using hS.nested

theorem goes_endblock (hI : Render.Inv ctx tmpl st) (hS : Nest ctx S st) (ht : st.tmp = node :: rest)
    (hty : node.type = .endblock) (hb : S.head? = some .block) (hn : N S.tail rest) : Goes ctx (endblock st rest) := by
  have ni := not_iter hI ht (by rw [hty]; simp)
  have nl := not_list hI ht (by rw [hty]; simp)
  have eS := pop_of hb
  have c1 : S.tail.count .iterator ≤ 1 := by
    have := hS.one; rw [eS] at this; simpa using this
  have c2 : S.tail.count .block = 0 := by
    have := hS.oneB; rw [eS, List.count_cons_self] at this; omega
  have m1 : Open.iterator ∈ S.tail ↔ Open.iterator ∈ S := by
    rw [eS]; simp
  have b1 : below .iterator S.tail = below .iterator S := by
    rw [eS]; simp [below]
  have nb : Open.block ∉ S.tail := List.count_eq_zero.mp c2
  simp only [endblock]
  cases hls : st.listingStart with
  | none =>
    intro st' h
    cases h
    exact ⟨S.tail, hn, c1, by omega, hS.iter.move m1 b1 rfl ni, listOk_none rfl⟩
  | some s =>
    obtain ⟨h1, h2, h3, h4, h5⟩ := hS.list s hls
    have h6 : N S.tail s := by
      rcases h5 with ⟨_, h5⟩ | ⟨h5, _⟩
      · rw [eS] at h5; simpa [below] using h5
      · rw [eS] at h5; simp at h5
    cases hcs : st.currentSource with
    | nil => exact absurd hcs h1
    | cons a as =>
      cases as with
      | nil =>
        intro st' h
        cases h
        exact ⟨S.tail, hn, c1, by omega, hS.iter.move m1 b1 rfl ni, listOk_none rfl⟩
      | cons b bs =>
        intro st' h
        cases h
        refine ⟨S.tail, h6, c1, by omega, hS.iter.move m1 b1 rfl ni, ?_⟩
        intro s' e
        have e : some s = some s' := e
        cases e
        exact ⟨by simp, h2, h3, h4, .inr ⟨nb, rfl⟩⟩

theorem goes_foreach (E : Evaluator Table Table) (hI : Render.Inv ctx tmpl st) (hS : Nest ctx S st)
    (ht : st.tmp = node :: rest) (hty : node.type = .foreach) (hb : .iterator ∉ S) (hn : N (.iterator :: S) rest) :
    Goes ctx (foreachNode E st node rest) := by
  have nl := not_list hI ht (by rw [hty]; simp)
  have hb0 : S.count .iterator = 0 := List.count_eq_zero.mpr hb
  simp only [foreachNode]
  cases hvs : st.foreachVarStart with
  | nil =>
    have hfs : st.foreachStart = none := by
      rcases hI.iter with h | h
      · exact h.1
      · exact absurd hvs h.2.1
    simp only
    split
    · simp only [skip]
      split
      · rename_i after hs
        have := skipTo_nested (f := .iterator) (by simp) rest [] hn (by simp) hs
        intro st' h
        cases h
        refine ⟨S, this, hS.one, hS.oneB, ⟨fun _ => hb, fun s e => ?_⟩, hS.list.move Iff.rfl rfl rfl rfl nl⟩
        have e : st.foreachStart = some s := e
        rw [hfs] at e
        cases e
      · exact goes_ub
    · intro st' h
      cases h
      refine ⟨.iterator :: S, hn, by simp [hb0], by simpa using hS.oneB, ⟨(by intro e; cases e), fun s e => ?_⟩,
        hS.list.move (by simp) (by simp [below]) rfl rfl nl⟩
      cases e
      refine .inl ⟨by simp, ?_⟩
      simpa [below] using hS.nested
  | cons i is =>
    have hfv : st.foreachVar ≠ [] := by
      rcases hI.iter with h | h
      · rw [h.2.1] at hvs; cases hvs
      · exact h.2.2
    have hfs : st.foreachStart ≠ none := by
      rcases hI.iter with h | h
      · rw [h.2.1] at hvs; cases hvs
      · exact h.1
    cases hfv' : st.foreachVar with
    | nil => exact absurd hfv' hfv
    | cons a as =>
      intro st' h
      cases h
      refine ⟨.iterator :: S, hn, by simp [hb0], by simpa using hS.oneB, ⟨fun e => absurd e hfs, fun s e => ?_⟩,
        hS.list.move (by simp) (by simp [below]) rfl rfl nl⟩
      refine .inl ⟨by simp, ?_⟩
      rcases hS.iter.present s e with ⟨h, _⟩ | ⟨_, h⟩
      · exact absurd h hb
      · simpa [below, ← h] using hS.nested

theorem goes_endforeach (hI : Render.Inv ctx tmpl st) (hS : Nest ctx S st) (ht : st.tmp = node :: rest)
    (hty : node.type = .endforeach) (hb : S.head? = some .iterator) (hn : N S.tail rest) :
    Goes ctx (endforeachNode st rest) := by
  have nl := not_list hI ht (by rw [hty]; simp)
  have eS := pop_of hb
  have c1 : S.tail.count .block ≤ 1 := by
    have := hS.oneB; rw [eS] at this; simpa using this
  have c2 : S.tail.count .iterator = 0 := by
    have := hS.one; rw [eS, List.count_cons_self] at this; omega
  have m1 : Open.block ∈ S.tail ↔ Open.block ∈ S := by
    rw [eS]; simp
  have b1 : below .block S.tail = below .block S := by
    rw [eS]; simp [below]
  have nb : Open.iterator ∉ S.tail := List.count_eq_zero.mp c2
  have mem : Open.iterator ∈ S := by rw [eS]; simp
  have ends : ∀ st₁ : Render.St Table Table, st₁.listingStart = st.listingStart → st₁.currentSource = st.currentSource →
      Goes ctx (endForeach st₁ rest) := by
    intro st₁ e1 e2
    have fin : ∀ st₂ : Render.St Table Table, st₂.listingStart = st.listingStart → st₂.currentSource = st.currentSource →
        st₂.foreachStart = none → Goes ctx (next st₂ rest) := by
      intro st₂ e1 e2 e3 st' h
      cases h
      refine ⟨S.tail, hn, by omega, c1, ⟨fun _ => nb, fun s e => ?_⟩, hS.list.move m1 b1 e1 e2 nl⟩
      have e : st₂.foreachStart = some s := e
      rw [e3] at e
      cases e
    simp only [endForeach]
    split
    · exact fin _ e1 e2 rfl
    · split
      · exact fin _ e1 e2 rfl
      · exact goes_ub
  simp only [endforeachNode]
  cases hfs : st.foreachStart with
  | none => exact absurd mem (hS.iter.absent hfs)
  | some s =>
    cases hfv : st.foreachVar with
    | nil => exact ends st rfl rfl
    | cons a as =>
      cases as with
      | nil => exact ends { st with foreachVar := [] } rfl rfl
      | cons i is =>
        intro st' h
        cases h
        have h6 : N S.tail s := by
          rcases hS.iter.present s hfs with ⟨_, h⟩ | ⟨h, _⟩
          · rw [eS] at h; simpa [below] using h
          · exact absurd mem h
        refine ⟨S.tail, h6, by omega, c1, ⟨fun e => ?_, fun s' e => ?_⟩, hS.list.move m1 b1 rfl rfl nl⟩
        · cases e
        · have e : some s = some s' := e
          cases e
          exact .inr ⟨nb, rfl⟩

/-- One round. -/
theorem goes_step (E : Evaluator Table Table) (hI : Render.Inv ctx tmpl st) (hS : Nest ctx S st) :
    Goes ctx (Render.step E ctx st) := by
  rw [Render.step]
  cases ht : st.tmp with
  | nil => exact fun _ h => nomatch h
  | cons node rest =>
    have hn := hS.nested
    simp only [ht, N, List.map_cons] at hn
    cases hty : node.type <;> simp only [hty, Nested] at hn ⊢
    case content =>
      rw [contentNode]
      exact goes_next hI hS ht (by rw [hty]; simp) (by rw [hty]; simp) hn rfl rfl rfl rfl (by rfl) (by rfl) (by rfl)
    case block => exact goes_block hI hS ht hty hn.1 hn.2
    case «variable» =>
      simp only [variableNode]
      split
      · exact goes_ub
      · exact goes_next hI hS ht (by rw [hty]; simp) (by rw [hty]; simp) hn rfl rfl rfl rfl (by rfl) (by rfl) (by rfl)
    case endblock => exact goes_endblock hI hS ht hty hn.1 hn.2
    case ifdef => exact goes_if E hI hS ht (by rw [hty]; simp) (by rw [hty]; simp) hn
    case ifndef => exact goes_if E hI hS ht (by rw [hty]; simp) (by rw [hty]; simp) hn
    case if_ => exact goes_if E hI hS ht (by rw [hty]; simp) (by rw [hty]; simp) hn
    case else_ =>
      simp only [elseNode]
      split
      · exact goes_next hI hS ht (by rw [hty]; simp) (by rw [hty]; simp) hn.2 rfl rfl rfl rfl (by rfl) (by rfl) (by rfl)
      · split
        · rename_i n after count hs
          have eS := pop_of hn.1
          have hn2 : N ([] ++ Open.conditional :: S.tail) rest := by rw [List.nil_append, ← eS]; exact hn.2
          rcases skipIf_nested rest [] hn2 hs with ⟨_, h, _⟩ | ⟨_, h3⟩
          · cases h
          · exact goes_next hI hS ht (by rw [hty]; simp) (by rw [hty]; simp) h3 (by rw [eS]; simp) (by rw [eS]; simp)
              (by rw [eS]; simp [below]) (by rw [eS]; simp [below]) (by rfl) (by rfl) (by rfl)
        · exact goes_ub
    case endif =>
      have eS := pop_of hn.1
      rw [endifNode]
      exact goes_next hI hS ht (by rw [hty]; simp) (by rw [hty]; simp) hn.2 (by rw [eS]; simp) (by rw [eS]; simp)
              (by rw [eS]; simp [below]) (by rw [eS]; simp [below]) (by rfl) (by rfl) (by rfl)
    case foreach => exact goes_foreach E hI hS ht hty hn.1 hn.2
    case endforeach => exact goes_endforeach hI hS ht hty hn.1 hn.2

end

/-- At the end of a properly nested template no iterator is left. -/
theorem reached_nested {sys : Sys} {ctx : Ctx Table} {tmpl : List Node} {st st' : Render.St Table Table}
    (hr : Reached (evaluator sys) ctx st st') (hI : Render.Inv ctx tmpl st) (hS : ∃ S, Nest ctx S st) (he : st'.tmp = []) :
    st'.foreachVarStart = [] := by
  induction hr with
  | step hs _ ih =>
    obtain ⟨S, hS⟩ := hS
    exact ih (step_inv hI hs) (goes_step _ hI hS _ hs) he
  | refl =>
    obtain ⟨S, hS⟩ := hS
    have h0 : S = [] := by
      have := hS.nested
      rw [he] at this
      simpa [N, Nested] using this
    subst h0
    rcases hI.iter with h | h
    · exact h.2.1
    · exfalso
      cases hf : _root_.Blogc.Render.St.foreachStart _ with
      | none => exact h.1 hf
      | some s =>
        obtain ⟨_, n, r, e, _⟩ := hI.foreach s hf
        rcases hS.iter.present s hf with ⟨h, _⟩ | ⟨_, h⟩
        · simp at h
        · rw [he, e] at h; cases h

end Blogc.TmplMem
