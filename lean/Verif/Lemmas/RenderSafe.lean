import Verif.Model.Render
import Verif.Spec.Template
import Verif.Lemmas.RenderMeasure
import Verif.Lemmas.TemplatePlain

/-!
# The renderer ends, and does not run off the template
-/

namespace Blogc.Render

open Blogc Blogc.Template

variable {G L : Type}

/-- What the renderer relies on: nodes carry what they need, and the loops that skip ahead find
the end they look for. -/
structure Safe (tmpl : List Node) : Prop where
  node : ∀ n ∈ tmpl, NodeOk n ∧ PlainNode n
  block : ∀ p n rest, tmpl = p ++ n :: rest → n.type = .block → ∃ x ∈ rest, x.type = .endblock
  foreach : ∀ p n rest, tmpl = p ++ n :: rest → n.type = .foreach → ∃ x ∈ rest, x.type = .endforeach
  ifs : ∀ p n rest, tmpl = p ++ n :: rest → (isIf n.type = true ∨ n.type = .else_) →
    rest.countP (fun x => isIf x.type) < rest.countP (fun x => x.type == .endif)

/-- Variables with a name can be evaluated. -/
def Total (E : Evaluator G L) : Prop := ∀ g l it n, n ≠ [] → ∃ r, E.value g l it n = .ok r

/-- The loops. -/
def loopL (st : St G L) : Loop :=
  match st.listingStart with
  | none => ⟨0, 0⟩
  | some s => ⟨s.length, st.currentSource.length⟩

def loopF (st : St G L) : Loop :=
  match st.foreachStart with
  | none => ⟨0, 0⟩
  | some s => ⟨s.length, st.foreachVar.length⟩

def μ (st : St G L) : M := measure st.tmp.length (loopL st) (loopF st)

/-- What holds before each round. -/
structure Inv (ctx : Ctx L) (tmpl : List Node) (st : St G L) : Prop where
  tmp : st.tmp <:+ tmpl
  listing : ∀ s, st.listingStart = some s → s <:+ tmpl ∧ ∃ n r, s = n :: r ∧ n.type = .block
  foreach : ∀ s, st.foreachStart = some s → s <:+ tmpl ∧ ∃ n r, s = n :: r ∧ n.type = .foreach
  mode : ctx.listing = false → st.listingStart = none
  iter : (st.foreachStart = none ∧ st.foreachVarStart = [] ∧ st.foreachVar = []) ∨
    (st.foreachStart ≠ none ∧ st.foreachVarStart ≠ [] ∧ st.foreachVar ≠ [])

theorem suffix_eq {a b c : List α} (ha : a <:+ c) (hb : b <:+ c) (h : a.length = b.length) : a = b :=
  (List.suffix_of_suffix_length_le ha hb (by omega)).eq_of_length h

theorem Inv.apart {ctx : Ctx L} {tmpl : List Node} {st : St G L} (h : Inv ctx tmpl st) :
    Apart (loopL st) (loopF st) := by
  intro h1 h2 e
  cases hl : st.listingStart with
  | none => rw [loopL, hl] at h1; simp at h1
  | some s =>
    cases hf : st.foreachStart with
    | none => rw [loopF, hf] at h2; simp at h2
    | some s' =>
      obtain ⟨hs, n, r, e1, ht⟩ := h.listing s hl
      obtain ⟨hs', n', r', e1', ht'⟩ := h.foreach s' hf
      have : s = s' := suffix_eq hs hs' (by rw [loopL, loopF, hl, hf] at e; exact e)
      subst this
      rw [e1] at e1'
      injection e1' with e2 _
      subst e2
      rw [ht] at ht'
      cases ht'

/-- The fields of the loops are the same. -/
structure Same (st st' : St G L) : Prop where
  listingStart : st'.listingStart = st.listingStart
  currentSource : st'.currentSource = st.currentSource ∨ st.listingStart = none
  foreachStart : st'.foreachStart = st.foreachStart
  foreachVar : st'.foreachVar = st.foreachVar
  foreachVarStart : st'.foreachVarStart = st.foreachVarStart

theorem Same.rfl' {st : St G L} (t : List Node) : Same st { st with tmp := t } :=
  ⟨rfl, .inl rfl, rfl, rfl, rfl⟩

theorem Same.loopL {st st' : St G L} (h : Same st st') : loopL st' = Render.loopL st := by
  simp only [Render.loopL, h.listingStart]
  rcases h.currentSource with e | e
  · rw [e]
  · rw [e]

theorem Same.loopF {st st' : St G L} (h : Same st st') : loopF st' = Render.loopF st := by
  simp only [Render.loopF, h.foreachStart, h.foreachVar]

theorem Same.inv {ctx : Ctx L} {tmpl : List Node} {st st' : St G L} (h : Same st st')
    (hI : Inv ctx tmpl st) (ht : st'.tmp <:+ tmpl) : Inv ctx tmpl st' :=
  ⟨ht, by rw [h.listingStart]; exact hI.listing, by rw [h.foreachStart]; exact hI.foreach,
    by rw [h.listingStart]; exact hI.mode,
    by rw [h.foreachStart, h.foreachVar, h.foreachVarStart]; exact hI.iter⟩

/-- One round is as it should be. -/
def Good (A : Prop) (ctx : Ctx L) (tmpl : List Node) (st : St G L) (x : Run (St G L ⊕ Str)) : Prop :=
  Run.Fine A (Sum.elim (fun st' => Inv ctx tmpl st' ∧ Less (μ st') (μ st)) fun _ => True) x

section
variable {A : Prop} {ctx : Ctx L} {tmpl : List Node} {st : St G L} {node : Node} {rest : List Node}

theorem rest_suffix (hI : Inv ctx tmpl st) (ht : st.tmp = node :: rest) : rest <:+ tmpl :=
  (List.suffix_cons node rest).trans (ht ▸ hI.tmp)

/-- Going on without a change to the loops. -/
theorem good_next (hI : Inv ctx tmpl st) (ht : st.tmp = node :: rest) (st' : St G L) (hs : Same st st')
    (after : List Node) (ha : after <:+ rest) : Good A ctx tmpl st (next st' after) := by
  have hs' : Same st { st' with tmp := after } :=
    ⟨hs.listingStart, hs.currentSource, hs.foreachStart, hs.foreachVar, hs.foreachVarStart⟩
  refine ⟨hs'.inv hI (ha.trans (rest_suffix hI ht)), ?_⟩
  rw [μ, μ, hs'.loopL, hs'.loopF]
  refine move _ _ ?_
  rw [ht]
  have := ha.length_le
  simp only [List.length_cons]
  omega

theorem skipTo_spec (k : NodeType) (l : List Node) :
    (∃ after, skipTo k l = .ok after ∧ after <:+ l) ∨ (skipTo k l = .ub ∧ ∀ x ∈ l, x.type ≠ k) := by
  induction l with
  | nil => right; exact ⟨rfl, by simp⟩
  | cons n l ih =>
    rw [skipTo]
    by_cases h : n.type = k
    · left; rw [if_pos h]; exact ⟨l, rfl, List.suffix_cons n l⟩
    · rw [if_neg h]
      rcases ih with ⟨a, h1, h2⟩ | ⟨h1, h2⟩
      · left; exact ⟨a, h1, h2.trans (List.suffix_cons n l)⟩
      · right
        refine ⟨h1, fun x hx => ?_⟩
        rcases List.mem_cons.mp hx with rfl | hx
        · exact h
        · exact h2 x hx

theorem good_skip (hI : Inv ctx tmpl st) (ht : st.tmp = node :: rest) (st' : St G L) (hs : Same st st')
    (k : NodeType) (hk : A ∨ ∃ x ∈ rest, x.type = k) : Good A ctx tmpl st (skip k st' rest) := by
  rcases skipTo_spec k rest with ⟨a, h1, h2⟩ | ⟨h1, h2⟩
  · rw [skip, h1]; exact good_next hI ht st' hs a h2
  · rw [skip, h1]
    rcases hk with hA | ⟨x, hx, e⟩
    · exact hA
    · exact absurd e (h2 x hx)

theorem skipIf_spec (stopElse : Bool) (l : List Node) (c : Nat) :
    (∃ n after c', skipIf stopElse l c = .ok (n :: after, c') ∧ after <:+ l) ∨
      (skipIf stopElse l c = .ub ∧
        l.countP (fun x => x.type == .endif) ≤ l.countP (fun x => isIf x.type) + c) := by
  induction l generalizing c with
  | nil => right; exact ⟨rfl, by simp⟩
  | cons n l ih =>
    have lift : ∀ {n' after c' d}, (skipIf stopElse l d = .ok (n' :: after, c') ∧ after <:+ l) →
        (skipIf stopElse l d = .ok (n' :: after, c') ∧ after <:+ n :: l) :=
      fun h => ⟨h.1, h.2.trans (List.suffix_cons n l)⟩
    rw [skipIf.eq_def]
    simp only
    by_cases h1 : n.type = .if_ ∨ n.type = .ifdef ∨ n.type = .ifndef
    · rw [if_pos h1]
      rcases ih (c + 1) with ⟨n', a, c', h⟩ | ⟨h, h2⟩
      · left; exact ⟨n', a, c', lift h⟩
      · right
        refine ⟨h, ?_⟩
        have e1 : (n.type == .endif) = false := by rcases h1 with e | e | e <;> rw [e] <;> rfl
        have e2 : isIf n.type = true := by rcases h1 with e | e | e <;> rw [e] <;> rfl
        simp only [List.countP_cons, e1, e2, if_true]
        simp only [Bool.false_eq_true, if_false]
        omega
    · have e2 : isIf n.type = false := by
        cases hn : n.type <;> simp [hn] at h1 <;> rfl
      rw [if_neg h1]
      split
      · left; exact ⟨n, l, c, rfl, List.suffix_cons n l⟩
      · by_cases h3 : n.type = .endif
        · rw [if_pos h3]
          cases c with
          | zero => left; exact ⟨n, l, 0, rfl, List.suffix_cons n l⟩
          | succ c =>
            rcases ih c with ⟨n', a, c', h⟩ | ⟨h, h2⟩
            · left; exact ⟨n', a, c', lift h⟩
            · right
              refine ⟨h, ?_⟩
              rw [h3] at e2
              simp only [List.countP_cons, e2, h3, beq_self_eq_true, if_true]
              simp only [Bool.false_eq_true, if_false]
              omega
        · rw [if_neg h3]
          rcases ih c with ⟨n', a, c', h⟩ | ⟨h, h2⟩
          · left; exact ⟨n', a, c', lift h⟩
          · right
            refine ⟨h, ?_⟩
            have e1 : (n.type == .endif) = false := by simpa using h3
            simp only [List.countP_cons, e1, e2]
            simp only [Bool.false_eq_true, if_false]
            omega

theorem good_branch (hI : Inv ctx tmpl st) (ht : st.tmp = node :: rest) (st' : St G L) (hs : Same st st')
    (hk : A ∨ rest.countP (fun x => isIf x.type) < rest.countP (fun x => x.type == .endif)) (b : Bool) :
    Good A ctx tmpl st (branch st' rest b) := by
  cases b with
  | true =>
    simp only [branch, if_true]
    exact good_next hI ht _ (by exact ⟨hs.1, hs.2, hs.3, hs.4, hs.5⟩) rest (List.suffix_refl _)
  | false =>
    simp only [branch, Bool.false_eq_true, if_false]
    rcases skipIf_spec true rest 0 with ⟨n, a, c, h1, h2⟩ | ⟨h1, h2⟩
    · rw [h1]
      simp only
      split
      · exact good_next hI ht _ (by exact ⟨hs.1, hs.2, hs.3, hs.4, hs.5⟩) a h2
      · exact good_next hI ht _ (by exact ⟨hs.1, hs.2, hs.3, hs.4, hs.5⟩) a h2
    · rw [h1]
      rcases hk with hA | hk
      · exact hA
      · omega

theorem good_else (hI : Inv ctx tmpl st) (ht : st.tmp = node :: rest)
    (hk : A ∨ rest.countP (fun x => isIf x.type) < rest.countP (fun x => x.type == .endif)) :
    Good A ctx tmpl st (elseNode st rest) := by
  rw [elseNode]
  split
  · exact good_next hI ht _ (by exact ⟨rfl, .inl rfl, rfl, rfl, rfl⟩) rest (List.suffix_refl _)
  · rcases skipIf_spec false rest 0 with ⟨n, a, c, h1, h2⟩ | ⟨h1, h2⟩
    · rw [h1]
      exact good_next hI ht _ (by exact ⟨rfl, .inl rfl, rfl, rfl, rfl⟩) a h2
    · rw [h1]
      rcases hk with hA | hk
      · exact hA
      · omega

theorem good_listingEntry (hI : Inv ctx tmpl st) (ht : st.tmp = node :: rest) (st' : St G L)
    (hs : Same st st') (hk : A ∨ ∃ x ∈ rest, x.type = .endblock) :
    Good A ctx tmpl st (listingEntry ctx st' rest) := by
  rw [listingEntry]
  split
  · exact good_skip hI ht _ hs _ hk
  · split
    · exact good_skip hI ht _ (by exact ⟨hs.1, hs.2, hs.3, hs.4, hs.5⟩) _ hk
    · split
      · exact good_skip hI ht _ (by exact ⟨hs.1, hs.2, hs.3, hs.4, hs.5⟩) _ hk
      · -- the listing, if any, ends
        rename_i es _ l _ _
        have hI' : Inv ctx tmpl { st' with entries := es, currentSource := [], tmpSource := some l, tmp := rest } :=
          ⟨rest_suffix hI ht, by simp only [hs.1]; exact hI.listing, by simp only [hs.3]; exact hI.foreach,
            by simp only [hs.1]; exact hI.mode,
            by simp only [hs.foreachStart, hs.foreachVar, hs.foreachVarStart]; exact hI.iter⟩
        refine ⟨hI', ?_⟩
        rw [μ, μ]
        have e : loopL { st' with entries := es, currentSource := [], tmpSource := some l, tmp := rest } =
            ⟨(loopL st).start, 0⟩ := by
          simp only [loopL, hs.1]
          cases st.listingStart <;> rfl
        have ef : loopF { st' with entries := es, currentSource := [], tmpSource := some l, tmp := rest } =
            loopF st := by
          simp only [loopF, hs.3, hs.4]
        rw [e, ef]
        exact finish _ _ _ (by rw [ht]; simp) hI.apart

theorem good_listing (hI : Inv ctx tmpl st) (ht : st.tmp = node :: rest) (hn : node.type = .block)
    (st' : St G L) (hs : Same st st') (ht' : st'.tmp = st.tmp) (hl : ctx.listing = true)
    (hk : A ∨ ∃ x ∈ rest, x.type = .endblock) :
    Good A ctx tmpl st (listingBlock ctx st' rest) := by
  rw [listingBlock]
  split
  · exact good_skip hI ht _ hs _ hk
  · rename_i s ss _
    cases hc : st'.currentSource with
    | nil =>
      simp only
      have hI' : Inv ctx tmpl { st' with
          listingStart := some st'.tmp, currentSource := s :: ss, tmpSource := some s, tmp := rest } := by
        refine ⟨rest_suffix hI ht, ?_, by simp only [hs.3]; exact hI.foreach, ?_,
            by simp only [hs.foreachStart, hs.foreachVar, hs.foreachVarStart]; exact hI.iter⟩
        · intro x hx
          injection hx with hx
          rw [← hx, ht']
          exact ⟨hI.tmp, node, rest, ht, hn⟩
        · intro h; rw [hl] at h; cases h
      refine ⟨hI', ?_⟩
      rw [μ, μ]
      have e : loopL { st' with
          listingStart := some st'.tmp, currentSource := s :: ss, tmpSource := some s, tmp := rest } =
          ⟨st.tmp.length, ss.length + 1⟩ := by
        simp only [loopL, ht', List.length_cons]
      have ef : loopF { st' with
          listingStart := some st'.tmp, currentSource := s :: ss, tmpSource := some s, tmp := rest } =
          loopF st := by
        simp only [loopF, hs.3, hs.4]
      rw [e, ef]
      refine begin _ _ _ (by rw [ht]; simp) ?_ ?_
      · rw [loopL]
        cases hls : st.listingStart with
        | none => rfl
        | some x =>
          rcases hs.2 with e | e
          · simp only; rw [← e, hc]; rfl
          · rw [hls] at e; cases e
      · intro hpos he
        have := hI'.apart (by rw [e]; simp) (by rw [ef]; exact hpos)
        rw [e, ef] at this
        exact this he.symm
    | cons c cs =>
      have h2 := hs.2
      rw [hc] at h2
      exact good_next hI ht _ (by exact ⟨hs.1, h2, hs.3, hs.4, hs.5⟩) rest (List.suffix_refl _)

theorem good_blockOf (hI : Inv ctx tmpl st) (ht : st.tmp = node :: rest) (hn : node.type = .block)
    (st' : St G L) (hs : Same st st') (ht' : st'.tmp = st.tmp) (t : Str)
    (hk : A ∨ ∃ x ∈ rest, x.type = .endblock) :
    Good A ctx tmpl st (blockOf ctx st' rest t) := by
  rw [blockOf]
  split
  · cases hl : ctx.listing with
    | true => exact good_skip hI ht _ hs _ hk
    | false =>
      exact good_next hI ht _ (by exact ⟨hs.1, .inr (hI.mode hl), hs.3, hs.4, hs.5⟩) rest (List.suffix_refl _)
  split
  · exact good_listingEntry hI ht st' hs hk
  split
  · cases hl : ctx.listing with
    | false => exact good_skip hI ht _ hs _ hk
    | true =>
      simp only [Bool.true_eq_false, if_false]
      split
      · split
        · exact good_next hI ht _ hs rest (List.suffix_refl _)
        · exact good_skip hI ht _ hs _ hk
      split
      · exact good_listing hI ht hn st' hs ht' hl hk
      · exact good_next hI ht _ hs rest (List.suffix_refl _)
  · exact good_next hI ht _ hs rest (List.suffix_refl _)

theorem good_endblock (hI : Inv ctx tmpl st) (ht : st.tmp = node :: rest) :
    Good A ctx tmpl st (endblock st rest) := by
  rw [endblock]
  split
  · rename_i start c s ss hls hcs
    have hI' : Inv ctx tmpl { st with insideBlock := false, currentSource := s :: ss, tmp := start } :=
      ⟨(hI.listing start hls).1, hI.listing, hI.foreach, hI.mode, hI.iter⟩
    refine ⟨hI', ?_⟩
    have e : loopL st = ⟨start.length, ss.length + 2⟩ := by simp [loopL, hls, hcs]
    have e' : loopL { st with insideBlock := false, currentSource := s :: ss, tmp := start } =
        ⟨start.length, ss.length + 1⟩ := by simp [loopL, hls]
    rw [μ, μ, e']
    have := jump (t := st.tmp.length) (loopL st) (loopF st) hI.apart (by rw [e]; simp)
    rw [e] at this ⊢
    exact this
  · rename_i start c hls hcs
    have hI' : Inv ctx tmpl { st with insideBlock := false, currentSource := [], listingStart := none, tmp := rest } :=
      ⟨rest_suffix hI ht, (fun x hx => nomatch hx), hI.foreach, fun _ => rfl, hI.iter⟩
    refine ⟨hI', ?_⟩
    rw [μ, μ]
    exact finish 0 _ _ (by rw [ht]; simp) hI.apart
  · exact good_next hI ht _ (by exact ⟨rfl, .inl rfl, rfl, rfl, rfl⟩) rest (List.suffix_refl _)

theorem good_foreach (E : Evaluator G L) (hI : Inv ctx tmpl st) (ht : st.tmp = node :: rest)
    (hn : node.type = .foreach) (hk : A ∨ ∃ x ∈ rest, x.type = .endforeach) :
    Good A ctx tmpl st (foreachNode E st node rest) := by
  rw [foreachNode]
  cases hv : st.foreachVarStart with
  | nil =>
    simp only
    cases hli : listOf E st node.data0 with
    | nil => exact good_skip hI ht _ (by exact ⟨rfl, .inl rfl, rfl, rfl, rfl⟩) _ hk
    | cons i is =>
      simp only
      have hnone : st.foreachStart = none := by
        rcases hI.iter with h | h
        · exact h.1
        · exact absurd hv h.2.1
      have hI' : Inv ctx tmpl { st with
          foreachVarStart := i :: is, foreachName := node.data0, foreachVar := i :: is
          foreachStart := some st.tmp, tmp := rest } := by
        refine ⟨rest_suffix hI ht, hI.listing, ?_, hI.mode, .inr ⟨?_, ?_, ?_⟩⟩
        · intro x hx
          injection hx with hx
          rw [← hx]
          exact ⟨hI.tmp, node, rest, ht, hn⟩
        all_goals simp
      refine ⟨hI', ?_⟩
      rw [μ, μ, measure_symm hI'.apart, measure_symm hI.apart]
      have e : loopF { st with
          foreachVarStart := i :: is, foreachName := node.data0, foreachVar := i :: is
          foreachStart := some st.tmp, tmp := rest } = ⟨st.tmp.length, is.length + 1⟩ := by simp [loopF]
      have el : loopL { st with
          foreachVarStart := i :: is, foreachName := node.data0, foreachVar := i :: is
          foreachStart := some st.tmp, tmp := rest } = loopL st := rfl
      have hap := hI'.apart
      rw [e, el] at hap ⊢
      refine begin _ _ _ (by rw [ht]; simp) (by simp [loopF, hnone]) fun hpos he => ?_
      exact hap hpos (by simp) he
  | cons i is =>
    simp only
    cases hf : st.foreachVar with
    | nil =>
      rcases hI.iter with h | h
      · rw [h.2.1] at hv; cases hv
      · exact absurd hf h.2.2
    | cons j js => exact good_next hI ht _ (by exact ⟨rfl, .inl rfl, rfl, rfl, rfl⟩) rest (List.suffix_refl _)

theorem good_endforeach (hI : Inv ctx tmpl st) (ht : st.tmp = node :: rest) :
    Good A ctx tmpl st (endforeachNode st rest) := by
  rw [endforeachNode]
  split
  · rename_i start c i is hfs hfv
    have hI' : Inv ctx tmpl { st with foreachVar := i :: is, tmp := start } := by
      refine ⟨(hI.foreach start hfs).1, hI.listing, hI.foreach, hI.mode, ?_⟩
      rcases hI.iter with h | h
      · rw [h.1] at hfs; cases hfs
      · exact .inr ⟨h.1, h.2.1, by simp⟩
    refine ⟨hI', ?_⟩
    have e : loopF st = ⟨start.length, is.length + 2⟩ := by simp [loopF, hfs, hfv]
    have e' : loopF { st with foreachVar := i :: is, tmp := start } = ⟨start.length, is.length + 1⟩ := by
      simp [loopF, hfs]
    rw [μ, μ, measure_symm hI'.apart, measure_symm hI.apart, e']
    have := jump (t := st.tmp.length) (loopF st) (loopL st) hI.apart.symm (by rw [e]; simp)
    rw [e] at this ⊢
    exact this
  · have hI' : Inv ctx tmpl { st with
        foreachVar := [], foreachStart := none, foreachVarStart := [], foreachName := none, tmp := rest } :=
      ⟨rest_suffix hI ht, hI.listing, fun x hx => (nomatch hx), hI.mode, .inl ⟨rfl, rfl, rfl⟩⟩
    refine ⟨hI', ?_⟩
    rw [μ, μ, measure_symm hI'.apart, measure_symm hI.apart]
    exact finish 0 _ _ (by rw [ht]; simp) hI.apart.symm
  · rename_i h1 h2
    rcases hI.iter with h | h
    · rw [endForeach, h.2.2]
      simp only
      exact good_next hI ht _ (by exact ⟨rfl, .inl rfl, h.1.symm, h.2.2.symm, h.2.1.symm⟩) rest (List.suffix_refl _)
    · exfalso
      obtain ⟨a, b, c⟩ := h
      cases hs : st.foreachStart with
      | none => exact a hs
      | some s =>
        cases hv : st.foreachVar with
        | nil => exact c hv
        | cons x xs =>
          cases xs with
          | nil => exact h2 s x hs hv
          | cons y ys => exact h1 s x y ys hs hv

end

theorem isName_ne {s : Str} (h : IsName s) : s ≠ [] := by
  obtain ⟨⟨c, r, rfl, _⟩, _⟩ := h
  simp

theorem valueOf_total {E : Evaluator G L} (hE : Total E) (st : St G L) {d : Option Str}
    (hd : ∃ v, d = some v ∧ v ≠ []) : ∃ r, valueOf E st d = .ok r := by
  obtain ⟨v, rfl, hv⟩ := hd
  exact hE _ _ _ v hv

theorem condition_total {E : Evaluator G L} (hE : Total E) (st : St G L) {n : Node} (hn : NodeOk n) (hp : PlainNode n)
    (hk : n.type = .ifdef ∨ n.type = .ifndef ∨ n.type = .if_) : ∃ r, condition E st n = .ok r := by
  have h0 : ∃ v, n.data0 = some v ∧ v ≠ [] := by
    unfold NodeOk at hn
    rcases hk with e | e | e <;> rw [e] at hn <;> simp only at hn
    · obtain ⟨v, h, h'⟩ := hn; exact ⟨v, h, isName_ne h'⟩
    · obtain ⟨v, h, h'⟩ := hn; exact ⟨v, h, isName_ne h'⟩
    · obtain ⟨_, ⟨v, h, h'⟩, _⟩ := hn; exact ⟨v, h, isName_ne h'⟩
  obtain ⟨⟨g, a⟩, hr⟩ := valueOf_total hE st h0
  rw [condition, hr]
  simp only [Res.bind]
  split
  · exact ⟨_, rfl⟩
  have : ∃ r, operand E { st with global := g } n.data1 = .ok r := by
    cases hd : n.data1 with
    | none => exact ⟨_, rfl⟩
    | some d =>
      rw [operand]
      cases hq : quoted d with
      | some s => exact ⟨_, rfl⟩
      | none =>
        by_cases hne : d = []
        · exfalso
          subst hne
          rename_i hop
          rcases hk with e | e | e
          · exact hop (hp (by rw [e]; decide)).1
          · exact hop (hp (by rw [e]; decide)).1
          · unfold NodeOk at hn
            rw [e] at hn
            obtain ⟨_, _, v, h, h'⟩ := hn
            rw [hd] at h
            injection h with h
            subst h
            rcases h' with h' | ⟨r, h'⟩
            · exact isName_ne h' rfl
            · cases h'
        · exact valueOf_total hE _ ⟨d, rfl, hne⟩
  obtain ⟨r, hr⟩ := this
  rw [hr]
  exact ⟨_, rfl⟩

/-- One round: the renderer fails only on a template that is not safe. -/
theorem step_good {E : Evaluator G L} {ctx : Ctx L} {tmpl : List Node} {A : Prop}
    (hA : A ∨ (Safe tmpl ∧ Total E)) (st : St G L) (hI : Inv ctx tmpl st) :
    Good A ctx tmpl st (step E ctx st) := by
  rw [step]
  cases ht : st.tmp with
  | nil => exact trivial
  | cons node rest =>
    obtain ⟨p, hp⟩ := hI.tmp
    rw [ht] at hp
    have hmem : node ∈ tmpl := by rw [← hp]; simp
    have hifs : isIf node.type = true ∨ node.type = .else_ →
        A ∨ rest.countP (fun x => isIf x.type) < rest.countP (fun x => x.type == .endif) :=
      fun h => hA.imp id fun hS => hS.1.ifs p node rest hp.symm h
    have hif : node.type = .ifdef ∨ node.type = .ifndef ∨ node.type = .if_ →
        Good A ctx tmpl st (ifNode E st node rest) := by
      intro hk
      rw [ifNode]
      rcases hA with hA | ⟨hS, hE⟩
      · cases hcond : condition E st node with
        | ub => exact hA
        | ok r => exact good_branch hI ht _ (by exact ⟨rfl, .inl rfl, rfl, rfl, rfl⟩) (.inl hA) r.2
      · obtain ⟨r, hr⟩ := condition_total hE st (hS.node node hmem).1 (hS.node node hmem).2 hk
        rw [hr]
        refine good_branch hI ht _ (by exact ⟨rfl, .inl rfl, rfl, rfl, rfl⟩) (hifs (.inl ?_)) r.2
        rcases hk with e | e | e <;> rw [e] <;> rfl
    cases hty : node.type <;> simp only [hty]
    case content =>
      exact good_next hI ht _ (by exact ⟨rfl, .inl rfl, rfl, rfl, rfl⟩) rest (List.suffix_refl _)
    case block =>
      rw [block]
      have hk : A ∨ ∃ x ∈ rest, x.type = .endblock := hA.imp id fun hS => hS.1.block p node rest hp.symm hty
      cases hd : node.data0 with
      | none =>
        rcases hA with hA | ⟨hS, _⟩
        · exact hA
        · have := (hS.node node hmem).1
          unfold NodeOk at this
          rw [hty] at this
          obtain ⟨t, _, h⟩ := this
          rw [hd] at h
          cases h
      | some t =>
        exact good_blockOf hI ht hty _ (by exact ⟨rfl, .inl rfl, rfl, rfl, rfl⟩) (by rfl) t hk
    case «variable» =>
      rw [variableNode]
      cases hv : valueOf E st node.data0 with
      | ub =>
        rcases hA with hA | ⟨hS, hE⟩
        · exact hA
        · have := (hS.node node hmem).1
          unfold NodeOk at this
          rw [hty] at this
          obtain ⟨v, h, h'⟩ := this
          obtain ⟨r, hr⟩ := valueOf_total hE st ⟨v, h, isName_ne h'⟩
          rw [hr] at hv
          cases hv
      | ok r => exact good_next hI ht _ (by exact ⟨rfl, .inl rfl, rfl, rfl, rfl⟩) rest (List.suffix_refl _)
    case endblock => exact good_endblock hI ht
    case ifdef => exact hif (.inl hty)
    case ifndef => exact hif (.inr (.inl hty))
    case if_ => exact hif (.inr (.inr hty))
    case else_ => exact good_else hI ht (hifs (.inr hty))
    case endif =>
      exact good_next hI ht _ (by exact ⟨rfl, .inl rfl, rfl, rfl, rfl⟩) rest (List.suffix_refl _)
    case foreach => exact good_foreach E hI ht hty (hA.imp id fun hS => hS.1.foreach p node rest hp.symm hty)
    case endforeach => exact good_endforeach hI ht

/-- Rendering ends, on any list of nodes; it fails only on a template that is not safe. -/
theorem render_fine (E : Evaluator G L) (ctx : Ctx L) (tmpl : List Node) (entries : List (Option L)) (g : G)
    {A : Prop} (hA : A ∨ (Safe tmpl ∧ Total E)) :
    ∃ n, Run.Fine A (fun _ => True) (render E n tmpl ctx entries g) :=
  runL_wf (I := Inv ctx tmpl) (InvImage.wf μ less_wf) (step_good hA) _
    ⟨List.suffix_refl _, (fun _ h => nomatch h), (fun _ h => nomatch h), fun _ => rfl, .inl ⟨rfl, rfl, rfl⟩⟩

/-- More fuel does not change the result. -/
theorem render_stable {E : Evaluator G L} {ctx : Ctx L} {tmpl : List Node} {entries : List (Option L)} {g : G}
    {n m : Nat} (h : render E n tmpl ctx entries g ≠ .out) (hm : n ≤ m) :
    render E m tmpl ctx entries g = render E n tmpl ctx entries g := by
  obtain ⟨k, rfl⟩ := Nat.exists_eq_add_of_le hm
  exact runL_mono n k _ h

/-- Well-bracketed templates are safe. -/
theorem safe_of {tmpl : List Node} (hw : WellBracketed (tmpl.map Node.type))
    (hn : ∀ n ∈ tmpl, NodeOk n ∧ PlainNode n) : Safe tmpl := by
  have split : ∀ {opens closes : NodeType → Bool} {p : List Node} {n : Node} {rest : List Node},
      tmpl = p ++ n :: rest → Balanced opens closes (tmpl.map Node.type) → closes n.type = false →
      (p.map Node.type).countP closes + (if opens n.type then 0 else 1) ≤ (p.map Node.type).countP opens →
      (rest.map Node.type).countP opens < (rest.map Node.type).countP closes := by
    intro opens closes p n rest e hb hc hlt
    have := hb.2
    rw [e] at this
    simp only [List.map_append, List.map_cons, List.countP_append, List.countP_cons, hc] at this
    simp only [Bool.false_eq_true, if_false] at this
    split at hlt <;> simp_all <;> omega
  have prefix_le : ∀ {opens closes : NodeType → Bool} {p : List Node} {n : Node} {rest : List Node},
      tmpl = p ++ n :: rest → Balanced opens closes (tmpl.map Node.type) →
      (p.map Node.type).countP closes ≤ (p.map Node.type).countP opens := by
    intro opens closes p n rest e hb
    refine hb.1 _ ?_
    rw [e, List.map_append]
    exact List.prefix_append _ _
  have pos : ∀ {k : NodeType} {l : List Node} {m : Nat}, m < (l.map Node.type).countP (· == k) →
      ∃ x ∈ l, x.type = k := by
    intro k l m h
    have h0 : 0 < (l.map Node.type).countP (· == k) := by omega
    obtain ⟨x, hx, e⟩ := List.countP_pos_iff.mp h0
    obtain ⟨y, hy, rfl⟩ := List.mem_map.mp hx
    exact ⟨y, hy, by simpa using e⟩
  refine ⟨hn, ?_, ?_, ?_⟩
  · intro p n rest e ht
    exact pos (split e hw.blocks (by rw [ht]; rfl) (by rw [ht]; exact prefix_le e hw.blocks))
  · intro p n rest e ht
    exact pos (split e hw.closed.foreachs (by rw [ht]; rfl) (by rw [ht]; exact prefix_le e hw.closed.foreachs))
  · intro p n rest e ht
    have key : (rest.map Node.type).countP isIf < (rest.map Node.type).countP (· == .endif) := by
      rcases ht with ht | ht
      · refine split e hw.closed.ifs ?_ (by rw [ht]; exact prefix_le e hw.closed.ifs)
        cases hty : n.type <;> rw [hty] at ht <;> first | rfl | cases ht
      · refine split e hw.closed.ifs (by rw [ht]; rfl) ?_
        have := hw.closed.elses (p.map Node.type) (by
          rw [e, List.map_append, List.map_cons, ht]
          exact ⟨rest.map Node.type, by simp⟩)
        rw [ht]
        exact this
    rw [List.countP_map, List.countP_map] at key
    exact key

end Blogc.Render
