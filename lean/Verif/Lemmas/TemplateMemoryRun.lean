import Verif.Lemmas.TemplateMemoryRender

/-!
# The memory of rendering a page
-/

namespace Blogc.TmplMem

open Blogc Blogc.Template Blogc.Render Blogc.Spec.TmplAccount

/-- What is in use between two rounds. -/
def now (ns : List Node) (st : Render.St Table Table) : InUse :=
  during ns st.foreachVarStart.length st.foreachName.isSome

/-- The iterator has a name exactly while it has a list. -/
def NameOk (st : Render.St Table Table) : Prop := st.foreachName.isSome = !st.foreachVarStart.isEmpty

theorem visited_ok {l : InUse} {ns : List Node} (hl : Has l ns) {i j : Nat} (hi : i < ns.length) (hj : j ≤ ns.length) :
    inUse (visited i j) l = some l := by
  refine uses_ok fun e he => ?_
  obtain ⟨k, hk, he⟩ := List.mem_flatMap.mp he
  have hk := List.mem_range.mp hk
  have hlt : i + k < ns.length := by omega
  have h := hl (i + k)
  simp only [List.mem_cons, List.not_mem_nil, or_false] at he
  rcases he with rfl | rfl
  · exact ⟨_, rfl, by rw [h.2.1]; simp [ofTemplate, hlt]⟩
  · exact ⟨_, rfl, by rw [h.1]; simp [ofTemplate, hlt]⟩

theorem has_during (ns : List Node) (m : Nat) (b : Bool) : Has (during ns m b) ns := fun _ => ⟨rfl, rfl, rfl, rfl⟩

theorem node_at {ns rest : List Node} {node : Node} (h : node :: rest <:+ ns) :
    ns[ns.length - (node :: rest).length]? = some node := by
  obtain ⟨p, rfl⟩ := h
  simp

theorem first_ok {ns rest : List Node} {node : Node} {l : InUse} (hl : Has l ns) (h : node :: rest <:+ ns) :
    inUse (firstEvents node (ns.length - (node :: rest).length)) l = some l := by
  simp only [firstEvents]
  split
  · rename_i h0
    refine use_ok ?_ rfl
    rw [(hl _).2.2.1]
    simp only [ofTemplate, node_at h, Option.any_some, h0]
  · rfl

theorem calm_now {ns : List Node} {ctx : Ctx Table} {tmpl : List Node} {st : Render.St Table Table}
    (hI : Render.Inv ctx tmpl st) : Calm (now ns st) st.item (wordNumber st) := by
  refine ⟨rfl, rfl, rfl, rfl, fun h => ?_, fun h => ?_⟩
  · have hv : st.foreachVar ≠ [] := by
      intro e
      simp [St.item, e] at h
    have hs : st.foreachVarStart ≠ [] := by
      rcases hI.iter with ⟨_, _, e⟩ | ⟨_, e, _⟩
      · exact absurd e hv
      · exact e
    have h1 := List.length_pos_iff.mpr hv
    have h2 := List.length_pos_iff.mpr hs
    have : st.foreachVarStart.length - st.foreachVar.length < st.foreachVarStart.length := by omega
    simp [now, during, wordNumber, this]
  · exact h

/-- The value of a variable. -/
theorem value_ok {sys : Sys} {st : Render.St Table Table} {n : Option Str} {x : Thing} {l : InUse} {g : Table}
    {v : Option Str} (hx : Result x) (hc : Calm l st.item (wordNumber st)) (hlx : l x = false)
    (h : valueOf (evaluator sys) st n = .ok (g, v)) :
    inUse (valueEvents sys st n x) l = some (put l x v.isSome) := by
  cases n with
  | none =>
    cases h
    simp only [Option.isSome_none, put_same hlx]
    rfl
  | some n => exact format_ok hx hc hlx h

theorem freeIf_ok {l : InUse} {v : Option Str} {x : Thing} (h : l x = false) :
    inUse (freeIf v x) (put l x v.isSome) = some l := by
  simp only [freeIf]
  split
  · rename_i hv
    refine release_ok (by simp [put, hv]) (nil_ok fun y => ?_)
    rw [put_put, put_same h]
  · rename_i hv
    rw [Bool.not_eq_true] at hv
    rw [hv, put_same h]
    rfl

theorem variable_ok {sys : Sys} {ns rest : List Node} {node : Node} {st : Render.St Table Table} {g : Table}
    {v : Option Str} {l : InUse} (hl : Has l ns) (hr : node :: rest <:+ ns) (ht : l .text = true) (hx : l .value = false)
    (hc : Calm l st.item (wordNumber st)) (h : valueOf (evaluator sys) st node.data0 = .ok (g, v)) :
    inUse (variableEvents sys st node (ns.length - (node :: rest).length)) l = some l := by
  refine then_ok (then_ok (first_ok hl hr) (value_ok (.inl rfl) hc hx h)) ?_
  rw [h]
  cases v with
  | none => simp only [Option.isSome_none, put_same hx]; rfl
  | some v =>
    refine use_ok (by simp [put, ht]) (use_ok (by simp [put]) (release_ok (by simp [put]) (nil_ok fun y => ?_)))
    rw [Option.isSome_some, put_put, put_same hx]

theorem operand_ok {sys : Sys} {ns rest : List Node} {node : Node} {st : Render.St Table Table} {g : Table}
    {v : Option Str} {l : InUse} (hl : Has l ns) (hr : node :: rest <:+ ns) (hx : l .defined2 = false)
    (hc : Calm l st.item (wordNumber st)) (h : operand (evaluator sys) st node.data1 = .ok (g, v)) :
    inUse (operandEvents sys st node.data1 (ns.length - (node :: rest).length)) l = some (put l .defined2 v.isSome) := by
  cases hd : node.data1 with
  | none =>
    rw [hd] at h
    cases h
    simp only [Option.isSome_none, put_same hx]
    rfl
  | some d =>
    rw [hd] at h
    have hu : l (.second (ns.length - (node :: rest).length)) = true := by
      rw [(hl _).2.2.2]
      simp only [ofTemplate, node_at hr, Option.any_some, hd, Option.isSome_some]
    simp only [operand] at h
    simp only [operandEvents]
    refine use_ok hu ?_
    cases hq : quoted d with
    | some s =>
      rw [hq] at h
      cases h
      exact acquire_ok hx rfl
    | none =>
      rw [hq] at h
      exact value_ok (.inr (.inr rfl)) hc hx h

theorem right_ok {sys : Sys} {ns rest : List Node} {node : Node} {st : Render.St Table Table} {a : Option Str} {l : InUse}
    (hl : Has l ns) (hr : node :: rest <:+ ns) (ha : l .defined = a.isSome) (hx : l .defined2 = false)
    (hc : Calm l st.item (wordNumber st))
    (h : node.op ≠ .none → ∃ r, operand (evaluator sys) st node.data1 = .ok r) :
    inUse (rightEvents sys st node (ns.length - (node :: rest).length) a) l = some l := by
  simp only [rightEvents]
  split
  · rfl
  · rename_i hop
    obtain ⟨⟨g, b⟩, hb⟩ := h hop
    refine then_ok (operand_ok hl hr hx hc hb) ?_
    rw [hb]
    simp only [compareEvents]
    refine then_ok (m := put l .defined2 b.isSome) ?_ (freeIf_ok hx)
    split
    · rename_i hab
      rw [Bool.and_eq_true] at hab
      exact use_ok (by simp [put, ha, hab.1]) (use_ok (by simp [put, hab.2]) rfl)
    · rfl

theorem if_ok {sys : Sys} {ns rest : List Node} {node : Node} {st : Render.St Table Table} {r : Table × Bool}
    {l : InUse} (hl : Has l ns) (hr : node :: rest <:+ ns) (hx : l .defined = false) (hx2 : l .defined2 = false)
    (hc : Calm l st.item (wordNumber st)) (h : condition (evaluator sys) st node = .ok r) :
    inUse (ifEvents sys st node (ns.length - (node :: rest).length)) l = some l := by
  simp only [condition] at h
  cases hv : valueOf (evaluator sys) st node.data0 with
  | ub => rw [hv] at h; cases h
  | ok p =>
    obtain ⟨g, a⟩ := p
    rw [hv] at h
    refine then_ok (then_ok (first_ok hl hr) (value_ok (.inr (.inl rfl)) hc hx hv)) ?_
    rw [hv]
    refine then_ok (right_ok (st := { st with global := g }) ?_ hr (by simp [put]) (by simp [put, hx2]) ?_ fun hop => ?_)
      (freeIf_ok hx)
    · intro k
      have := hl k
      simpa [put] using this
    · exact hc.put (.inl (.inr (.inl rfl))) (fun e => nomatch e)
    · simp only [Res.bind, if_neg hop] at h
      cases ho : operand (evaluator sys) { st with global := g } node.data1 with
      | ub => rw [ho] at h; cases h
      | ok q => exact ⟨q, rfl⟩

/-- The rounds that do not concern iterators leave them as they are. -/
def SameIter (st : Render.St Table Table) (x : Run (Render.St Table Table ⊕ Str)) : Prop :=
  ∀ st', x = .ok (.inl st') → st'.foreachVarStart = st.foreachVarStart ∧ st'.foreachName = st.foreachName

section
variable {st : Render.St Table Table} {st₁ : Render.St Table Table} {rest : List Node}

theorem si_next (h1 : st₁.foreachVarStart = st.foreachVarStart) (h2 : st₁.foreachName = st.foreachName) :
    SameIter st (next st₁ rest) := by
  intro st' h; cases h; exact ⟨h1, h2⟩

theorem si_ub : SameIter st .ub := fun _ h => nomatch h

theorem si_skip {k : NodeType} (h1 : st₁.foreachVarStart = st.foreachVarStart) (h2 : st₁.foreachName = st.foreachName) :
    SameIter st (skip k st₁ rest) := by
  simp only [skip]
  split
  · exact si_next h1 h2
  · exact si_ub

macro "si_all" : tactic =>
  `(tactic| ((repeat' split) <;> first | exact si_ub | exact si_next rfl rfl | exact si_skip rfl rfl))

theorem si_block (ctx : Ctx Table) (node : Node) : SameIter st (block ctx st node rest) := by
  simp only [block]
  split
  · exact si_ub
  · simp only [Render.blockOf, listingEntry, listingBlock]
    si_all

theorem si_endblock : SameIter st (endblock st rest) := by
  simp only [endblock]
  split
  · intro st' h; cases h; exact ⟨rfl, rfl⟩
  · exact si_next rfl rfl
  · exact si_next rfl rfl

theorem si_variable (E : Evaluator Table Table) (node : Node) : SameIter st (variableNode E st node rest) := by
  simp only [variableNode]
  si_all

theorem si_if (E : Evaluator Table Table) (node : Node) : SameIter st (ifNode E st node rest) := by
  simp only [ifNode]
  split
  · exact si_ub
  · simp only [branch]
    si_all

theorem si_else : SameIter st (elseNode st rest) := by
  simp only [elseNode]
  si_all

end

/-- One round. -/
theorem round_ok {sys : Sys} {ctx : Ctx Table} {ns rest : List Node} {node : Node} {st st' : Render.St Table Table}
    (hI : Render.Inv ctx ns st) (hN : NameOk st) (ht : st.tmp = node :: rest)
    (h : Render.step (evaluator sys) ctx st = .ok (.inl st')) :
    inUse (caseEvents sys st node (ns.length - st.tmp.length)) (now ns st) = some (now ns st') ∧ NameOk st' := by
  have hr : node :: rest <:+ ns := ht ▸ hI.tmp
  have hl : Has (now ns st) ns := has_during ns _ _
  have hc := calm_now (ns := ns) hI
  rw [ht]
  simp only [Render.step, ht] at h
  simp only [caseEvents]
  have same : ∀ {x : Run (Render.St Table Table ⊕ Str)}, SameIter st x → x = .ok (.inl st') →
      ∀ evs, inUse evs (now ns st) = some (now ns st) → inUse evs (now ns st) = some (now ns st') ∧ NameOk st' := by
    intro x hx e evs hev
    obtain ⟨h1, h2⟩ := hx st' e
    have e1 : now ns st' = now ns st := by simp only [now, h1, h2]
    rw [e1]
    exact ⟨hev, by simp only [NameOk, h1, h2]; exact hN⟩
  have hif : ∀ e : ifNode (evaluator sys) st node rest = .ok (.inl st'),
      inUse (ifEvents sys st node (ns.length - (node :: rest).length)) (now ns st) = some (now ns st') ∧ NameOk st' := by
    intro e
    refine same (si_if _ _) e _ ?_
    simp only [ifNode] at e
    cases hcd : condition (evaluator sys) st node with
    | ub => rw [hcd] at e; cases e
    | ok r => exact if_ok hl hr rfl rfl hc hcd
  cases hty : node.type <;> simp only [hty] at h ⊢
  case content =>
    refine same (si_next (st₁ := { st with out := st.out ++ node.data0.getD [] }) rfl rfl) h _ ?_
    split
    · rename_i h0
      refine use_ok ?_ (use_ok rfl rfl)
      rw [(hl _).2.2.1]
      simp only [ofTemplate, node_at hr, Option.any_some, h0]
    · rfl
  case block => exact same (si_block _ _) h _ (first_ok hl hr)
  case «variable» =>
    refine same (si_variable _ _) h _ ?_
    simp only [variableNode] at h
    cases hv : valueOf (evaluator sys) st node.data0 with
    | ub => rw [hv] at h; cases h
    | ok r => exact variable_ok hl hr rfl rfl hc hv
  case endblock => exact same si_endblock h _ rfl
  case ifdef => exact hif h
  case ifndef => exact hif h
  case if_ => exact hif h
  case else_ => exact same si_else h _ rfl
  case endif => exact same (si_next (st₁ := { st with validElse := false, ifCount := st.ifCount - 1 }) rfl rfl) h _ rfl
  case foreach =>
    simp only [foreachNode] at h
    simp only [foreachEvents]
    cases hs : st.foreachVarStart with
    | cons i is =>
      rw [hs] at h
      simp only at h ⊢
      have hv : st.foreachVar ≠ [] := by
        rcases hI.iter with ⟨_, e, _⟩ | ⟨_, _, e⟩
        · rw [hs] at e; cases e
        · exact e
      rw [if_neg hv]
      cases hfv : st.foreachVar with
      | nil => exact absurd hfv hv
      | cons a b =>
        rw [hfv] at h
        exact same (si_next rfl rfl) h _ rfl
    | nil =>
      rw [hs] at h
      simp only at h
      have hnm : st.foreachName = none := by
        have := hN
        simp only [NameOk, hs, List.isEmpty_nil, Bool.not_true] at this
        simpa using this
      have hnow : now ns st = during ns 0 false := by simp [now, hs, hnm]
      cases hd : node.data0 with
      | none =>
        rw [hd] at h
        exact same (si_skip rfl rfl) h _ rfl
      | some n =>
        rw [hd] at h
        have hu : during ns 0 false (.first (ns.length - (node :: rest).length)) = true := by
          simp only [during, ofTemplate, node_at hr, Option.any_some, hd, Option.isSome_some]
        have hsp := split_ok ns n st.global st.local
        have hlist : listOf (evaluator sys) st (some n) = splitListVariable n st.global st.local := rfl
        simp only [hlist] at h ⊢
        cases hw : splitListVariable n st.global st.local with
        | nil =>
          rw [hw] at h hsp
          refine same (si_skip rfl rfl) h _ ?_
          rw [hnow, if_pos rfl, List.append_nil]
          exact then_ok (use_ok hu rfl) hsp
        | cons i is =>
          rw [hw] at h hsp
          cases h
          refine ⟨?_, rfl⟩
          rw [hnow, if_neg (by simp)]
          refine then_ok (then_ok (use_ok hu rfl) hsp) (use_ok hu (acquire_ok rfl (nil_ok fun x => ?_)))
          cases x <;> simp [now, during, put]
  case endforeach =>
    simp only [endforeachNode] at h
    simp only [endforeachEvents]
    have ends : ∀ st₁ : Render.St Table Table, st₁.foreachVarStart = st.foreachVarStart → endForeach st₁ rest = .ok (.inl st') →
        inUse (endedEvents st) (now ns st) = some (now ns st') ∧ NameOk st' := by
      intro st₁ h1 e
      have fin : st'.foreachVarStart = [] ∧ st'.foreachName = none := by
        simp only [endForeach] at e
        split at e
        · cases e; exact ⟨rfl, rfl⟩
        · split at e
          · rename_i hs
            cases e; exact ⟨hs, rfl⟩
          · cases e
      have e1 : now ns st' = during ns 0 false := by simp [now, fin.1, fin.2]
      rw [e1]
      exact ⟨ended_ok ns _ _, by simp [NameOk, fin.1, fin.2]⟩
    have hwl : st.foreachVar ≠ [] → now ns st (.wordLink (wordNumber st)) = true := by
      intro hne
      refine (hc.item ?_).1
      simp only [St.item]
      cases hv : st.foreachVar with
      | nil => exact absurd hv hne
      | cons a b => rfl
    cases hfs : st.foreachStart with
    | none =>
      rw [hfs] at h
      exact ends st rfl h
    | some s =>
      rw [hfs] at h
      cases hfv : st.foreachVar with
      | nil =>
        rw [hfv] at h
        exact ends st rfl h
      | cons a b =>
        have hne : st.foreachVar ≠ [] := by simp [hfv]
        rw [hfv] at h
        cases b with
        | nil =>
          have := ends { st with foreachVar := [] } rfl h
          exact ⟨use_ok (hwl hne) this.1, this.2⟩
        | cons i is =>
          cases h
          exact ⟨use_ok (hwl hne) rfl, hN⟩

theorem step_inv {sys : Sys} {ctx : Ctx Table} {ns : List Node} {st st' : Render.St Table Table}
    (hI : Render.Inv ctx ns st) (h : Render.step (evaluator sys) ctx st = .ok (.inl st')) : Render.Inv ctx ns st' := by
  have := Render.step_good (E := evaluator sys) (A := True) (.inl trivial) st hI
  rw [h] at this
  exact this.1

/-- Some rounds lead from one state to another. -/
inductive Reached (E : Evaluator Table Table) (ctx : Ctx Table) : Render.St Table Table → Render.St Table Table → Prop
  | refl : Reached E ctx st st
  | step : Render.step E ctx st = .ok (.inl st₁) → Reached E ctx st₁ st₂ → Reached E ctx st st₂

section
variable {st₁ : Render.St Table Table} {rest : List Node} {r : Str}

theorem nr_next : next st₁ rest ≠ .ok (.inr r) := fun h => nomatch h

theorem nr_ub : (.ub : Run (Render.St Table Table ⊕ Str)) ≠ .ok (.inr r) := fun h => nomatch h

theorem nr_skip {k : NodeType} : skip k st₁ rest ≠ .ok (.inr r) := by
  simp only [skip]
  split
  · exact nr_next
  · exact nr_ub

macro "nr_all" : tactic =>
  `(tactic| ((repeat' split) <;> first | exact nr_ub | exact nr_next | exact nr_skip | exact fun h => nomatch h))

/-- Only at the end of the template there is a result. -/
theorem no_result {E : Evaluator Table Table} {ctx : Ctx Table} {st : Render.St Table Table} {node : Node}
    (ht : st.tmp = node :: rest) : Render.step E ctx st ≠ .ok (.inr r) := by
  simp only [Render.step, ht]
  cases node.type <;> simp only
  case content => exact nr_next
  case block => simp only [block, Render.blockOf, listingEntry, listingBlock]; nr_all
  case «variable» => simp only [variableNode]; nr_all
  case endblock => simp only [endblock]; nr_all
  case ifdef => simp only [ifNode, branch]; nr_all
  case ifndef => simp only [ifNode, branch]; nr_all
  case if_ => simp only [ifNode, branch]; nr_all
  case else_ => simp only [elseNode]; nr_all
  case endif => exact nr_next
  case foreach => simp only [foreachNode]; nr_all
  case endforeach => simp only [endforeachNode, endForeach]; nr_all

end

/-- The end of the rendering: the text has become the page. -/
def after (ns : List Node) (st : Render.St Table Table) : InUse := put (put (now ns st) .text false) .page true

theorem rounds_ok {sys : Sys} {ctx : Ctx Table} {ns : List Node} : ∀ (fuel : Nat) (st : Render.St Table Table) (out : Str),
    Render.Inv ctx ns st → NameOk st → runL (Render.step (evaluator sys) ctx) fuel st = .ok out →
    ∃ st', inUse (roundsEvents sys ctx ns.length fuel st) (now ns st) = some (after ns st') ∧
      NameOk st' ∧ Reached (evaluator sys) ctx st st' ∧ st'.tmp = [] := by
  intro fuel
  induction fuel with
  | zero => intro st out _ _ h; cases h
  | succ fuel ih =>
    intro st out hI hN h
    rw [runL] at h
    cases ht : st.tmp with
    | nil =>
      refine ⟨st, ?_, hN, .refl, ht⟩
      simp only [roundsEvents, ht]
      exact use_ok rfl (release_ok rfl (acquire_ok rfl rfl))
    | cons node rest =>
      cases hs : Render.step (evaluator sys) ctx st with
      | ub => rw [hs] at h; cases h
      | out => rw [hs] at h; cases h
      | ok x =>
        rw [hs] at h
        cases x with
        | inr r =>
          exfalso
          exact no_result ht hs
        | inl st₁ =>
          have h1 := round_ok hI hN ht hs
          have hI1 := step_inv hI hs
          obtain ⟨st', h2, h3, h4, h5⟩ := ih st₁ out hI1 h1.2 h
          refine ⟨st', ?_, h3, .step hs h4, h5⟩
          simp only [roundsEvents, ht, hs]
          have hlen := hI.tmp.length_le
          rw [ht, List.length_cons] at hlen
          refine then_ok (then_ok (visited_ok (has_during ns _ _) ?_ ?_) (ht ▸ h1.1)) h2
          · simp only [List.length_cons]; omega
          · omega

end Blogc.TmplMem
