import Verif.Lemmas.RenderSem

/-!
# The flat renderer computes `Leaky.sem`
-/

namespace Blogc.Render

open Blogc Blogc.Template Blogc.Doc

variable {G L : Type}

/-- What `Leaky.sem` keeps of the state. -/
def lenv (st : St G L) : Leaky.Env G L := ⟨⟨st.entries, st.global⟩, st.insideBlock, st.tmpSource⟩

/-- The listing and the flag for `else` are as before. `b`: inside a block. -/
structure FrameL (ctx : Ctx L) (b : Bool) (st st' : St G L) : Prop where
  listing : st'.listingStart = st.listingStart
  source : b = true ∨ ctx.listing = true → st'.currentSource = st.currentSource
  valid : st.validElse = false → st'.validElse = false

/-- The iterator is as before. -/
structure FrameF (st st' : St G L) : Prop where
  name : st'.foreachName = st.foreachName
  var : st'.foreachVar = st.foreachVar
  varStart : st'.foreachVarStart = st.foreachVarStart
  start : st'.foreachStart = st.foreachStart

theorem FrameL.trans {ctx : Ctx L} {b : Bool} {a c d : St G L} (h : FrameL ctx b a c) (h' : FrameL ctx b c d) :
    FrameL ctx b a d :=
  ⟨h'.1.trans h.1, fun x => (h'.2 x).trans (h.2 x), fun x => h'.3 (h.3 x)⟩

theorem FrameF.trans {a c d : St G L} (h : FrameF a c) (h' : FrameF c d) : FrameF a d :=
  ⟨h'.1.trans h.1, h'.2.trans h.2, h'.3.trans h.3, h'.4.trans h.4⟩

theorem FrameF.item {a c : St G L} (h : FrameF a c) : c.item = a.item := by
  simp only [St.item, h.name, h.var]

/-- No iterator. -/
structure NoIter (st : St G L) : Prop where
  name : st.foreachName = none
  var : st.foreachVar = []
  varStart : st.foreachVarStart = []
  start : st.foreachStart = none

/-- What holds where a template of the given kind begins. -/
structure Pre (ctx : Ctx L) (b f : Bool) (st : St G L) : Prop where
  iter : f = false → NoIter st
  listing : b = false → st.listingStart = none
  source : b = false → ctx.listing = true → st.currentSource = []

theorem Pre.keep {ctx : Ctx L} {b f : Bool} {st st' : St G L} (h : Pre ctx b f st) (hl : FrameL ctx b st st')
    (hf : FrameF st st') : Pre ctx b f st' := by
  refine ⟨fun e => ?_, fun e => by rw [hl.1]; exact h.2 e, fun e e' => by rw [hl.2 (.inr e')]; exact h.3 e e'⟩
  obtain ⟨a1, a2, a3, a4⟩ := h.1 e
  exact ⟨hf.1.trans a1, hf.2.trans a2, hf.3.trans a3, hf.4.trans a4⟩

/-- From `st` the renderer comes to the nodes `k`, having added `o`. -/
def Ends (E : Evaluator G L) (ctx : Ctx L) (b : Bool) (st : St G L) (k : List Node) (o : Str)
    (e : Leaky.Env G L) : Prop :=
  ∃ st', Steps E ctx st st' ∧ st'.tmp = k ∧ st'.out = st.out ++ o ∧ lenv st' = e ∧ FrameL ctx b st st' ∧ FrameF st st'

section
variable {E : Evaluator G L} {ctx : Ctx L} {b : Bool}

theorem Ends.here {st : St G L} {k : List Node} (h : st.tmp = k) : Ends E ctx b st k [] (lenv st) :=
  ⟨st, .refl st, h, by simp, rfl, ⟨rfl, fun _ => rfl, id⟩, ⟨rfl, rfl, rfl, rfl⟩⟩

theorem Ends.seq {st : St G L} {k k' : List Node} {o o' : Str} {e e' : Leaky.Env G L}
    (h : Ends E ctx b st k o e)
    (h' : ∀ st1, st1.tmp = k → lenv st1 = e → FrameL ctx b st st1 → FrameF st st1 → Ends E ctx b st1 k' o' e') :
    Ends E ctx b st k' (o ++ o') e' := by
  obtain ⟨st1, h1, h2, h3, h4, h5, h6⟩ := h
  obtain ⟨st2, g1, g2, g3, g4, g5, g6⟩ := h' st1 h2 h4 h5 h6
  exact ⟨st2, h1.trans g1, g2, by rw [g3, h3, List.append_assoc], g4, h5.trans g5, h6.trans g6⟩

/-- One round first. -/
theorem Ends.cons {st st1 : St G L} {k : List Node} {o o' : Str} {e : Leaky.Env G L}
    (hs : step E ctx st = .ok (.inl st1)) (ho : st1.out = st.out ++ o) (hl : FrameL ctx b st st1)
    (hf : FrameF st st1) (h : Ends E ctx b st1 k o' e) : Ends E ctx b st k (o ++ o') e := by
  obtain ⟨st2, g1, g2, g3, g4, g5, g6⟩ := h
  exact ⟨st2, .step hs g1, g2, by rw [g3, ho, List.append_assoc], g4, hl.trans g5, hf.trans g6⟩

theorem Ends.one {st st1 : St G L} {k : List Node} {o : Str} (hs : step E ctx st = .ok (.inl st1))
    (hk : st1.tmp = k) (ho : st1.out = st.out ++ o) (hl : FrameL ctx b st st1) (hf : FrameF st st1) :
    Ends E ctx b st k o (lenv st1) := by
  have := Ends.cons hs ho hl hf (Ends.here (b := b) hk)
  rwa [List.append_nil] at this

theorem step_content {st : St G L} {s : Str} {k : List Node}
    (h : st.tmp = ⟨.content, .none, some s, none⟩ :: k) :
    step E ctx st = .ok (.inl { st with out := st.out ++ s, tmp := k }) := by
  simp only [step, h]; rfl

theorem step_var {st : St G L} {n : Str} {k : List Node} {g : G} {v : Option Str}
    (h : st.tmp = ⟨.variable, .none, some n, none⟩ :: k)
    (hv : E.value st.global st.local st.item n = .ok (g, v)) :
    step E ctx st = .ok (.inl { st with global := g, out := st.out ++ v.getD [], tmp := k }) := by
  simp only [step, h, variableNode, valueOf, hv]; rfl

theorem step_if {st : St G L} {c : Cond} {k : List Node} {g : G} {v : Bool}
    (h : st.tmp = c.node :: k) (hv : condition E st c.node = .ok (g, v)) :
    step E ctx st = branch { st with global := g, ifCount := 0 } k v := by
  have : step E ctx st = ifNode E st c.node k := by
    simp only [step, h]
    cases c <;> rfl
  rw [this, ifNode, hv]

theorem step_endif {st : St G L} {k : List Node} (h : st.tmp = mark .endif :: k) :
    step E ctx st = .ok (.inl { st with validElse := false, ifCount := st.ifCount - 1, tmp := k }) := by
  simp only [step, h]; rfl

theorem step_else {st : St G L} {t : T} {k : List Node} (h : st.tmp = mark .else_ :: (nodes t ++ mark .endif :: k))
    (hv : st.validElse = false) :
    step E ctx st = .ok (.inl { st with ifCount := 0, validElse := false, tmp := k }) := by
  have : step E ctx st = elseNode st (nodes t ++ mark .endif :: k) := by simp only [step, h]; rfl
  rw [this, elseNode, hv, skipIf_endif]
  rfl

/-- The conditional taken. -/
theorem ends_yes {st : St G L} {c : Cond} {g : G} {k k' : List Node} {o : Str} {e : Leaky.Env G L}
    (h : st.tmp = c.node :: k) (hv : condition E st c.node = .ok (g, true))
    (h' : Ends E ctx b { st with global := g, ifCount := 0, validElse := false, tmp := k } k' o e) :
    Ends E ctx b st k' o e := by
  have hs := (step_if (ctx := ctx) h hv).trans (by simp only [branch, if_true]; rfl :
    _ = Run.ok (.inl { st with global := g, ifCount := 0, validElse := false, tmp := k }))
  have := Ends.cons (o := []) hs (by simp) ⟨rfl, fun _ => rfl, fun _ => rfl⟩ ⟨rfl, rfl, rfl, rfl⟩ h'
  simpa using this

/-- Past the end of a conditional. -/
theorem ends_endif {st : St G L} {k k' : List Node} {o : Str} {e : Leaky.Env G L}
    (h : Ends E ctx b st (mark .endif :: k) o e)
    (h' : ∀ st1, st1.tmp = k → lenv st1 = e → FrameL ctx b st st1 → FrameF st st1 → Ends E ctx b st1 k' o' e') :
    Ends E ctx b st k' (o ++ o') e' := by
  refine Ends.seq h fun st1 h1 h2 h3 h4 => ?_
  have hs := step_endif (E := E) (ctx := ctx) h1
  have := Ends.cons (o := []) hs (by simp) (b := b) ⟨rfl, fun _ => rfl, fun _ => rfl⟩ ⟨rfl, rfl, rfl, rfl⟩
    (h' { st1 with validElse := false, ifCount := st1.ifCount - 1, tmp := k } rfl h2
      (h3.trans ⟨rfl, fun _ => rfl, fun _ => rfl⟩) (h4.trans ⟨rfl, rfl, rfl, rfl⟩))
  simpa using this

end

/-- What is to be shown of a template. -/
def Sim (E : Evaluator G L) (ctx : Ctx L) (t : T) : Prop :=
  ∀ (b f : Bool) (st : St G L) (k : List Node) (o : Str) (e : Leaky.Env G L), Ok b f t → Pre ctx b f st →
    st.tmp = nodes t ++ k → Leaky.sem E ctx t st.item (lenv st) = .ok (o, e) → Ends E ctx b st k o e

section
variable {E : Evaluator G L} {ctx : Ctx L}

theorem sim_text {s : Str} {rest : T} (ih : Sim E ctx rest) : Sim E ctx (.text s rest) := by
  intro b f st k o e hok hpre ht hsem
  obtain ⟨o1, s1, o2, h1, h2, rfl⟩ := seq_ok hsem
  injection h1 with h1
  injection h1 with h1 h3
  subst h1 h3
  exact Ends.cons (step_content ht) rfl ⟨rfl, fun _ => rfl, id⟩ ⟨rfl, rfl, rfl, rfl⟩
    (ih b f _ k o2 e hok (hpre.keep ⟨rfl, fun _ => rfl, id⟩ ⟨rfl, rfl, rfl, rfl⟩) rfl h2)

theorem sim_var {n : Str} {rest : T} (ih : Sim E ctx rest) : Sim E ctx (.var n rest) := by
  intro b f st k o e hok hpre ht hsem
  obtain ⟨o1, s1, o2, h1, h2, rfl⟩ := seq_ok hsem
  obtain ⟨⟨v, e1⟩, h3, h4⟩ := map_ok h1
  obtain ⟨⟨g, w⟩, h5, h6⟩ := map_ok h3
  injection h4 with h4 h7
  injection h6 with h6 h8
  subst h4 h7 h6 h8
  exact Ends.cons (step_var ht h5) rfl ⟨rfl, fun _ => rfl, id⟩ ⟨rfl, rfl, rfl, rfl⟩
    (ih b f _ k o2 e hok.2 (hpre.keep ⟨rfl, fun _ => rfl, id⟩ ⟨rfl, rfl, rfl, rfl⟩) rfl h2)

theorem sim_cond {c : Cond} {yes rest : T} (ih1 : Sim E ctx yes) (ih2 : Sim E ctx rest) :
    Sim E ctx (.cond c yes rest) := by
  intro b f st k o e hok hpre ht hsem
  obtain ⟨o1, s1, o2, h1, h2, rfl⟩ := seq_ok hsem
  obtain ⟨⟨v, e1⟩, h3, h4⟩ := bind_ok' h1
  obtain ⟨hc, he⟩ := condition_eq hok.1 h3
  simp only [nodes, List.cons_append, List.append_assoc] at ht
  have henv : ({ lenv st with env := e1 } : Leaky.Env G L) = lenv { st with global := e1.global } := by
    simp only [lenv, ← he]
  cases v with
  | true =>
    simp only [if_true] at h4
    rw [henv] at h4
    have hy := ih1 b f { st with global := e1.global, ifCount := 0, validElse := false, tmp := _ }
      (mark .endif :: (nodes rest ++ k)) o1 s1 hok.2.1
      (hpre.keep ⟨rfl, fun _ => rfl, fun _ => rfl⟩ ⟨rfl, rfl, rfl, rfl⟩) rfl h4
    refine ends_endif (ends_yes ht hc hy) fun st1 g1 g2 g3 g4 => ?_
    refine ih2 b f st1 k o2 e hok.2.2 (hpre.keep g3 g4) g1 ?_
    rw [g4.item, g2]; exact h2
  | false =>
    simp only [Bool.false_eq_true, if_false, Res.ok.injEq, Prod.mk.injEq] at h4
    obtain ⟨rfl, rfl⟩ := h4
    have hs : step E ctx st = .ok (.inl { st with global := e1.global, ifCount := 0, tmp := nodes rest ++ k }) := by
      rw [step_if ht hc, branch, skipIf_endif]; rfl
    refine Ends.cons hs (by simp) ⟨rfl, fun _ => rfl, id⟩ ⟨rfl, rfl, rfl, rfl⟩
      (ih2 b f _ k o2 e hok.2.2 (hpre.keep ⟨rfl, fun _ => rfl, id⟩ ⟨rfl, rfl, rfl, rfl⟩) rfl ?_)
    rw [henv] at h2
    exact h2

theorem sim_condElse {c : Cond} {yes no rest : T} (ih1 : Sim E ctx yes) (ih2 : Sim E ctx no)
    (ih3 : Sim E ctx rest) : Sim E ctx (.condElse c yes no rest) := by
  intro b f st k o e hok hpre ht hsem
  obtain ⟨o1, s1, o2, h1, h2, rfl⟩ := seq_ok hsem
  obtain ⟨⟨v, e1⟩, h3, h4⟩ := bind_ok' h1
  obtain ⟨hc, he⟩ := condition_eq hok.1 h3
  simp only [nodes, List.cons_append, List.append_assoc] at ht
  have henv : ({ lenv st with env := e1 } : Leaky.Env G L) = lenv { st with global := e1.global } := by
    simp only [lenv, ← he]
  have hrest : ∀ st1, st1.tmp = nodes rest ++ k → lenv st1 = s1 → FrameL ctx b st st1 → FrameF st st1 →
      Ends E ctx b st1 k o2 e := by
    intro st1 g1 g2 g3 g4
    refine ih3 b f st1 k o2 e hok.2.2.2 (hpre.keep g3 g4) g1 ?_
    rw [g4.item, g2]; exact h2
  cases v with
  | true =>
    simp only [if_true] at h4
    rw [henv] at h4
    obtain ⟨st1, g1, g2, g3, g4, g5, g6⟩ := ih1 b f
      { st with global := e1.global, ifCount := 0, validElse := false, tmp := _ }
      (mark .else_ :: (nodes no ++ mark .endif :: (nodes rest ++ k))) o1 s1 hok.2.1
      (hpre.keep ⟨rfl, fun _ => rfl, fun _ => rfl⟩ ⟨rfl, rfl, rfl, rfl⟩) rfl h4
    have hs := step_else (E := E) (ctx := ctx) g2 (g5.valid rfl)
    have hy : Ends E ctx b { st with global := e1.global, ifCount := 0, validElse := false, tmp := _ }
        (nodes rest ++ k) o1 s1 :=
      ⟨{ st1 with ifCount := 0, validElse := false, tmp := nodes rest ++ k }, g1.trans (.step hs (.refl _)), rfl,
        g3, g4, g5.trans ⟨rfl, fun _ => rfl, fun _ => rfl⟩, g6.trans ⟨rfl, rfl, rfl, rfl⟩⟩
    exact Ends.seq (ends_yes ht hc hy) hrest
  | false =>
    simp only [Bool.false_eq_true, if_false] at h4
    rw [henv] at h4
    have hs : step E ctx st = .ok (.inl { st with
        global := e1.global, ifCount := 0, validElse := true, tmp := nodes no ++ mark .endif :: (nodes rest ++ k) }) := by
      rw [step_if ht hc, branch, skipIf_else]; rfl
    obtain ⟨st1, g1, g2, g3, g4, g5, g6⟩ := ih2 b f
      { st with global := e1.global, ifCount := 0, validElse := true, tmp := _ }
      (mark .endif :: (nodes rest ++ k)) o1 s1 hok.2.2.1
      (by
        refine ⟨fun h => ?_, hpre.2, hpre.3⟩
        obtain ⟨a1, a2, a3, a4⟩ := hpre.1 h
        exact ⟨a1, a2, a3, a4⟩) rfl h4
    have he := step_endif (E := E) (ctx := ctx) g2
    have hn : Ends E ctx b st (nodes rest ++ k) o1 s1 :=
      ⟨{ st1 with validElse := false, ifCount := st1.ifCount - 1, tmp := nodes rest ++ k },
        .step hs (g1.trans (.step he (.refl _))), rfl, g3, g4,
        ⟨g5.listing, g5.source, fun _ => rfl⟩, ⟨g6.1, g6.2, g6.3, g6.4⟩⟩
    exact Ends.seq hn hrest

/-- The rounds of an iterator. -/
theorem sim_items {n : Str} {body : T} (ih : Sim E ctx body) {b : Bool} (hok : Ok b true body) (K : List Node)
    (i : Str) (is : List Str) (st : St G L) (o : Str) (e : Leaky.Env G L)
    (hpre : Pre ctx b true st) (ht : st.tmp = nodes body ++ mark .endforeach :: K)
    (hn : st.foreachName = some n) (hv : st.foreachVar = i :: is) (hvs : st.foreachVarStart ≠ [])
    (hst : st.foreachStart = some (⟨.foreach, .none, some n, none⟩ :: (nodes body ++ mark .endforeach :: K)))
    (hsem : each (fun i => Leaky.sem E ctx body ⟨some n, some i⟩) (i :: is) (lenv st) = .ok (o, e)) :
    ∃ st', Steps E ctx st st' ∧ st'.tmp = K ∧ st'.out = st.out ++ o ∧ lenv st' = e ∧ FrameL ctx b st st' ∧
      NoIter st' := by
  induction is generalizing i st o e with
  | nil =>
    obtain ⟨o1, s1, o2, h1, h2, rfl⟩ := seq_ok hsem
    injection h2 with h2
    injection h2 with h2 h3
    subst h2 h3
    have hitem : st.item = ⟨some n, some i⟩ := by simp only [St.item, hn, hv, List.head?_cons]
    obtain ⟨st1, g1, g2, g3, g4, g5, g6⟩ := ih b true st _ o1 s1 hok hpre ht (by rw [hitem]; exact h1)
    have hs : step E ctx st1 = .ok (.inl { st1 with
        foreachVar := [], foreachStart := none, foreachVarStart := [], foreachName := none, tmp := K }) := by
      simp only [step, g2]
      show endforeachNode st1 K = _
      rw [endforeachNode, g6.start, g6.var, hst, hv]
      rfl
    exact ⟨_, g1.trans (.step hs (.refl _)), rfl, by simpa using g3, g4, g5.trans ⟨rfl, fun _ => rfl, id⟩,
      ⟨rfl, rfl, rfl, rfl⟩⟩
  | cons j js ihl =>
    obtain ⟨o1, s1, o2, h1, h2, rfl⟩ := seq_ok hsem
    have hitem : st.item = ⟨some n, some i⟩ := by simp only [St.item, hn, hv, List.head?_cons]
    obtain ⟨st1, g1, g2, g3, g4, g5, g6⟩ := ih b true st _ o1 s1 hok hpre ht (by rw [hitem]; exact h1)
    have hs : step E ctx st1 = .ok (.inl { st1 with
        foreachVar := j :: js, tmp := ⟨.foreach, .none, some n, none⟩ :: (nodes body ++ mark .endforeach :: K) }) := by
      simp only [step, g2]
      show endforeachNode st1 K = _
      rw [endforeachNode, g6.start, g6.var, hst, hv]
    have hs2 : step E ctx { st1 with
        foreachVar := j :: js, tmp := ⟨.foreach, .none, some n, none⟩ :: (nodes body ++ mark .endforeach :: K) } =
        .ok (.inl { st1 with foreachVar := j :: js, tmp := nodes body ++ mark .endforeach :: K }) := by
      simp only [step]
      rw [foreachNode]
      simp only [g6.varStart]
      cases hvs' : st.foreachVarStart with
      | nil => exact absurd hvs' hvs
      | cons x xs => rfl
    obtain ⟨st2, k1, k2, k3, k4, k5, k6⟩ := ihl j
      { st1 with foreachVar := j :: js, tmp := nodes body ++ mark .endforeach :: K } o2 e
      ⟨fun h => (nomatch h), fun h => by rw [show _ = st1.listingStart from rfl, g5.1]; exact hpre.2 h,
        fun h h' => by rw [show _ = st1.currentSource from rfl, g5.2 (.inr h')]; exact hpre.3 h h'⟩
      rfl (g6.name.trans hn) rfl (by rw [show _ = st1.foreachVarStart from rfl, g6.varStart]; exact hvs)
      (g6.start.trans hst) (by rw [← g4] at h2; exact h2)
    refine ⟨st2, g1.trans (.step hs (.step hs2 k1)), k2, ?_, k4, ?_, k6⟩
    · rw [k3, show _ = st1.out from rfl, g3, List.append_assoc]
    · exact g5.trans ⟨k5.1, k5.2, k5.3⟩

theorem sim_foreach {n : Str} {body rest : T} (ih1 : Sim E ctx body) (ih2 : Sim E ctx rest) :
    Sim E ctx (.foreach n body rest) := by
  intro b f st k o e hok hpre ht hsem
  obtain ⟨o1, s1, o2, h1, h2, rfl⟩ := seq_ok hsem
  obtain ⟨_, hf, hbody, hrest⟩ := hok
  subst hf
  obtain ⟨q1, q2, q3, q4⟩ := hpre.iter rfl
  simp only [nodes, List.cons_append, List.append_assoc] at ht
  have hstep : step E ctx st = foreachNode E st ⟨.foreach, .none, some n, none⟩
      (nodes body ++ mark .endforeach :: (nodes rest ++ k)) := by simp only [step, ht]
  rw [foreachNode, q3] at hstep
  simp only [listOf] at hstep
  cases hl : E.list st.global st.local n with
  | nil =>
    rw [show E.list (lenv st).env.global (lenv st).loc n = [] from hl] at h1
    injection h1 with h1
    injection h1 with h1 h3
    subst h1 h3
    rw [hl] at hstep
    simp only [skip, skipTo_nodes _ _ _ (no_endforeach hbody), next] at hstep
    exact Ends.cons hstep (by simp) ⟨rfl, fun _ => rfl, id⟩ ⟨rfl, rfl, rfl, rfl⟩
      (ih2 b false _ k o2 e hrest (hpre.keep ⟨rfl, fun _ => rfl, id⟩ ⟨rfl, rfl, rfl, rfl⟩) rfl h2)
  | cons i is =>
    rw [show E.list (lenv st).env.global (lenv st).loc n = i :: is from hl] at h1
    rw [hl] at hstep
    simp only [next] at hstep
    obtain ⟨st1, g1, g2, g3, g4, g5, g6⟩ := sim_items ih1 hbody (nodes rest ++ k) i is
      { st with
        foreachVarStart := i :: is, foreachName := some n, foreachVar := i :: is
        foreachStart := some st.tmp, tmp := nodes body ++ mark .endforeach :: (nodes rest ++ k) } o1 s1
      ⟨fun h => (nomatch h), hpre.2, hpre.3⟩ rfl rfl rfl (by simp) (by rw [ht]) h1
    have hm : Ends E ctx b st (nodes rest ++ k) o1 s1 :=
      ⟨st1, .step hstep g1, g2, g3, g4, ⟨g5.1, g5.2, g5.3⟩,
        ⟨g6.1.trans q1.symm, g6.2.trans q2.symm, g6.3.trans q3.symm, g6.4.trans q4.symm⟩⟩
    refine Ends.seq hm fun st2 r1 r2 r3 r4 => ?_
    refine ih2 b false st2 k o2 e hrest (hpre.keep r3 r4) r1 ?_
    rw [r4.item, r2]; exact h2

theorem step_endblock {st : St G L} {k : List Node} (h : st.tmp = mark .endblock :: k) (hl : st.listingStart = none) :
    step E ctx st = .ok (.inl { st with insideBlock := false, tmp := k }) := by
  simp only [step, h]
  show endblock st k = _
  rw [endblock, hl]
  rfl

/-- A block included once. -/
theorem sim_once {body : T} (ih : Sim E ctx body) {f : Bool} (hok : Ok true f body) (K : List Node) (st : St G L)
    (kind : Str) (l : Option L) (s : Leaky.Env G L) (o : Str) (e : Leaky.Env G L)
    (hpre : Pre ctx true f st) (hls : st.listingStart = none) (ht : st.tmp = nodes body ++ mark .endblock :: K)
    (hs : lenv st = s.enter kind l)
    (hsem : each (fun l s => (Leaky.sem E ctx body st.item (s.enter kind l)).map fun (o, s) => (o, s.leave)) [l] s =
      .ok (o, e)) :
    Ends E ctx true st K o e := by
  obtain ⟨o1, s1, o2, h1, h2, rfl⟩ := seq_ok hsem
  injection h2 with h2
  injection h2 with h2 h3
  subst h2 h3
  obtain ⟨⟨o3, s3⟩, h4, h5⟩ := map_ok h1
  injection h5 with h5 h6
  subst h5 h6
  rw [← hs] at h4
  refine Ends.seq (ih true f st _ o3 s3 hok hpre ht h4) fun st1 g1 g2 g3 g4 => ?_
  have := Ends.one (E := E) (ctx := ctx) (b := true) (o := []) (step_endblock g1 (g3.1.trans hls)) rfl (by simp)
    ⟨rfl, fun _ => rfl, id⟩ ⟨rfl, rfl, rfl, rfl⟩
  rw [← g2]
  exact this

/-- The rounds of a listing. -/
theorem sim_sources {body : T} (ih : Sim E ctx body) {f : Bool} (hok : Ok true f body) (hlist : ctx.listing = true)
    (hsrc : ctx.sources ≠ []) (K : List Node)
    (c : L) (cs : List L) (st : St G L) (s : Leaky.Env G L) (o : Str) (e : Leaky.Env G L)
    (hpre : Pre ctx true f st) (ht : st.tmp = nodes body ++ mark .endblock :: K) (hc : st.currentSource = c :: cs)
    (hst : st.listingStart = some (⟨.block, .none, some b!"listing", none⟩ :: (nodes body ++ mark .endblock :: K)))
    (hs : lenv st = s.enter b!"listing" (some c))
    (hsem : each (fun l s => (Leaky.sem E ctx body st.item (s.enter b!"listing" l)).map fun (o, s) => (o, s.leave))
      ((c :: cs).map some) s = .ok (o, e)) :
    ∃ st', Steps E ctx st st' ∧ st'.tmp = K ∧ st'.out = st.out ++ o ∧ lenv st' = e ∧ FrameF st st' ∧
      st'.listingStart = none ∧ st'.currentSource = [] ∧ (st.validElse = false → st'.validElse = false) := by
  induction cs generalizing c st s o e with
  | nil =>
    obtain ⟨o1, s1, o2, h1, h2, rfl⟩ := seq_ok hsem
    injection h2 with h2
    injection h2 with h2 h3
    subst h2 h3
    obtain ⟨⟨o3, s3⟩, h4, h5⟩ := map_ok h1
    injection h5 with h5 h6
    subst h5 h6
    rw [← hs] at h4
    obtain ⟨st1, g1, g2, g3, g4, g5, g6⟩ := ih true f st _ o3 s3 hok hpre ht h4
    have hstep : step E ctx st1 = .ok (.inl { st1 with
        insideBlock := false, currentSource := [], listingStart := none, tmp := K }) := by
      simp only [step, g2]
      show endblock st1 K = _
      rw [endblock, g5.1, hst, g5.2 (.inl rfl), hc]
      rfl
    refine ⟨_, g1.trans (.step hstep (.refl _)), rfl, by simpa using g3, ?_, ⟨g6.1, g6.2, g6.3, g6.4⟩, rfl, rfl, g5.3⟩
    rw [← g4]; rfl
  | cons d ds ihl =>
    obtain ⟨o1, s1, o2, h1, h2, rfl⟩ := seq_ok hsem
    obtain ⟨⟨o3, s3⟩, h4, h5⟩ := map_ok h1
    injection h5 with h5 h6
    subst h5 h6
    rw [← hs] at h4
    obtain ⟨st1, g1, g2, g3, g4, g5, g6⟩ := ih true f st _ o3 s3 hok hpre ht h4
    have hstep : step E ctx st1 = .ok (.inl { st1 with
        insideBlock := false, currentSource := d :: ds
        tmp := ⟨.block, .none, some b!"listing", none⟩ :: (nodes body ++ mark .endblock :: K) }) := by
      simp only [step, g2]
      show endblock st1 K = _
      rw [endblock, g5.1, hst, g5.2 (.inl rfl), hc]
    have hstep2 : step E ctx { st1 with
        insideBlock := false, currentSource := d :: ds
        tmp := ⟨.block, .none, some b!"listing", none⟩ :: (nodes body ++ mark .endblock :: K) } =
        .ok (.inl { st1 with
          insideBlock := true, ifCount := 0, currentSource := d :: ds, tmpSource := some d
          tmp := nodes body ++ mark .endblock :: K }) := by
      simp only [step, block, blockOf]
      rw [if_neg (by decide), if_neg (by decide), if_pos (by decide), if_neg (by rw [hlist]; decide),
        if_neg (by decide), if_pos trivial, listingBlock]
      cases hx : ctx.sources with
      | nil => exact absurd hx hsrc
      | cons y ys => rfl
    have hitem : ({ st1 with
        insideBlock := true, ifCount := 0, currentSource := d :: ds, tmpSource := some d
        tmp := nodes body ++ mark .endblock :: K } : St G L).item = st.item := g6.item
    obtain ⟨st2, k1, k2, k3, k4, k5, k6, k7, k8⟩ := ihl d { st1 with
        insideBlock := true, ifCount := 0, currentSource := d :: ds, tmpSource := some d
        tmp := nodes body ++ mark .endblock :: K } s3.leave o2 e
      ⟨fun h => by
          obtain ⟨a1, a2, a3, a4⟩ := hpre.1 h
          exact ⟨g6.1.trans a1, g6.2.trans a2, g6.3.trans a3, g6.4.trans a4⟩,
        fun h => (nomatch h), fun h => (nomatch h)⟩
      rfl rfl (g5.1.trans hst) (by rw [← g4]; rfl) (by rw [hitem]; exact h2)
    refine ⟨st2, g1.trans (.step hstep (.step hstep2 k1)), k2, ?_, k4, g6.trans ⟨k5.1, k5.2, k5.3, k5.4⟩, k6, k7,
      fun h => k8 (g5.3 h)⟩
    rw [k3, show _ = st1.out from rfl, g3, List.append_assoc]

theorem skip_block {body : T} {f : Bool} (hok : Ok true f body) (st : St G L) (K : List Node) :
    skip .endblock st (nodes body ++ mark .endblock :: K) = .ok (.inl { st with tmp := K }) := by
  simp only [skip, skipTo_nodes _ _ _ (no_endblock hok), next]

/-- A block left out. -/
theorem ends_skipped {st : St G L} {K : List Node} {es : List (Option L)} {k : Str}
    (hstep : step E ctx st = .ok (.inl { st with insideBlock := true, ifCount := 0, entries := es, tmp := K }))
    {o : Str} {e : Leaky.Env G L} {g : Option L → Leaky.Env G L → Res (Str × Leaky.Env G L)}
    (hsem : each g [] { lenv st with env := { (lenv st).env with entries := es }, inside := true } = .ok (o, e)) :
    Ends E ctx false st K o e := by
  injection hsem with hsem
  injection hsem with h1 h2
  subst h1 h2
  exact Ends.one hstep rfl (by simp) ⟨rfl, fun _ => rfl, id⟩ ⟨rfl, rfl, rfl, rfl⟩

/-- A block included once. -/
theorem ends_once {body : T} (ih : Sim E ctx body) {f : Bool} (hok : Ok true f body) {st : St G L} {K : List Node}
    (hpre : Pre ctx false f st) {es : List (Option L)} {cur : List L} {l last : Option L} {k : Str}
    (hcur : ctx.listing = true → cur = st.currentSource)
    (hlast : last = if k = b!"listing_once" ∨ k = b!"listing_empty" then st.tmpSource else l)
    (hstep : step E ctx st = .ok (.inl { st with
      insideBlock := true, ifCount := 0, entries := es, currentSource := cur, tmpSource := last
      tmp := nodes body ++ mark .endblock :: K }))
    {o : Str} {e : Leaky.Env G L}
    (hsem : each (fun l s => (Leaky.sem E ctx body st.item (s.enter k l)).map fun (o, s) => (o, s.leave)) [l]
      { lenv st with env := { (lenv st).env with entries := es }, inside := true } = .ok (o, e)) :
    Ends E ctx false st K o e := by
  obtain ⟨st1, g1, g2, g3, g4, g5, g6⟩ := sim_once ih hok K { st with
      insideBlock := true, ifCount := 0, entries := es, currentSource := cur, tmpSource := last
      tmp := nodes body ++ mark .endblock :: K } k l
    { lenv st with env := { (lenv st).env with entries := es }, inside := true } o e
    ⟨fun h => by
        obtain ⟨a1, a2, a3, a4⟩ := hpre.1 h
        exact ⟨a1, a2, a3, a4⟩, fun h => (nomatch h), fun h => (nomatch h)⟩
    (hpre.2 rfl) rfl (by simp only [lenv, Leaky.Env.enter, hlast]) hsem
  refine ⟨st1, .step hstep g1, g2, g3, g4, ⟨g5.1, fun h => ?_, g5.3⟩, ⟨g6.1, g6.2, g6.3, g6.4⟩⟩
  rw [g5.2 (.inl rfl)]
  exact hcur (by simpa using h)

theorem ends_listing {body : T} (ih : Sim E ctx body) {f : Bool} (hok : Ok true f body) {st : St G L} {K : List Node}
    (hpre : Pre ctx false f st) (hlist : ctx.listing = true)
    (ht : st.tmp = ⟨.block, .none, some b!"listing", none⟩ :: (nodes body ++ mark .endblock :: K))
    (hstep : step E ctx st =
      listingBlock ctx { st with insideBlock := true, ifCount := 0 } (nodes body ++ mark .endblock :: K))
    {o : Str} {e : Leaky.Env G L}
    (hsem : each (fun l s => (Leaky.sem E ctx body st.item (s.enter b!"listing" l)).map fun (o, s) => (o, s.leave))
      (ctx.sources.map some) { lenv st with inside := true } = .ok (o, e)) :
    Ends E ctx false st K o e := by
  have hcur := hpre.3 rfl hlist
  rw [listingBlock] at hstep
  cases hx : ctx.sources with
  | nil =>
    rw [hx] at hstep hsem
    simp only [skip_block hok] at hstep
    exact ends_skipped (k := []) hstep hsem
  | cons c cs =>
    rw [hx] at hstep hsem
    simp only [hcur, next] at hstep
    obtain ⟨st1, g1, g2, g3, g4, g5, g6, g7, g8⟩ := sim_sources ih hok hlist (by rw [hx]; simp) K c cs
      { st with
        insideBlock := true, ifCount := 0, listingStart := some st.tmp, currentSource := c :: cs, tmpSource := some c
        tmp := nodes body ++ mark .endblock :: K } { lenv st with inside := true } o e
      ⟨fun h => by
          obtain ⟨a1, a2, a3, a4⟩ := hpre.1 h
          exact ⟨a1, a2, a3, a4⟩, fun h => (nomatch h), fun h => (nomatch h)⟩
      rfl rfl (by rw [ht]) rfl hsem
    exact ⟨st1, .step hstep g1, g2, g3, g4, ⟨g6.trans (hpre.2 rfl).symm, fun _ => g7.trans hcur.symm, g8⟩,
      ⟨g5.1, g5.2, g5.3, g5.4⟩⟩

theorem ends_block {kind : Str} {body : T} (ih : Sim E ctx body) {f : Bool} (hk : kind ∈ blockTypes)
    (hok : Ok true f body) {st : St G L} {K : List Node} (hpre : Pre ctx false f st)
    (ht : st.tmp = ⟨.block, .none, some kind, none⟩ :: (nodes body ++ mark .endblock :: K))
    {o : Str} {e : Leaky.Env G L}
    (hsem : each (fun l s => (Leaky.sem E ctx body st.item (s.enter kind l)).map fun (o, s) => (o, s.leave))
        (scopes ctx kind st.entries).1
        { lenv st with
          env := { (lenv st).env with entries := (scopes ctx kind st.entries).2 }, inside := true } = .ok (o, e)) :
    Ends E ctx false st K o e := by
  have hstep : step E ctx st =
      blockOf ctx { st with insideBlock := true, ifCount := 0 } (nodes body ++ mark .endblock :: K) kind := by
    simp only [step, ht, block]
  simp only [blockTypes, List.mem_cons, List.not_mem_nil, or_false] at hk
  rcases hk with rfl | rfl | rfl | rfl | rfl
  · rw [blockOf, if_pos rfl] at hstep
    rw [scopes.eq_def, if_pos rfl] at hsem
    cases hl : ctx.listing with
    | true =>
      simp only [hl, if_true, skip_block hok] at hstep hsem
      exact ends_skipped (k := []) hstep hsem
    | false =>
      simp only [hl, Bool.false_eq_true, if_false, next] at hstep hsem
      exact ends_once ih hok hpre (by simp [hl]) (by rw [if_neg (by decide)]) hstep hsem
  · rw [blockOf, if_neg (by decide), if_neg (by decide), if_pos (by decide)] at hstep
    rw [scopes.eq_def, if_neg (by decide), if_pos rfl] at hsem
    cases hl : ctx.listing with
    | true =>
      rw [if_neg (by rw [hl]; decide), if_neg (by decide), if_pos rfl] at hstep
      simp only [hl, if_true] at hsem
      exact ends_listing ih hok hpre hl ht hstep hsem
    | false =>
      rw [if_pos hl, skip_block hok] at hstep
      simp only [hl, Bool.false_eq_true, if_false] at hsem
      exact ends_skipped (k := []) hstep hsem
  · rw [blockOf, if_neg (by decide), if_neg (by decide), if_pos (by decide)] at hstep
    rw [scopes.eq_def, if_neg (by decide), if_neg (by decide), if_pos rfl] at hsem
    cases hl : ctx.listing with
    | true =>
      rw [if_neg (by rw [hl]; decide), if_neg (by decide), if_neg (by decide), next] at hstep
      simp only [hl, if_true] at hsem
      exact ends_once ih hok hpre (fun _ => rfl) (by rw [if_pos (by decide)]) hstep hsem
    | false =>
      rw [if_pos hl, skip_block hok] at hstep
      simp only [hl, Bool.false_eq_true, if_false] at hsem
      exact ends_skipped (k := []) hstep hsem
  · rw [blockOf, if_neg (by decide), if_neg (by decide), if_pos (by decide)] at hstep
    rw [scopes.eq_def, if_neg (by decide), if_neg (by decide), if_neg (by decide), if_pos rfl] at hsem
    cases hl : ctx.listing with
    | true =>
      rw [if_neg (by rw [hl]; decide), if_pos rfl] at hstep
      cases hx : ctx.sources with
      | nil =>
        rw [if_pos (by rw [hx]; rfl), next] at hstep
        simp only [hl, hx, and_self, if_true] at hsem
        exact ends_once ih hok hpre (fun _ => rfl) (by rw [if_pos (by decide)]) hstep hsem
      | cons c cs =>
        rw [if_neg (by rw [hx]; simp), skip_block hok] at hstep
        rw [if_neg (by rw [hx]; simp)] at hsem
        exact ends_skipped (k := []) hstep hsem
    | false =>
      rw [if_pos hl, skip_block hok] at hstep
      rw [if_neg (by rw [hl]; simp)] at hsem
      exact ends_skipped (k := []) hstep hsem
  · rw [blockOf, if_neg (by decide), if_pos rfl, listingEntry] at hstep
    rw [scopes.eq_def, if_neg (by decide), if_neg (by decide), if_neg (by decide), if_neg (by decide)] at hsem
    cases hx : st.entries with
    | nil =>
      simp only [hx, skip_block hok] at hstep hsem
      exact ends_skipped (k := []) hstep hsem
    | cons a es =>
      cases a with
      | none =>
        simp only [hx, skip_block hok] at hstep hsem
        exact ends_skipped (k := []) hstep hsem
      | some l =>
        cases hl : ctx.listing with
        | true =>
          simp only [hx, hl, Bool.true_eq_false, if_false, if_true, next] at hstep hsem
          exact ends_once ih hok hpre (fun _ => (hpre.3 rfl hl).symm) (by rw [if_neg (by decide)]) hstep hsem
        | false =>
          simp only [hx, hl, if_true, Bool.false_eq_true, if_false, skip_block hok] at hstep hsem
          exact ends_skipped (k := []) hstep hsem

theorem sim_block {kind : Str} {body rest : T} (ih1 : Sim E ctx body) (ih2 : Sim E ctx rest) :
    Sim E ctx (.block kind body rest) := by
  intro b f st k o e hok hpre ht hsem
  obtain ⟨o1, s1, o2, h1, h2, rfl⟩ := seq_ok hsem
  obtain ⟨hk, hb, hbody, hrest⟩ := hok
  subst hb
  simp only [nodes, List.cons_append, List.append_assoc] at ht
  refine Ends.seq (ends_block ih1 hk hbody hpre ht h1) fun st2 r1 r2 r3 r4 => ?_
  refine ih2 false f st2 k o2 e hrest (hpre.keep r3 r4) r1 ?_
  rw [r4.item, r2]; exact h2

/-- The renderer does what `Leaky.sem` says. -/
theorem sim (t : T) : Sim E ctx t := by
  induction t with
  | done =>
    intro b f st k o e _ _ ht hsem
    injection hsem with hsem
    injection hsem with h1 h2
    subst h1 h2
    exact Ends.here ht
  | text s rest ih => exact sim_text ih
  | var n rest ih => exact sim_var ih
  | cond c yes rest ih1 ih2 => exact sim_cond ih1 ih2
  | condElse c yes no rest ih1 ih2 ih3 => exact sim_condElse ih1 ih2 ih3
  | foreach n body rest ih1 ih2 => exact sim_foreach ih1 ih2
  | block k body rest ih1 ih2 => exact sim_block ih1 ih2

end

end Blogc.Render
