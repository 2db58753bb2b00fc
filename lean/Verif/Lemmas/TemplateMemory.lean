import Verif.Spec.TemplateAccount
import Verif.Lemmas.Template

/-!
# Lemmas about the memory of the template parser
-/

namespace Blogc.TmplMem

open Blogc Blogc.Template Blogc.Spec.TmplAccount

/-- One thing more, or less, in use. -/
def put (l : InUse) (x : Thing) (b : Bool) : InUse := fun y => if y = x then b else l y

theorem inUse_append (a b : List Event) (l : InUse) : inUse (a ++ b) l = (inUse a l).bind (inUse b) := by
  induction a generalizing l with
  | nil => rfl
  | cons e a ih =>
    show (account l e).bind (inUse (a ++ b)) = ((account l e).bind (inUse a)).bind (inUse b)
    cases account l e with
    | none => rfl
    | some l' => exact ih l'

theorem then_ok {a b : List Event} {l m r : InUse} (ha : inUse a l = some m) (hb : inUse b m = some r) :
    inUse (a ++ b) l = some r := by
  rw [inUse_append, ha]; exact hb

theorem acquire_ok {l r : InUse} {x : Thing} {rest : List Event} (h : l x = false)
    (hr : inUse rest (put l x true) = some r) : inUse (.acquire x :: rest) l = some r := by
  simp only [inUse, account, h, Bool.false_eq_true, if_false, Option.bind_some]
  exact hr

theorem release_ok {l r : InUse} {x : Thing} {rest : List Event} (h : l x = true)
    (hr : inUse rest (put l x false) = some r) : inUse (.release x :: rest) l = some r := by
  simp only [inUse, account, h, if_true, Option.bind_some]
  exact hr

theorem use_ok {l r : InUse} {x : Thing} {rest : List Event} (h : l x = true)
    (hr : inUse rest l = some r) : inUse (.use x :: rest) l = some r := by
  simp only [inUse, account, h, if_true, Option.bind_some]
  exact hr

theorem nil_ok {l r : InUse} (h : ∀ x, l x = r x) : inUse [] l = some r := by
  rw [show l = r from funext h]; rfl

/-- Events that only look at things. -/
theorem uses_ok {l : InUse} {evs : List Event} (h : ∀ e ∈ evs, ∃ x, e = .use x ∧ l x = true) :
    inUse evs l = some l := by
  induction evs with
  | nil => rfl
  | cons e evs ih =>
    obtain ⟨x, rfl, hx⟩ := h e (List.mem_cons_self ..)
    exact use_ok hx (ih fun e' he' => h e' (List.mem_cons_of_mem _ he'))

theorem ofTemplate_snoc (ns : List Node) (n : Node) (x : Thing) :
    ofTemplate (ns ++ [n]) x =
      (put (put (put (put (ofTemplate ns) (.node ns.length) true) (.first ns.length) n.data0.isSome)
        (.second ns.length) n.data1.isSome) (.link ns.length) true) x := by
  cases x <;> simp only [ofTemplate, put, List.length_append, List.length_singleton] <;> try rfl
  all_goals grind

theorem ofTemplate_new (ns : List Node) :
    ofTemplate ns (.node ns.length) = false ∧ ofTemplate ns (.first ns.length) = false ∧
      ofTemplate ns (.second ns.length) = false ∧ ofTemplate ns (.link ns.length) = false := by
  simp [ofTemplate]

theorem append_ok {l : InUse} {k : Nat} (h : l (.link k) = false) (hl : ∀ i, i < k → l (.link i) = true) :
    inUse (appendEvents k) l = some (put l (.link k) true) := by
  refine acquire_ok h (uses_ok fun e he => ?_)
  obtain ⟨i, hi, rfl⟩ := List.mem_map.mp he
  refine ⟨_, rfl, ?_⟩
  simp only [put]
  split
  · rfl
  · exact hl i (List.mem_range.mp hi)

/-- A node is appended to the template. -/
theorem nodeMade_ok (ns : List Node) (n : Node) (a b c : List Event)
    (ha : inUse a (put (ofTemplate ns) (.node ns.length) true) =
      some (put (put (ofTemplate ns) (.node ns.length) true) (.first ns.length) n.data0.isSome))
    (hb : inUse b (put (put (ofTemplate ns) (.node ns.length) true) (.first ns.length) n.data0.isSome) =
      some (put (put (put (ofTemplate ns) (.node ns.length) true) (.first ns.length) n.data0.isSome)
        (.second ns.length) n.data1.isSome))
    (hc : c = [.acquire (.node ns.length)] ++ a ++ b ++ appendEvents ns.length) :
    inUse c (ofTemplate ns) = some (ofTemplate (ns ++ [n])) := by
  have h := ofTemplate_new ns
  rw [hc, show ofTemplate (ns ++ [n]) = _ from funext (ofTemplate_snoc ns n)]
  refine then_ok (then_ok (then_ok (acquire_ok h.1 rfl) ha) hb) (append_ok ?_ fun i hi => ?_)
  · simp [put, h.2.2.2]
  · simp [put, ofTemplate, hi]

theorem put_same {l : InUse} {x : Thing} {b : Bool} (h : l x = b) : put l x b = l := by
  funext y
  unfold put
  split
  · rename_i e; rw [e, h]
  · rfl

/-- What the nodes of the list, last first, have. -/
theorem content_ok {st : St} (n : Node) (h0 : n.data0.isSome = true) (h1 : n.data1 = none) :
    inUse (contentEvents st) (ofTemplate st.ast.reverse) = some (ofTemplate (n :: st.ast).reverse) := by
  have h := ofTemplate_new st.ast.reverse
  rw [List.reverse_cons]
  refine nodeMade_ok st.ast.reverse n
    (if st.lstripNext then [.acquire .copy, .acquire (.first st.ast.length), .release .copy]
      else [.acquire (.first st.ast.length)]) [] _ ?_ ?_ (by simp [contentEvents])
  · rw [h0, List.length_reverse] at *
    split
    · refine acquire_ok (by simp [put, ofTemplate]) (acquire_ok (by simp [put, h.2.1])
        (release_ok (by simp [put]) (nil_ok fun x => ?_)))
      simp only [put]
      by_cases hx : x = .copy
      · subst hx; simp [ofTemplate]
      · simp [hx]
    · exact acquire_ok (by simp [put, h.2.1]) rfl
  · rw [h1]
    refine congrArg some (put_same ?_).symm
    have h2 := h.2.2.1
    rw [List.length_reverse] at h2
    simp [put, h2]

theorem shape_same {ns ms : List Node} (h : ms.map (fun n => (n.data0.isSome, n.data1.isSome)) =
    ns.map fun n => (n.data0.isSome, n.data1.isSome)) : ofTemplate ms = ofTemplate ns := by
  have hl : ms.length = ns.length := by simpa using congrArg List.length h
  have hk : ∀ k : Nat, (ms[k]?.map fun n => (n.data0.isSome, n.data1.isSome)) =
      ns[k]?.map fun n => (n.data0.isSome, n.data1.isSome) := by
    intro k
    rw [← List.getElem?_map, h, List.getElem?_map]
  funext x
  cases x with
  | first k => have := hk k; simp only [ofTemplate]; cases hm : ms[k]? <;> cases hn : ns[k]? <;> simp_all
  | second k => have := hk k; simp only [ofTemplate]; cases hm : ms[k]? <;> cases hn : ns[k]? <;> simp_all
  | node k => simp only [ofTemplate, hl]
  | link k => simp only [ofTemplate, hl]
  | _ => rfl

theorem trim_ok (st : St) :
    inUse (trimEvents st) (ofTemplate st.ast.reverse) = some (ofTemplate (trimPrevious st.ast).reverse) := by
  have e : ofTemplate (trimPrevious st.ast).reverse = ofTemplate st.ast.reverse := by
    refine shape_same ?_
    rw [List.map_reverse, List.map_reverse]
    congr 1
    cases st.ast with
    | nil => rfl
    | cons n ns => simp only [trimPrevious]; split <;> simp
  rw [e]
  refine uses_ok fun ev hev => ?_
  simp only [trimEvents] at hev
  cases ha : st.ast with
  | nil => rw [ha] at hev; simp at hev
  | cons n ns =>
    rw [ha] at hev
    simp only [List.mem_cons] at hev
    rcases hev with rfl | hev
    · exact ⟨_, rfl, by simp [ofTemplate]⟩
    · split at hev
      · split at hev
        · rename_i h0
          simp only [List.mem_singleton] at hev
          subst hev
          exact ⟨_, rfl, by simp [ofTemplate, h0]⟩
        · simp at hev
      · simp at hev

/-- The step goes on from the nodes of `st`, and the events say so. -/
def Keeps (evs : List Event) (st : St) (r : Step) : Prop :=
  ∀ st', r = .ok (.ok st') → inUse evs (ofTemplate st.ast.reverse) = some (ofTemplate st'.ast.reverse)

section
variable {src : Str} {cur : Nat} {st : St} {c : Byte} {evs : List Event}

theorem kp_fail {e : Err} : Keeps evs st (fail e) := fun _ h => nomatch h
theorem kp_ub : Keeps evs st .ub := fun _ h => nomatch h

theorem kp_go {st' : St} (e : st'.ast = st.ast) : Keeps [] st (go st') := by
  intro s hs
  injection hs with hs
  injection hs with hs
  rw [← hs, e]
  rfl

theorem kp_dup {a b : Nat} {f : Str → Step} (h : ∀ w, Keeps evs st (f w)) : Keeps evs st ((dup src a b).bind f) := by
  cases dup src a b with
  | ub => exact kp_ub
  | ok w => exact h w

theorem kp_content {b : Bool} {stop : Nat} {st₀ : St} (h0 : st₀.ast = st.ast) {f : St → Step}
    (hf : ∀ st₁ st₂, f st₁ = .ok (.ok st₂) → st₂.ast = st₁.ast) :
    Keeps (if b then contentEvents st else []) st ((addContentIf b src st₀ stop).bind f) := by
  intro s hs
  simp only [addContentIf] at hs
  cases b with
  | false =>
    have hs : f st₀ = .ok (.ok s) := hs
    rw [hf _ _ hs, h0]
    rfl
  | true =>
    simp only [if_true, addContent] at hs ⊢
    cases hd : dup src st₀.start stop with
    | ub => rw [hd] at hs; cases hs
    | ok w =>
      rw [hd] at hs
      have hs := hf _ _ hs
      rw [hs, h0]
      exact content_ok _ rfl rfl

macro "kp_all" : tactic =>
  `(tactic| ((repeat' split) <;> first | exact kp_fail | exact kp_ub | exact kp_go rfl))

theorem dupIf_some {a b : Nat} {d : Option Str} (h : dupIf src a b = .ok d) : d.isSome = decide (b > a) := by
  unfold dupIf at h
  split at h
  · rename_i hb
    cases hd : dup src a b with
    | ub => rw [hd] at h; cases h
    | ok w => rw [hd] at h; cases h; simp [hb]
  · rename_i hb; cases h; simp [hb]

theorem addNode_keeps {st₀ : St} (op : Op) (ha : st₀.ast = st.ast) (h1 : st₀.start = st.start) (h2 : st₀.stop = st.stop)
    (h3 : st₀.start2 = st.start2) (h4 : st₀.end2 = st.end2) :
    Keeps (nodeEvents st) st (addNode src cur st₀ op) := by
  intro s hs
  rw [addNode] at hs
  cases hd : dupIf src st₀.start st₀.stop with
  | ub => rw [hd] at hs; cases hs
  | ok d0 =>
    rw [hd] at hs
    simp only [Res.bind] at hs
    cases hd1 : dupIf src st₀.start2 st₀.end2 with
    | ub => rw [hd1] at hs; cases hs
    | ok d1 =>
      rw [hd1] at hs
      cases hs
      have e0 := dupIf_some hd
      have e1 := dupIf_some hd1
      rw [h1, h2] at e0
      rw [h3, h4] at e1
      have h := ofTemplate_new st.ast.reverse
      simp only [ha, List.reverse_cons]
      refine nodeMade_ok st.ast.reverse _
        (if st.stop > st.start then [.acquire (.first st.ast.length)] else [])
        (if st.end2 > st.start2 then [.acquire (.second st.ast.length)] else []) _ ?_ ?_ (by simp [nodeEvents])
      · simp only [e0, List.length_reverse] at *
        split
        · rename_i hb
          simp only [hb, decide_true]
          exact acquire_ok (by simp [put, h.2.1]) rfl
        · rename_i hb
          simp only [hb, decide_false]
          exact congrArg some (put_same (by simp [put, h.2.1])).symm
      · simp only [e0, e1, List.length_reverse] at *
        split
        · rename_i hb
          simp only [hb, decide_true]
          exact acquire_ok (by simp [put, h.2.2.1]) rfl
        · rename_i hb
          simp only [hb, decide_false]
          exact congrArg some (put_same (by simp [put, h.2.2.1])).symm

theorem step_keeps : Keeps (readEvents src cur st c) st (step src cur st c) := by
  simp only [step, readEvents]
  cases hs : st.state <;> simp only
  case start =>
    rw [start]
    have := kp_content (src := src) (st := st) (st₀ := st) (b := cur + 1 == src.length) (stop := src.length) rfl
      (f := startNext cur c) (by
        intro st₁ st₂ h
        rw [startNext] at h
        split at h <;> cases h <;> rfl)
    simpa using this
  case openBracket =>
    rw [openBracket]
    have hg : ∀ st₁ st₂ : St, go st₁ = .ok (.ok st₂) → st₂.ast = st₁.ast := by
      intro st₁ st₂ h; cases h; rfl
    by_cases hc : c = c!"%"
    · have := kp_content (src := src) (st := st) (st₀ := { st with state := .blockStartCleaner })
        (b := decide (st.start < st.stop)) (stop := st.stop) rfl hg
      simpa only [hc, if_true, true_or, true_and, decide_eq_true_eq] using this
    · by_cases hc2 : c = c!"{"
      · have := kp_content (src := src) (st := st) (st₀ := { st with state := .variableStart })
          (b := decide (st.start < st.stop)) (stop := st.stop) rfl hg
        rw [if_neg hc, if_pos hc2]
        simpa only [hc2, or_true, true_and, decide_eq_true_eq] using this
      · rw [if_neg hc, if_neg hc2, if_neg (by simp only [hc, hc2, or_self, false_and, not_false_eq_true])]
        exact kp_go rfl
  case blockStartCleaner =>
    rw [blockStartCleaner]
    split
    · intro s e
      cases e
      exact trim_ok st
    · rw [blockStart]; kp_all
  case blockStart => rw [blockStart]; kp_all
  case blockType =>
    rw [blockType]
    split
    · exact kp_go rfl
    split
    · refine kp_dup fun w => ?_
      rw [statement]
      split
      · rename_i k _
        cases k <;> simp only [statementOf, openIf] <;> kp_all
      · exact kp_fail
    · exact kp_fail
  case blockBlockTypeStart => rw [blockBlockTypeStart]; kp_all
  case blockBlockType =>
    rw [blockBlockType]
    split
    · exact kp_go rfl
    split
    · refine kp_dup fun w => ?_
      rw [blockOf]; kp_all
    · exact kp_fail
  case ifStart => rw [ifStart]; kp_all
  case ifVariable => rw [ifVariable]; kp_all
  case ifOperatorStart => rw [ifOperatorStart]; kp_all
  case ifOperator => rw [ifOperator]; kp_all
  case ifOperandStart => rw [ifOperandStart]; kp_all
  case ifStringOperand => rw [ifStringOperand]; kp_all
  case ifVariableOperand => rw [ifVariableOperand]; kp_all
  case foreachStart => rw [foreachStart]; kp_all
  case foreachVariable => rw [foreachVariable]; kp_all
  case blockEndCleaner =>
    rw [blockEndCleaner, blockEnd]; kp_all
  case blockEnd => rw [blockEnd]; kp_all
  case variableStart => rw [variableStart]; kp_all
  case «variable» => rw [variable_]; kp_all
  case variableEnd => rw [variableEnd]; kp_all
  case closeBracket =>
    rw [closeBracket]
    (repeat' split) <;> first | exact kp_fail | exact kp_ub | exact addNode_keeps _ rfl rfl rfl rfl rfl

end

end Blogc.TmplMem
