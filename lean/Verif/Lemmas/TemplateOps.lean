import Verif.Lemmas.Template

/-!
# The operators of a template are those that can be written
-/

namespace Blogc.Template

open Blogc

/-- The operator of a node is one that a word stands for. -/
def OpOk (n : Node) : Prop := ∃ w, n.op = operator w

def KeepsOps (r : Step) : Prop := ∀ st', r = .ok (.ok st') → ∀ n ∈ st'.ast, OpOk n

section
variable {src : Str} {cur : Nat} {st : St} {c : Byte}

theorem ko_fail {e : Err} : KeepsOps (fail e) := fun _ h => nomatch h
theorem ko_ub : KeepsOps .ub := fun _ h => nomatch h

theorem ko_go {st' : St} (h : ∀ n ∈ st.ast, OpOk n) (e : st'.ast = st.ast) : KeepsOps (go st') := by
  intro s hs
  injection hs with hs
  injection hs with hs
  rw [← hs, e]
  exact h

theorem ko_dup {a b : Nat} {f : Str → Step} (h : ∀ w, KeepsOps (f w)) : KeepsOps ((dup src a b).bind f) := by
  cases dup src a b with
  | ub => exact ko_ub
  | ok w => exact h w

theorem ko_content {b : Bool} {stop : Nat} (h : ∀ n ∈ st.ast, OpOk n) (ht : st.type = .content)
    {f : St → Step} (hf : ∀ st', (∀ n ∈ st'.ast, OpOk n) → KeepsOps (f st')) :
    KeepsOps ((addContentIf b src st stop).bind f) := by
  simp only [addContentIf]
  cases b with
  | false => exact hf st h
  | true =>
    simp only [if_true, addContent]
    cases dup src st.start stop with
    | ub => exact ko_ub
    | ok w =>
      refine hf _ fun n hn => ?_
      rcases List.mem_cons.mp hn with rfl | hn
      · exact ⟨[], rfl⟩
      · exact h n hn

theorem trimPrevious_ops {l : List Node} (h : ∀ n ∈ l, OpOk n) : ∀ n ∈ trimPrevious l, OpOk n := by
  cases l with
  | nil => exact h
  | cons m l =>
    rw [trimPrevious]
    split
    · rename_i hm
      intro n hn
      rcases List.mem_cons.mp hn with rfl | hn
      · exact h m List.mem_cons_self
      · exact h n (List.mem_cons_of_mem _ hn)
    · exact h

macro "ko_all" h:ident : tactic =>
  `(tactic| ((repeat' split) <;> first | exact ko_fail | exact ko_ub | exact ko_go $h rfl))

theorem addNode_ops {st' : St} (h : ∀ n ∈ st'.ast, OpOk n) {op : Op} (ho : ∃ w, op = operator w) : KeepsOps (addNode src cur st' op) := by
  rw [addNode]
  cases hd : dupIf src st'.start st'.stop with
  | ub => exact ko_ub
  | ok d0 =>
    simp only [Res.bind]
    cases hd1 : dupIf src st'.start2 st'.end2 with
    | ub => exact ko_ub
    | ok d1 =>
      intro s hs
      cases hs
      intro n hn
      rcases List.mem_cons.mp hn with rfl | hn
      · exact ho
      · exact h n hn

theorem step_ops (hI : Inv src cur st) (h : ∀ n ∈ st.ast, OpOk n) : KeepsOps (step src cur st c) := by
  have hsh := hI.shape
  simp only [step]
  cases hs : st.state <;> simp only [Shape, hs] at hsh ⊢
  case start =>
    rw [start]
    refine ko_content h hsh fun st' h' => ?_
    rw [startNext]; ko_all h'
  case openBracket =>
    rw [openBracket]
    split
    · exact ko_content (by exact h) (by exact hsh.1) fun _ h' => ko_go h' rfl
    split
    · exact ko_content (by exact h) (by exact hsh.1) fun _ h' => ko_go h' rfl
    · exact ko_go h rfl
  case blockStartCleaner =>
    rw [blockStartCleaner]
    split
    · intro s e
      cases e
      exact trimPrevious_ops h
    · rw [blockStart]; ko_all h
  case blockStart => rw [blockStart]; ko_all h
  case blockType =>
    rw [blockType]
    split
    · exact ko_go h rfl
    split
    · refine ko_dup fun w => ?_
      rw [statement]
      split
      · rename_i k _
        cases k <;> simp only [statementOf, openIf] <;> ko_all h
      · exact ko_fail
    · exact ko_fail
  case blockBlockTypeStart => rw [blockBlockTypeStart]; ko_all h
  case blockBlockType =>
    rw [blockBlockType]
    split
    · exact ko_go h rfl
    split
    · refine ko_dup fun w => ?_
      rw [blockOf]; ko_all h
    · exact ko_fail
  case ifStart => rw [ifStart]; ko_all h
  case ifVariable => rw [ifVariable]; ko_all h
  case ifOperatorStart => rw [ifOperatorStart]; ko_all h
  case ifOperator => rw [ifOperator]; ko_all h
  case ifOperandStart => rw [ifOperandStart]; ko_all h
  case ifStringOperand => rw [ifStringOperand]; ko_all h
  case ifVariableOperand => rw [ifVariableOperand]; ko_all h
  case foreachStart => rw [foreachStart]; ko_all h
  case foreachVariable => rw [foreachVariable]; ko_all h
  case blockEndCleaner =>
    rw [blockEndCleaner, blockEnd]; ko_all h
  case blockEnd => rw [blockEnd]; ko_all h
  case variableStart => rw [variableStart]; ko_all h
  case «variable» => rw [variable_]; ko_all h
  case variableEnd => rw [variableEnd]; ko_all h
  case closeBracket =>
    rw [closeBracket]
    (repeat' split) <;> first | exact ko_fail | exact ko_ub | exact addNode_ops (by exact h) ⟨_, rfl⟩ | exact addNode_ops (by exact h) ⟨[], rfl⟩

end

theorem loop_ops {src : Str} {cur : Nat} {st : St} {rest : Str} (hr : src.drop cur = rest)
    (hI : Inv src cur st) (h : ∀ n ∈ st.ast, OpOk n) {ns : List Node} (hl : loop src rest cur st = .ok (.ok ns)) :
    ∀ n ∈ ns, OpOk n := by
  induction rest generalizing cur st with
  | nil =>
    simp only [loop, finish] at hl
    (repeat' split at hl) <;> cases hl
    intro n hn
    exact h n (List.mem_reverse.mp hn)
  | cons c rest ih =>
    have hc : src[cur]? = some c := by
      have : (src.drop cur)[0]? = some c := by rw [hr]; rfl
      rw [List.getElem?_drop] at this
      exact this
    have hr' : src.drop (cur + 1) = rest := by
      rw [← List.drop_drop, hr]; rfl
    have hg := step_good hc hI
    simp only [loop] at hl
    cases hst : step src cur st c with
    | ub => rw [hst] at hl; cases hl
    | ok x =>
      cases x with
      | error e => rw [hst] at hl; cases hl
      | ok st' =>
        rw [hst] at hg hl
        exact ih hr' hg (step_ops hI h st' hst) hl

theorem parse_ops {src : Str} {ns : List Node} (h : parse src = .ok (.ok ns)) : ∀ n ∈ ns, OpOk n :=
  loop_ops (rest := src) rfl (inv_init src) (fun _ hn => nomatch hn) (parse_diagnose.1 h)

end Blogc.Template
