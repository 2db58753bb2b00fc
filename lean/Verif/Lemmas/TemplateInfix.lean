import Verif.Lemmas.Template

/-!
# The words of a template are in its text
-/

namespace Blogc.Template

open Blogc

/-- The words of a statement occur in the text. -/
def InText (src : Str) (n : Node) : Prop :=
  n.type ≠ .content → (∀ w, n.data0 = some w → w <:+: src) ∧ ∀ w, n.data1 = some w → w <:+: src

def KeepsText (src : Str) (r : Step) : Prop := ∀ st', r = .ok (.ok st') → ∀ n ∈ st'.ast, InText src n

theorem dup_infix {src w : Str} {a b : Nat} (h : dup src a b = .ok w) : w <:+: src := by
  unfold dup at h
  split at h
  · cases h
    exact (List.takeWhile_prefix _).isInfix.trans
      ((List.take_prefix _ _).isInfix.trans (List.drop_suffix _ _).isInfix)
  · cases h

theorem dupIf_infix {src : Str} {a b : Nat} {d : Option Str} (h : dupIf src a b = .ok d) :
    ∀ w, d = some w → w <:+: src := by
  intro w hw
  unfold dupIf at h
  split at h
  · cases hd : dup src a b with
    | ub => rw [hd] at h; cases h
    | ok v =>
      rw [hd] at h
      cases h
      cases hw
      exact dup_infix hd
  · cases h; cases hw

section
variable {src : Str} {cur : Nat} {st : St} {c : Byte}

theorem kt_fail {e : Err} : KeepsText src (fail e) := fun _ h => nomatch h
theorem kt_ub : KeepsText src .ub := fun _ h => nomatch h

theorem kt_go {st' : St} (h : ∀ n ∈ st.ast, InText src n) (e : st'.ast = st.ast) : KeepsText src (go st') := by
  intro s hs
  injection hs with hs
  injection hs with hs
  rw [← hs, e]
  exact h

theorem kt_dup {a b : Nat} {f : Str → Step} (h : ∀ w, KeepsText src (f w)) : KeepsText src ((dup src a b).bind f) := by
  cases dup src a b with
  | ub => exact kt_ub
  | ok w => exact h w

theorem kt_content {b : Bool} {stop : Nat} (h : ∀ n ∈ st.ast, InText src n) (ht : st.type = .content)
    {f : St → Step} (hf : ∀ st', (∀ n ∈ st'.ast, InText src n) → KeepsText src (f st')) :
    KeepsText src ((addContentIf b src st stop).bind f) := by
  simp only [addContentIf]
  cases b with
  | false => exact hf st h
  | true =>
    simp only [if_true, addContent]
    cases dup src st.start stop with
    | ub => exact kt_ub
    | ok w =>
      refine hf _ fun n hn => ?_
      rcases List.mem_cons.mp hn with rfl | hn
      · exact fun hne => absurd ht hne
      · exact h n hn

theorem trimPrevious_text {l : List Node} (h : ∀ n ∈ l, InText src n) : ∀ n ∈ trimPrevious l, InText src n := by
  cases l with
  | nil => exact h
  | cons m l =>
    rw [trimPrevious]
    split
    · rename_i hm
      intro n hn
      rcases List.mem_cons.mp hn with rfl | hn
      · exact fun hne => absurd hm hne
      · exact h n (List.mem_cons_of_mem _ hn)
    · exact h

macro "kt_all" h:ident : tactic =>
  `(tactic| ((repeat' split) <;> first | exact kt_fail | exact kt_ub | exact kt_go $h rfl))

theorem addNode_text {st' : St} (h : ∀ n ∈ st'.ast, InText src n) (op : Op) : KeepsText src (addNode src cur st' op) := by
  rw [addNode]
  cases hd : dupIf src st'.start st'.stop with
  | ub => exact kt_ub
  | ok d0 =>
    simp only [Res.bind]
    cases hd1 : dupIf src st'.start2 st'.end2 with
    | ub => exact kt_ub
    | ok d1 =>
      intro s hs
      cases hs
      intro n hn
      rcases List.mem_cons.mp hn with rfl | hn
      · exact fun _ => ⟨dupIf_infix hd, dupIf_infix hd1⟩
      · exact h n hn

theorem step_text (hI : Inv src cur st) (h : ∀ n ∈ st.ast, InText src n) : KeepsText src (step src cur st c) := by
  have hsh := hI.shape
  simp only [step]
  cases hs : st.state <;> simp only [Shape, hs] at hsh ⊢
  case start =>
    rw [start]
    refine kt_content h hsh fun st' h' => ?_
    rw [startNext]; kt_all h'
  case openBracket =>
    rw [openBracket]
    split
    · exact kt_content (by exact h) (by exact hsh.1) fun _ h' => kt_go h' rfl
    split
    · exact kt_content (by exact h) (by exact hsh.1) fun _ h' => kt_go h' rfl
    · exact kt_go h rfl
  case blockStartCleaner =>
    rw [blockStartCleaner]
    split
    · intro s e
      cases e
      exact trimPrevious_text h
    · rw [blockStart]; kt_all h
  case blockStart => rw [blockStart]; kt_all h
  case blockType =>
    rw [blockType]
    split
    · exact kt_go h rfl
    split
    · refine kt_dup fun w => ?_
      rw [statement]
      split
      · rename_i k _
        cases k <;> simp only [statementOf, openIf] <;> kt_all h
      · exact kt_fail
    · exact kt_fail
  case blockBlockTypeStart => rw [blockBlockTypeStart]; kt_all h
  case blockBlockType =>
    rw [blockBlockType]
    split
    · exact kt_go h rfl
    split
    · refine kt_dup fun w => ?_
      rw [blockOf]; kt_all h
    · exact kt_fail
  case ifStart => rw [ifStart]; kt_all h
  case ifVariable => rw [ifVariable]; kt_all h
  case ifOperatorStart => rw [ifOperatorStart]; kt_all h
  case ifOperator => rw [ifOperator]; kt_all h
  case ifOperandStart => rw [ifOperandStart]; kt_all h
  case ifStringOperand => rw [ifStringOperand]; kt_all h
  case ifVariableOperand => rw [ifVariableOperand]; kt_all h
  case foreachStart => rw [foreachStart]; kt_all h
  case foreachVariable => rw [foreachVariable]; kt_all h
  case blockEndCleaner =>
    rw [blockEndCleaner, blockEnd]; kt_all h
  case blockEnd => rw [blockEnd]; kt_all h
  case variableStart => rw [variableStart]; kt_all h
  case «variable» => rw [variable_]; kt_all h
  case variableEnd => rw [variableEnd]; kt_all h
  case closeBracket =>
    rw [closeBracket]
    (repeat' split) <;> first | exact kt_fail | exact kt_ub | exact addNode_text (by exact h) _

end

theorem loop_text {src : Str} {cur : Nat} {st : St} {rest : Str} (hr : src.drop cur = rest)
    (hI : Inv src cur st) (h : ∀ n ∈ st.ast, InText src n) {ns : List Node} (hl : loop src rest cur st = .ok (.ok ns)) :
    ∀ n ∈ ns, InText src n := by
  induction rest generalizing cur st with
  | nil =>
    simp only [loop, finish] at hl
    (repeat' split at hl) <;> cases hl
    intro n hn
    exact h n (List.mem_reverse.mp hn)
  | cons c rest ih =>
    have hc : src[cur]? = some c := by
      have : (src.drop cur)[0]? = some c := by rw [hr]; rfl
      rw [List.getElem?_drop] at this
      exact this
    have hr' : src.drop (cur + 1) = rest := by
      rw [← List.drop_drop, hr]; rfl
    have hg := step_good hc hI
    simp only [loop] at hl
    cases hst : step src cur st c with
    | ub => rw [hst] at hl; cases hl
    | ok x =>
      cases x with
      | error e => rw [hst] at hl; cases hl
      | ok st' =>
        rw [hst] at hg hl
        exact ih hr' hg (step_text hI h st' hst) hl

/-- The words of the statements of an accepted template occur in its text. -/
theorem parse_text {src : Str} {ns : List Node} (h : parse src = .ok (.ok ns)) : ∀ n ∈ ns, InText src n :=
  loop_text (rest := src) rfl (inv_init src) (fun _ hn => nomatch hn) (parse_diagnose.1 h)

end Blogc.Template
