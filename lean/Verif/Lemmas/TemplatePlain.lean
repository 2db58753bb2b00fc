import Verif.Lemmas.Template

/-!
# Only `if` has an operator and an operand
-/

namespace Blogc.Template

open Blogc

/-- The node has no operator and no operand, unless it is an `if`. -/
def PlainNode (n : Node) : Prop := n.type ≠ .if_ → n.op = .none ∧ n.data1 = none

structure Plain (st : St) : Prop where
  cur : st.type ≠ .if_ → st.opEnd ≤ st.opStart ∧ st.end2 ≤ st.start2
  nodes : ∀ n ∈ st.ast, PlainNode n

def Keeps (r : Step) : Prop := ∀ st', r = .ok (.ok st') → Plain st'

theorem keeps_fail {e : Err} : Keeps (fail e) := fun _ h => nomatch h
theorem keeps_ub : Keeps .ub := fun _ h => nomatch h

theorem keeps_go {st : St} (h : Plain st) : Keeps (go st) := by
  intro st' e
  injection e with e
  injection e with e
  exact e ▸ h

theorem Keeps.bind_dup {src : Str} {a b : Nat} {f : Str → Step} (h : ∀ w, Keeps (f w)) :
    Keeps ((dup src a b).bind f) := by
  cases dup src a b with
  | ub => exact keeps_ub
  | ok w => exact h w

/-- Fields that matter are unchanged. -/
theorem Plain.same {st st' : St} (h : Plain st) (h1 : st'.type = st.type) (h2 : st'.opStart = st.opStart)
    (h3 : st'.opEnd = st.opEnd) (h4 : st'.start2 = st.start2) (h5 : st'.end2 = st.end2)
    (h6 : st'.ast = st.ast) : Plain st' :=
  ⟨by rw [h1, h2, h3, h4, h5]; exact h.cur, by rw [h6]; exact h.nodes⟩

/-- A statement begins. -/
theorem Plain.retype {st st' : St} (h : Plain st) (h1 : st.type ≠ .if_) (h2 : st'.opStart = st.opStart)
    (h3 : st'.opEnd = st.opEnd) (h4 : st'.start2 = st.start2) (h5 : st'.end2 = st.end2)
    (h6 : st'.ast = st.ast) : Plain st' :=
  ⟨by rw [h2, h3, h4, h5]; exact fun _ => h.cur h1, by rw [h6]; exact h.nodes⟩

/-- Within an `if`. -/
theorem Plain.inIf {st st' : St} (h : Plain st) (h1 : st'.type = .if_) (h6 : st'.ast = st.ast) : Plain st' :=
  ⟨fun h0 => absurd h1 h0, by rw [h6]; exact h.nodes⟩

theorem Keeps.content {b : Bool} {src : Str} {st : St} {stop : Nat} (h : Plain st) (ht : st.type = .content)
    {f : St → Step} (hf : ∀ st', Plain st' → Keeps (f st')) : Keeps ((addContentIf b src st stop).bind f) := by
  simp only [addContentIf]
  cases b with
  | false => exact hf st h
  | true =>
    simp only [if_true, addContent]
    cases dup src st.start stop with
    | ub => exact keeps_ub
    | ok w =>
      refine hf _ ⟨h.cur, fun n hn => ?_⟩
      rcases List.mem_cons.mp hn with rfl | hn
      · exact fun _ => ⟨rfl, rfl⟩
      · exact h.nodes n hn

theorem trimPrevious_plain {l : List Node} (h : ∀ n ∈ l, PlainNode n) : ∀ n ∈ trimPrevious l, PlainNode n := by
  cases l with
  | nil => exact h
  | cons m l =>
    rw [trimPrevious]
    split
    · intro n hn
      rcases List.mem_cons.mp hn with rfl | hn
      · exact h m (by simp)
      · exact h n (List.mem_cons_of_mem _ hn)
    · exact h

section
variable {src : Str} {cur : Nat} {st : St} {c : Byte}

/-- Close the branches of a state that sets none of the fields. -/
macro "same_all" h:ident : tactic =>
  `(tactic| ((repeat' split) <;> first
    | exact keeps_fail | exact keeps_ub | exact keeps_go (Plain.same $h rfl rfl rfl rfl rfl rfl)))

theorem blockStart_keeps (h : Plain st) : Keeps (blockStart cur st c) := by
  rw [blockStart]; same_all h

theorem blockEnd_keeps (h : Plain st) : Keeps (blockEnd st c) := by
  rw [blockEnd]; same_all h

theorem statement_keeps (h : Plain st) (ht : st.type = .content) (w : Str) : Keeps (statement cur st w) := by
  have hne : st.type ≠ .if_ := by rw [ht]; decide
  rw [statement]
  split
  · rename_i k _
    cases k <;> simp only [statementOf, openIf] <;> (repeat' split) <;> first
      | exact keeps_fail | exact keeps_go (h.retype hne rfl rfl rfl rfl rfl)
  · exact keeps_fail

theorem addNode_keeps (h : Plain st) (op : Op) (st' : St) (ht : st'.type = st.type) (ha : st'.ast = st.ast)
    (hop : st.type ≠ .if_ → op = .none) (h1 : st'.opEnd ≤ st'.opStart) (h2 : st'.start2 = st.start2)
    (h3 : st'.end2 = st.end2) : Keeps (addNode src cur st' op) := by
  rw [addNode]
  intro r hr
  cases hd : dupIf src st'.start st'.stop with
  | ub => rw [hd] at hr; cases hr
  | ok d0 =>
    rw [hd] at hr
    simp only [Res.bind] at hr
    cases hd1 : dupIf src st'.start2 st'.end2 with
    | ub => rw [hd1] at hr; cases hr
    | ok d1 =>
      rw [hd1] at hr
      refine keeps_go ?_ r hr
      refine ⟨fun _ => ⟨h1, ?_⟩, fun n hn => ?_⟩
      · simp only
        split
        · exact Nat.le_refl _
        · omega
      · rcases List.mem_cons.mp hn with rfl | hn
        · intro hty
          simp only [ht] at hty
          refine ⟨hop hty, ?_⟩
          have hle := (h.cur hty).2
          rw [dupIf, h2, h3, if_neg (by omega)] at hd1
          injection hd1 with hd1
          exact hd1.symm
        · rw [ha] at hn; exact h.nodes n hn

theorem closeBracket_keeps (h : Plain st) : Keeps (closeBracket src cur st c) := by
  simp only [closeBracket]
  split
  · split
    · rename_i hgt
      split
      · split
        · exact keeps_fail
        · refine addNode_keeps h _ _ rfl rfl (fun hty => ?_) (Nat.le_refl _) rfl rfl
          have := (h.cur hty).1
          omega
      · exact keeps_ub
    · exact addNode_keeps h _ _ rfl rfl (fun _ => rfl) (by omega) rfl rfl
  · exact keeps_fail

theorem step_keeps (hI : Inv src cur st) (h : Plain st) : Keeps (step src cur st c) := by
  have hsh := hI.shape
  simp only [step]
  cases hs : st.state <;> simp only [Shape, hs] at hsh ⊢
  case start =>
    rw [start]
    refine Keeps.content h hsh fun st' h' => ?_
    rw [startNext]; same_all h'
  case openBracket =>
    rw [openBracket]
    split
    · exact Keeps.content (by exact h.same rfl rfl rfl rfl rfl rfl) (by exact hsh.1) fun _ h' => keeps_go h'
    split
    · exact Keeps.content (by exact h.same rfl rfl rfl rfl rfl rfl) (by exact hsh.1) fun _ h' => keeps_go h'
    · exact keeps_go (h.same rfl rfl rfl rfl rfl rfl)
  case blockStartCleaner =>
    rw [blockStartCleaner]
    split
    · exact keeps_go ⟨h.cur, trimPrevious_plain h.nodes⟩
    · exact blockStart_keeps (h.same rfl rfl rfl rfl rfl rfl)
  case blockStart => exact blockStart_keeps h
  case blockType =>
    rw [blockType]
    split
    · exact keeps_go h
    split
    · exact Keeps.bind_dup (statement_keeps h hsh.1)
    · exact keeps_fail
  case blockBlockTypeStart => rw [blockBlockTypeStart]; same_all h
  case blockBlockType =>
    rw [blockBlockType]
    split
    · exact keeps_go h
    split
    · refine Keeps.bind_dup fun w => ?_
      rw [blockOf]; same_all h
    · exact keeps_fail
  case ifStart => rw [ifStart]; same_all h
  case ifVariable => rw [ifVariable]; same_all h
  case ifOperatorStart =>
    rw [ifOperatorStart]
    split
    · exact keeps_go h
    · exact keeps_go (h.inIf hsh.1 rfl)
  case ifOperator =>
    rw [ifOperator]
    split
    · exact keeps_go h
    · exact keeps_go (h.inIf hsh.1 rfl)
  case ifOperandStart =>
    rw [ifOperandStart]
    (repeat' split) <;> first | exact keeps_fail | exact keeps_go (h.inIf hsh.1 rfl)
  case ifStringOperand =>
    rw [ifStringOperand]
    (repeat' split) <;> first | exact keeps_ub | exact keeps_go (h.inIf hsh.1 rfl)
  case ifVariableOperand =>
    rw [ifVariableOperand]
    (repeat' split) <;> exact keeps_go (h.inIf hsh.1 rfl)
  case foreachStart => rw [foreachStart]; same_all h
  case foreachVariable => rw [foreachVariable]; same_all h
  case blockEndCleaner =>
    rw [blockEndCleaner]
    split
    · exact keeps_go h
    split
    · exact keeps_go (h.same rfl rfl rfl rfl rfl rfl)
    · exact blockEnd_keeps (h.same rfl rfl rfl rfl rfl rfl)
  case blockEnd => exact blockEnd_keeps h
  case variableStart =>
    have hne : st.type ≠ .if_ := by rw [hsh]; decide
    rw [variableStart]
    (repeat' split) <;> first | exact keeps_fail | exact keeps_go (h.retype hne rfl rfl rfl rfl rfl)
  case «variable» => rw [variable_]; same_all h
  case variableEnd => rw [variableEnd]; same_all h
  case closeBracket => exact closeBracket_keeps h

end

theorem loop_plain {src : Str} {cur : Nat} {st : St} {rest : Str} (hr : src.drop cur = rest)
    (hI : Inv src cur st) (h : Plain st) {ns : List Node} (hl : loop src rest cur st = .ok (.ok ns)) :
    ∀ n ∈ ns, PlainNode n := by
  induction rest generalizing cur st with
  | nil =>
    simp only [loop, finish] at hl
    (repeat' split at hl) <;> cases hl
    intro n hn
    exact h.nodes n (List.mem_reverse.mp hn)
  | cons c rest ih =>
    have hc : src[cur]? = some c := by
      have : (src.drop cur)[0]? = some c := by rw [hr]; rfl
      rw [List.getElem?_drop] at this
      exact this
    have hr' : src.drop (cur + 1) = rest := by
      rw [← List.drop_drop, hr]; rfl
    have hg := step_good hc hI
    simp only [loop] at hl
    cases hst : step src cur st c with
    | ub => rw [hst] at hl; cases hl
    | ok x =>
      cases x with
      | error e => rw [hst] at hl; cases hl
      | ok st' =>
        rw [hst] at hg hl
        exact ih hr' hg (step_keeps hI h st' hst) hl

/-- In an accepted template only `if` has an operator and an operand. -/
theorem parse_plain {src : Str} {ns : List Node} (h : parse src = .ok (.ok ns)) : ∀ n ∈ ns, PlainNode n :=
  loop_plain (rest := src) rfl (inv_init src) ⟨fun _ => ⟨Nat.le_refl _, Nat.le_refl _⟩, fun _ hn => nomatch hn⟩
    (parse_diagnose.1 h)

end Blogc.Template
