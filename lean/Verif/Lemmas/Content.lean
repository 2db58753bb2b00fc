import Verif.Lemmas.Inline
import Verif.Model.Content

/-!
# Block content: the loop ends

Every iteration moves on, or changes to a state that moves on.
-/

namespace Blogc.Content

open Blogc

/-- States whose code may `continue` on the last character. -/
def rank : BState → Nat
  | .blockquoteStart | .codeStart | .hrOrEm | .ulStart | .olStart | .ol | .olSpace => 1
  | _ => 0

def bmeasure (src : Str) (st : BSt) : Nat := 2 * (src.length - st.current) + rank st.state

/-- What an iteration does to the position. -/
def Shape (st : BSt) : BSt ⊕ BSt → Prop
  | .inl st' => st'.current = st.current + 1 ∨
      (st'.current = st.current ∧ rank st.state = 1 ∧ rank st'.state = 0)
  | .inr _ => True

abbrev Moves (st : BSt) (x : Run (BSt ⊕ BSt)) : Prop := Run.Fine True (Shape st) x

theorem dup_fine (src : Str) (a b : Nat) : Run.Fine True (fun _ => True) (dup src a b) := by
  unfold dup; repeat' split
  all_goals trivial

theorem inline_fine' (s : Str) : Run.Fine True (fun _ => True) (parseInline s) :=
  (parseInline_fine s).mono (fun _ => trivial) (fun _ h => h)

theorem get_fine (l : Lines2) : Run.Fine True (fun _ => True) l.get := by
  cases l <;> trivial

theorem release_fine (l : Lines2) : Run.Fine True (fun _ => True) l.release := by
  cases l with
  | live l => cases l <;> trivial
  | freed => trivial

theorem flushItem_moves (st : BSt) :
    Run.Fine True (fun st' => st'.current = st.current ∧ st'.state = st.state) (flushItem st) := by
  unfold flushItem
  refine (get_fine _).bind fun l _ => ?_
  show Run.Fine _ _ (if _ then _ else _)
  split
  · exact ⟨rfl, rfl⟩
  · exact (inline_fine' _).bind fun _ _ => ⟨rfl, rfl⟩

theorem addLine_moves (st : BSt) (l : Str) :
    Run.Fine True (fun st' => st'.current = st.current ∧ st'.state = st.state) (addLine st l) := by
  unfold addLine
  exact (get_fine _).bind fun _ _ => ⟨rfl, rfl⟩

variable {src : Str} {w : Want} {st : BSt} {c : Byte} {isLast : Bool} {fx : Bool}
  {rec : Str → Str → Run Str}

theorem takePrefix_moves (s : BState) : Moves st (takePrefix src st c s) := by
  unfold takePrefix
  split
  · exact .inl rfl
  · exact (dup_fine _ _ _).bind fun _ _ => .inl rfl

theorem headerTitle_moves : Moves st (headerTitle src w st c isLast) := by
  unfold headerTitle
  split
  · exact (dup_fine _ _ _).bind fun _ _ => (inline_fine' _).bind fun _ _ => .inl rfl
  · exact .inl rfl

theorem htmlEnd_moves : Moves st (htmlEnd src st c isLast) := by
  unfold htmlEnd
  split
  · exact (dup_fine _ _ _).bind fun _ _ => .inl rfl
  · exact .inl rfl

theorem blockquoteEnd_moves (hrec : ∀ s e, rec s e ≠ .out) :
    Moves st (blockquoteEnd rec st c isLast) := by
  have hrec : ∀ s e, Run.Fine True (fun _ => True) (rec s e) := by
    intro s e
    have := hrec s e
    cases h : rec s e <;> first | trivial | exact this h
  unfold blockquoteEnd
  split
  · exact (hrec _ _).bind fun _ _ => .inl rfl
  · exact .inl rfl

theorem codeEnd_moves : Moves st (codeEnd st c isLast) := by
  unfold codeEnd
  split <;> exact .inl rfl

theorem listEnd_moves (tag : Str) (again : BState) : Moves st (listEnd tag again st c isLast) := by
  unfold listEnd
  split
  · exact (flushItem_moves st).bind fun st' h => .inl (by simp [h.1])
  · exact .inl rfl

theorem listAbort_moves (keep : Bool) (h : rank st.state = 1) :
    Moves st (listAbort fx st keep isLast) := by
  unfold listAbort
  have : Run.Fine True (fun _ => True)
      (st.lines2.giveUp fx) := by
    unfold Lines2.giveUp
    split
    · exact (get_fine _).bind fun _ _ => trivial
    · exact release_fine _
  refine this.bind fun l _ => ?_
  show Run.Fine _ _ (if _ then _ else _)
  split
  · exact .inr ⟨rfl, h, rfl⟩
  · exact .inl rfl

theorem paragraphEnd_moves : Moves st (paragraphEnd src w st c isLast) := by
  unfold paragraphEnd
  split
  · exact (dup_fine _ _ _).bind fun _ _ => (inline_fine' _).bind fun _ _ => .inl rfl
  · exact .inl rfl

/-- A step of a modified state is a step of the original one. -/
theorem Moves.of_current {st' : BSt} {x : Run (BSt ⊕ BSt)} (h : Moves st' x)
    (hc : st'.current = st.current) (hr : rank st'.state ≤ rank st.state) : Moves st x := by
  refine h.mono id ?_
  intro r hr'
  cases r with
  | inl s => rcases hr' with h | ⟨h, h1, h2⟩
             · exact .inl (by rw [h, hc])
             · refine .inr ⟨by rw [h, hc], ?_, h2⟩
               have : rank st.state ≤ 1 := by cases st.state <;> simp [rank]
               omega
  | inr _ => trivial

theorem ulStart_moves (h : st.state = .ulStart) : Moves st (ulStart fx src st c isLast) := by
  unfold ulStart
  split
  · split
    · trivial
    · refine (dup_fine _ _ _).bind fun tmp _ => ?_
      simp only
      split
      · refine (flushItem_moves _).bind fun s1 h1 => (addLine_moves _ _).bind fun s2 h2 => ?_
        show Run.Fine _ _ (if _ then _ else _)
        split
        · exact (listEnd_moves _ _).of_current (by simp [BSt.goto, h1.1, h2.1]) (by simp [BSt.goto, rank])
        · exact .inl (by simp [BSt.goto, h1.1, h2.1])
      · split
        · refine (addLine_moves _ _).bind fun s2 h2 => ?_
          show Run.Fine _ _ (if _ then _ else _)
          split
          · exact (listEnd_moves _ _).of_current (by simp [BSt.goto, h2.1]) (by simp [BSt.goto, rank])
          · exact .inl (by simp [BSt.goto, h2.1])
        · exact (listAbort_moves _ (by simp [h, rank])).of_current rfl (Nat.le_refl _)
  · exact .inl rfl

theorem olStart_moves (h : st.state = .olStart) : Moves st (olStart fx src st c isLast) := by
  unfold olStart
  split
  · refine (dup_fine _ _ _).bind fun tmp _ => ?_
    simp only
    split
    · refine (flushItem_moves _).bind fun s1 h1 => (addLine_moves _ _).bind fun s2 h2 => ?_
      show Run.Fine _ _ (if _ then _ else _)
      split
      · exact (listEnd_moves _ _).of_current (by simp [BSt.goto, h1.1, h2.1]) (by simp [BSt.goto, rank])
      · exact .inl (by simp [BSt.goto, h1.1, h2.1])
    · split
      · refine (addLine_moves _ _).bind fun s2 h2 => ?_
        show Run.Fine _ _ (if _ then _ else _)
        split
        · exact (listEnd_moves _ _).of_current (by simp [BSt.goto, h2.1]) (by simp [BSt.goto, rank])
        · exact .inl (by simp [BSt.goto, h2.1])
      · exact (listAbort_moves _ (by simp [h, rank])).of_current rfl (Nat.le_refl _)
  · exact .inl rfl

theorem blockquoteStart_moves (hrec : ∀ s e, rec s e ≠ .out) (h : st.state = .blockquoteStart) :
    Moves st (blockquoteStart rec src st c isLast) := by
  unfold blockquoteStart
  split
  · split
    · trivial
    · refine (dup_fine _ _ _).bind fun tmp _ => ?_
      show Run.Fine _ _ (if _ then _ else _)
      split
      · show Run.Fine _ _ (if _ then _ else _)
        split
        · exact (blockquoteEnd_moves hrec).of_current rfl (by simp [rank])
        · exact .inl rfl
      · show Run.Fine _ _ (if _ then _ else _)
        split
        · exact .inr ⟨rfl, by simp [h, rank], rfl⟩
        · exact .inl rfl
  · exact .inl rfl

theorem codeStart_moves (h : st.state = .codeStart) :
    Moves st (codeStart src st c isLast) := by
  unfold codeStart
  split
  · split
    · trivial
    · refine (dup_fine _ _ _).bind fun tmp _ => ?_
      show Run.Fine _ _ (if _ then _ else _)
      split
      · show Run.Fine _ _ (if _ then _ else _)
        split
        · exact codeEnd_moves.of_current rfl (by simp [rank])
        · exact .inl rfl
      · show Run.Fine _ _ (if _ then _ else _)
        split
        · exact .inr ⟨rfl, by simp [h, rank], rfl⟩
        · exact .inl rfl
  · exact .inl rfl

theorem dispatch_moves (hrec : ∀ s e, rec s e ≠ .out) :
    Moves st (dispatch fx rec src w st c isLast) := by
  unfold dispatch
  cases h : st.state <;> simp only
  case startLine =>
    unfold startLine
    simp only
    repeat' split
    all_goals exact .inl rfl
  case excerpt => unfold excerpt; repeat' split
                  all_goals exact .inl rfl
  case excerptEnd => unfold excerptEnd; split <;> exact .inl rfl
  case header => unfold header; repeat' split
                 all_goals exact .inl rfl
  case headerTitleStart =>
    unfold headerTitleStart
    split
    · exact .inl rfl
    · split
      · exact .inl rfl
      · exact headerTitle_moves.of_current rfl (Nat.le_refl _)
  case headerTitle => exact headerTitle_moves
  case html =>
    unfold html
    show Run.Fine _ _ (if _ then _ else _)
    split
    · refine htmlEnd_moves.of_current ?_ ?_
      · split <;> rfl
      · split <;> simp [h, rank]
    · refine .inl ?_
      split <;> rfl
  case htmlEnd => exact htmlEnd_moves
  case blockquote => exact takePrefix_moves _
  case blockquoteStart => exact blockquoteStart_moves hrec h
  case blockquoteEnd => exact blockquoteEnd_moves hrec
  case code => exact takePrefix_moves _
  case codeStart => exact codeStart_moves h
  case codeEnd => exact codeEnd_moves
  case ulOrHrOrEm =>
    unfold ulOrHrOrEm
    repeat' split
    · exact .inl rfl
    · exact .inl rfl
    · exact takePrefix_moves _
  case hrOrEm =>
    unfold hrOrEm
    repeat' split
    · exact .inr ⟨rfl, by simp [h, rank], rfl⟩
    · exact .inl rfl
    · exact .inl rfl
  case hr => unfold hr; repeat' split
             all_goals exact .inl rfl
  case ulStart => exact ulStart_moves h
  case ulEnd => exact listEnd_moves _ _
  case ol =>
    unfold ol
    repeat' split
    · exact .inl rfl
    · exact .inl rfl
    · exact .inr ⟨rfl, by simp [h, rank], rfl⟩
    · exact .inl rfl
  case olSpace =>
    unfold olSpace
    split
    · exact .inl rfl
    · show Run.Fine _ _ (if _ then _ else _)
      split
      · exact .inl rfl
      · exact (olStart_moves rfl).of_current rfl (by simp [h, rank])
  case olStart => exact olStart_moves h
  case olEnd => exact listEnd_moves _ _
  case paragraph =>
    unfold paragraph
    show Run.Fine _ _ (if _ then _ else _)
    split
    · refine paragraphEnd_moves.of_current ?_ ?_
      · split <;> rfl
      · split <;> simp [h, rank]
    · refine .inl ?_
      split <;> rfl
  case paragraphEnd => exact paragraphEnd_moves

/-- Every iteration decreases the measure. -/
def Decreases (src : Str) (st : BSt) : BSt ⊕ BSt → Prop
  | .inl st' => bmeasure src st' < bmeasure src st
  | .inr _ => True

theorem rank_le (s : BState) : rank s ≤ 1 := by cases s <;> simp [rank]

theorem decreases_of_shape {st' : BSt} (h : st.current < src.length) (h1 : st.current ≤ st'.current)
    (h2 : st'.state = st.state) (r : BSt ⊕ BSt) (hr : Shape st' r) : Decreases src st r := by
  cases r with
  | inr _ => trivial
  | inl s =>
    show bmeasure src s < bmeasure src st
    unfold bmeasure
    have := rank_le s.state
    rcases hr with hr | ⟨hr, hr1, hr2⟩
    · omega
    · rw [h2] at hr1; omega

theorem blockStep_decreases (hrec : ∀ s e, rec s e ≠ .out) :
    Run.Fine True (Decreases src st) (blockStep fx rec src w st) := by
  unfold blockStep
  split
  · trivial
  next c hc =>
    have hlt := (List.getElem?_eq_some_iff.1 hc).1
    split
    · split
      · split
        · exact (dispatch_moves hrec).mono id fun r hr => by
            refine decreases_of_shape hlt ?_ ?_ r hr <;> simp
        · exact (dispatch_moves hrec).mono id fun r hr => by
            refine decreases_of_shape hlt ?_ ?_ r hr <;> simp
      · exact (dispatch_moves hrec).mono id fun r hr => by
          refine decreases_of_shape hlt ?_ ?_ r hr <;> simp
    · exact (dispatch_moves hrec).mono id fun r hr => by
        refine decreases_of_shape hlt ?_ ?_ r hr <;> simp

/-- The loop of one call ends, for every text, if the nested calls end. -/
theorem loop_ends (hrec : ∀ s e, rec s e ≠ .out) (endl : Option Str) :
    runL (blockStep fx rec src w) (2 * src.length + 2) (BSt.init endl) ≠ .out := by
  have := runL_fine (I := fun _ => True) (μ := bmeasure src) (P := fun _ => True) (A := True)
    (step := blockStep fx rec src w) (fun s _ => (blockStep_decreases hrec).mono id fun r hr => by
      cases r with
      | inl s' => exact ⟨trivial, hr⟩
      | inr _ => trivial) (2 * src.length + 2) (BSt.init endl) trivial
      (by simp [bmeasure, BSt.init, rank])
  exact this.ne_out

end Blogc.Content
