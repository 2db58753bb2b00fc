import Verif.Model.Content

/-!
# The line ending during the parsing of a content
-/

namespace Blogc.Content

open Blogc

/-- What is true of the value, if there is one. -/
def Value {α : Type} (P : α → Prop) : Run α → Prop
  | .ok a => P a
  | _ => True

theorem Value.bind {α β : Type} {Q : β → Prop} {x : Run α} {f : α → Run β} (h : ∀ a, x = .ok a → Value Q (f a)) :
    Value Q (x >>= f) := by
  cases x with
  | ok a => exact h a rfl
  | ub => trivial
  | out => trivial

/-- An iteration does not end the loop, leaves the line ending, and moves on by at most one. -/
def Frame (st : BSt) : BSt ⊕ BSt → Prop
  | .inl st' => st'.lineEnding = st.lineEnding ∧ st'.lineEndingFound = st.lineEndingFound ∧
      st'.current ≤ st.current + 1
  | .inr _ => False

def Same (st st' : BSt) : Prop :=
  st'.lineEnding = st.lineEnding ∧ st'.lineEndingFound = st.lineEndingFound ∧ st'.current = st.current

variable {fx : Bool} {rec : Str → Str → Run Str} {src : Str} {w : Want} {st st' : BSt} {c : Byte} {isLast : Bool}

theorem Frame.trans (h : Same st st') {y : Run (BSt ⊕ BSt)} (hy : Value (Frame st') y) : Value (Frame st) y := by
  cases y with
  | ub => trivial
  | out => trivial
  | ok r =>
    cases r with
    | inr _ => exact hy
    | inl s =>
      obtain ⟨h1, h2, h3⟩ := h
      obtain ⟨k1, k2, k3⟩ := hy
      exact ⟨k1.trans h1, k2.trans h2, by omega⟩

theorem flushItem_same (h : flushItem st = .ok st') : Same st st' := by
  have : Value (fun st' => Same st st') (flushItem st) := by
    unfold flushItem
    refine Value.bind fun l _ => ?_
    split
    · exact ⟨rfl, rfl, rfl⟩
    · exact Value.bind fun _ _ => ⟨rfl, rfl, rfl⟩
  rw [h] at this
  exact this

theorem addLine_same {l : Str} (h : addLine st l = .ok st') : Same st st' := by
  have : Value (fun st' => Same st st') (addLine st l) := by
    unfold addLine
    exact Value.bind fun _ _ => ⟨rfl, rfl, rfl⟩
  rw [h] at this
  exact this

local macro "frames" : tactic => `(tactic| first
  | exact ⟨rfl, rfl, Nat.le_refl _⟩
  | exact ⟨rfl, rfl, Nat.le_succ _⟩
  | trivial)

theorem headerTitle_frame : Value (Frame st) (headerTitle src w st c isLast) := by
  unfold headerTitle
  split
  · exact Value.bind fun _ _ => Value.bind fun _ _ => by frames
  · frames

theorem htmlEnd_frame : Value (Frame st) (htmlEnd src st c isLast) := by
  unfold htmlEnd
  split
  · exact Value.bind fun _ _ => by frames
  · frames

theorem html_frame : Value (Frame st) (html src st c isLast) := by
  unfold html
  simp only
  split
  · refine Frame.trans ?_ htmlEnd_frame
    split <;> exact ⟨rfl, rfl, rfl⟩
  · split <;> frames

theorem blockquoteEnd_frame : Value (Frame st) (blockquoteEnd rec st c isLast) := by
  unfold blockquoteEnd
  split
  · exact Value.bind fun _ _ => by frames
  · frames

theorem takePrefix_frame {next : BState} : Value (Frame st) (takePrefix src st c next) := by
  unfold takePrefix
  split
  · frames
  · exact Value.bind fun _ _ => by frames

theorem blockquoteStart_frame : Value (Frame st) (blockquoteStart rec src st c isLast) := by
  unfold blockquoteStart
  split
  · split
    · frames
    · refine Value.bind fun _ _ => ?_
      split
      · simp only
        split
        · exact Frame.trans ⟨rfl, rfl, rfl⟩ blockquoteEnd_frame
        · frames
      · simp only
        split <;> frames
  · frames

theorem codeEnd_frame : Value (Frame st) (codeEnd st c isLast) := by
  unfold codeEnd
  split <;> frames

theorem codeStart_frame : Value (Frame st) (codeStart src st c isLast) := by
  unfold codeStart
  split
  · split
    · frames
    · refine Value.bind fun _ _ => ?_
      split
      · simp only
        split
        · exact Frame.trans ⟨rfl, rfl, rfl⟩ codeEnd_frame
        · frames
      · simp only
        split <;> frames
  · frames

theorem listEnd_frame {tag : Str} {again : BState} : Value (Frame st) (listEnd tag again st c isLast) := by
  unfold listEnd
  split
  · refine Value.bind fun s hs => Frame.trans (flushItem_same hs) ?_
    frames
  · frames

theorem listAbort_frame {keep : Bool} : Value (Frame st) (listAbort fx st keep isLast) := by
  unfold listAbort
  refine Value.bind fun _ _ => ?_
  simp only
  split <;> frames

theorem ulStart_frame : Value (Frame st) (ulStart fx src st c isLast) := by
  unfold ulStart
  split
  · split
    · frames
    · refine Value.bind fun _ _ => ?_
      simp only
      refine Frame.trans (st' := { st with stop := lineStop src st c isLast }) ⟨rfl, rfl, rfl⟩ ?_
      split
      · refine Value.bind fun s hs => Frame.trans (flushItem_same hs) ?_
        refine Value.bind fun s hs => Frame.trans (addLine_same hs) ?_
        split
        · exact Frame.trans ⟨rfl, rfl, rfl⟩ listEnd_frame
        · frames
      · split
        · refine Value.bind fun s hs => Frame.trans (addLine_same hs) ?_
          split
          · exact Frame.trans ⟨rfl, rfl, rfl⟩ listEnd_frame
          · frames
        · exact listAbort_frame
  · frames

theorem olStart_frame : Value (Frame st) (olStart fx src st c isLast) := by
  unfold olStart
  split
  · refine Value.bind fun _ _ => ?_
    simp only
    refine Frame.trans (st' := { st with stop := lineStop src st c isLast }) ⟨rfl, rfl, rfl⟩ ?_
    split
    · refine Value.bind fun s hs => Frame.trans (flushItem_same hs) ?_
      refine Value.bind fun s hs => Frame.trans (addLine_same hs) ?_
      split
      · exact Frame.trans ⟨rfl, rfl, rfl⟩ listEnd_frame
      · frames
    · split
      · refine Value.bind fun s hs => Frame.trans (addLine_same hs) ?_
        split
        · exact Frame.trans ⟨rfl, rfl, rfl⟩ listEnd_frame
        · frames
      · exact listAbort_frame
  · frames

theorem paragraphEnd_frame : Value (Frame st) (paragraphEnd src w st c isLast) := by
  unfold paragraphEnd
  split
  · exact Value.bind fun _ _ => Value.bind fun _ _ => by frames
  · frames

theorem paragraph_frame : Value (Frame st) (paragraph src w st c isLast) := by
  unfold paragraph
  simp only
  split
  · refine Frame.trans ?_ paragraphEnd_frame
    split <;> exact ⟨rfl, rfl, rfl⟩
  · split <;> frames

theorem dispatch_frame : Value (Frame st) (dispatch fx rec src w st c isLast) := by
  unfold dispatch
  split
  case h_1 => unfold startLine; simp only; (repeat' split) <;> frames
  case h_2 => unfold excerpt; (repeat' split) <;> frames
  case h_3 => unfold excerptEnd; (repeat' split) <;> frames
  case h_4 => unfold header; (repeat' split) <;> frames
  case h_5 =>
    unfold headerTitleStart
    split
    · frames
    · split
      · frames
      · exact Frame.trans ⟨rfl, rfl, rfl⟩ headerTitle_frame
  case h_15 =>
    unfold ulOrHrOrEm
    split
    · frames
    · split
      · frames
      · exact takePrefix_frame
  case h_16 => unfold hrOrEm; (repeat' split) <;> frames
  case h_17 => unfold hr; (repeat' split) <;> frames
  case h_20 => unfold ol; (repeat' split) <;> frames
  case h_21 =>
    unfold olSpace
    simp only
    split
    · frames
    · split
      · frames
      · exact Frame.trans ⟨rfl, rfl, rfl⟩ olStart_frame
  all_goals first
    | exact headerTitle_frame
    | exact html_frame
    | exact htmlEnd_frame
    | exact takePrefix_frame
    | exact blockquoteStart_frame
    | exact blockquoteEnd_frame
    | exact codeStart_frame
    | exact codeEnd_frame
    | exact ulStart_frame
    | exact listEnd_frame
    | exact olStart_frame
    | exact paragraph_frame
    | exact paragraphEnd_frame

/-- A line ending was found, or there was none so far. -/
def Seen (src : Str) (st : BSt) : Prop :=
  st.lineEndingFound = true ∨ ∀ c ∈ src.take st.current, isNl c = false

theorem seen_step (h : Seen src st) : Value (fun
    | .inl st' => Seen src st'
    | .inr r => r.lineEndingFound = true ∨ ∀ c ∈ src, isNl c = false) (blockStep fx rec src w st) := by
  have found : ∀ (s : BSt) (y : Run (BSt ⊕ BSt)), s.lineEndingFound = true → Value (Frame s) y → Value (fun
    | .inl st' => Seen src st'
    | .inr r => r.lineEndingFound = true ∨ ∀ c ∈ src, isNl c = false) y := by
    intro s y hs hy
    cases y with
    | ub => trivial
    | out => trivial
    | ok r =>
      cases r with
      | inr _ => exact hy.elim
      | inl s' => exact .inl (hy.2.1.trans hs)
  unfold blockStep
  split
  · rename_i hn
    rcases h with h | h
    · exact .inl h
    · refine .inr fun c hc => h c ?_
      rwa [List.take_of_length_le (List.getElem?_eq_none_iff.1 hn)]
  · rename_i c hc
    split
    · split
      · split
        · exact found _ _ rfl dispatch_frame
        · exact found _ _ rfl dispatch_frame
      · exact found _ _ rfl dispatch_frame
    · rename_i hnl
      have hd := dispatch_frame (fx := fx) (rec := rec) (src := src) (w := w) (st := st) (c := c)
        (isLast := st.current == src.length - 1)
      cases hy : dispatch fx rec src w st c (st.current == src.length - 1) with
      | ub => trivial
      | out => trivial
      | ok r =>
        rw [hy] at hd
        cases r with
        | inr _ => exact hd.elim
        | inl s' =>
          obtain ⟨-, h2, h3⟩ := hd
          rcases h with h | h
          · exact .inl (h2.trans h)
          · refine .inr fun x hx => ?_
            have hx' : x ∈ src.take (st.current + 1) :=
              (List.take_sublist_take_left h3).subset hx
            rw [List.take_add_one, hc, List.mem_append] at hx'
            rcases hx' with hx' | hx'
            · exact h x hx'
            · rw [Option.toList_some, List.mem_singleton] at hx'
              rw [hx']
              simpa using hnl

/-- A line ending of the text is found. -/
theorem parse_found {depth : Nat} {r : BSt} {endl : Option Str} (h : parseBlocks fx depth src w endl = .ok r) :
    r.lineEndingFound = true ∨ ∀ c ∈ src, isNl c = false := by
  cases depth with
  | zero => cases h
  | succ d =>
    rw [parseBlocks] at h
    have loop : ∀ (rec : Str → Str → Run Str) (n : Nat) (s : BSt), Seen src s →
        runL (blockStep fx rec src w) n s = .ok r → r.lineEndingFound = true ∨ ∀ c ∈ src, isNl c = false := by
      intro rec n
      induction n with
      | zero => intro s _ h; cases h
      | succ n ih =>
        intro s hs h
        have := seen_step (fx := fx) (rec := rec) (w := w) hs
        rw [runL] at h
        cases hb : blockStep fx rec src w s with
        | ub => rw [hb] at h; cases h
        | out => rw [hb] at h; cases h
        | ok x =>
          rw [hb] at h this
          cases x with
          | inl s' => exact ih s' this h
          | inr r' => cases h; exact this
    exact loop _ _ _ (.inr (by simp [BSt.init])) h

end Blogc.Content
