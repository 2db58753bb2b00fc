import Verif.Model.Content
import Verif.Lemmas.Run

/-!
# The headers collected by the content parser
-/

namespace Blogc

/-- Every result satisfies `P`. -/
def Run.After {α : Type u} (P : α → Prop) : Run α → Prop
  | .ok a => P a
  | _ => True

theorem Run.After.bind {α β : Type u} {P : β → Prop} {x : Run α} {f : α → Run β} {Q : α → Prop}
    (hx : Run.After Q x) (h : ∀ a, Q a → Run.After P (f a)) : Run.After P (x >>= f) := by
  cases x with
  | ok a => exact h a hx
  | ub => trivial
  | out => trivial

theorem Run.After.any {α : Type u} (x : Run α) : Run.After (fun _ => True) x := by
  cases x <;> trivial

namespace Content

/-- The state in the result of a step. -/
def result : BSt ⊕ BSt → BSt
  | .inl s => s
  | .inr s => s

/-- A step that leaves the headers alone. -/
def Keeps (st : BSt) (r : BSt ⊕ BSt) : Prop :=
  (result r).headers = st.headers ∧ (result r).headerLevel = st.headerLevel ∧
    st.current ≤ (result r).current ∧ (result r).current ≤ st.current + 1

theorem keeps_brk {st s : BSt} (h1 : s.headers = st.headers) (h2 : s.headerLevel = st.headerLevel)
    (h3 : st.current = s.current) : Run.After (Keeps st) s.brk :=
  ⟨h1, h2, h3 ▸ Nat.le_succ _, h3 ▸ Nat.le_refl _⟩

theorem keeps_cont {st s : BSt} (h1 : s.headers = st.headers) (h2 : s.headerLevel = st.headerLevel)
    (h3 : st.current = s.current) : Run.After (Keeps st) s.cont :=
  ⟨h1, h2, h3 ▸ Nat.le_refl _, h3 ▸ Nat.le_succ _⟩

variable {src : Str} {w : Want} {st : BSt} {c : Byte} {isLast : Bool} {fx : Bool}
  {rec : Str → Str → Run Str}

theorem flushItem_keeps (st : BSt) :
    Run.After (fun st' => ∃ a b, st' = { st with lines := a, lines2 := b }) (flushItem st) := by
  unfold flushItem
  refine (Run.After.any _).bind fun l _ => ?_
  show Run.After _ (if _ then _ else _)
  split
  · exact ⟨_, _, rfl⟩
  · exact (Run.After.any _).bind fun _ _ => ⟨_, _, rfl⟩

theorem addLine_keeps (st : BSt) (l : Str) :
    Run.After (fun st' => ∃ b, st' = { st with lines2 := b }) (addLine st l) := by
  unfold addLine
  exact (Run.After.any _).bind fun _ _ => ⟨_, rfl⟩

/-- Closes goals about a step that only breaks or continues. -/
macro "keep" : tactic => `(tactic| first
  | exact keeps_brk rfl rfl rfl
  | exact keeps_cont rfl rfl rfl
  | trivial)

theorem htmlEnd_keeps : Run.After (Keeps st) (htmlEnd src st c isLast) := by
  unfold htmlEnd
  split
  · exact (Run.After.any _).bind fun _ _ => by keep
  · keep

theorem html_keeps : Run.After (Keeps st) (html src st c isLast) := by
  unfold html
  simp only
  by_cases h : ends c isLast = true
  · simp only [h, if_true]
    split
    · exact htmlEnd_keeps (st := { st with state := _, stop := _ })
    · keep
  · simp only [h]
    split
    · exact htmlEnd_keeps
    · keep

theorem blockquoteEnd_keeps : Run.After (Keeps st) (blockquoteEnd rec st c isLast) := by
  unfold blockquoteEnd
  split
  · exact (Run.After.any _).bind fun _ _ => by keep
  · keep

theorem takePrefix_keeps (next : BState) : Run.After (Keeps st) (takePrefix src st c next) := by
  unfold takePrefix
  split
  · keep
  · exact (Run.After.any _).bind fun _ _ => by keep

theorem blockquoteStart_keeps : Run.After (Keeps st) (blockquoteStart rec src st c isLast) := by
  unfold blockquoteStart
  split
  · split
    · trivial
    · refine (Run.After.any _).bind fun tmp _ => ?_
      simp only
      split
      · split
        · exact blockquoteEnd_keeps (st := { st with stop := _, lines := _, state := _ })
        · keep
      · split <;> keep
  · keep

theorem codeEnd_keeps : Run.After (Keeps st) (codeEnd st c isLast) := by
  unfold codeEnd
  split <;> keep

theorem codeStart_keeps : Run.After (Keeps st) (codeStart src st c isLast) := by
  unfold codeStart
  split
  · split
    · trivial
    · refine (Run.After.any _).bind fun tmp _ => ?_
      simp only
      split
      · split
        · exact codeEnd_keeps (st := { st with stop := _, lines := _, state := _ })
        · keep
      · split <;> keep
  · keep

theorem listEnd_keeps (tag : Str) (again : BState) :
    Run.After (Keeps st) (listEnd tag again st c isLast) := by
  unfold listEnd
  split
  · refine (flushItem_keeps st).bind fun st' h => ?_
    obtain ⟨a, b, rfl⟩ := h
    keep
  · keep

theorem listAbort_keeps (keep : Bool) : Run.After (Keeps st) (listAbort fx st keep isLast) := by
  unfold listAbort
  refine (Run.After.any _).bind fun l _ => ?_
  simp only
  split
  · exact keeps_cont rfl rfl rfl
  · exact keeps_brk rfl rfl rfl

theorem ulStart_keeps : Run.After (Keeps st) (ulStart fx src st c isLast) := by
  unfold ulStart
  split
  · split
    · trivial
    · refine (Run.After.any _).bind fun tmp _ => ?_
      simp only
      split
      · refine (flushItem_keeps _).bind fun s h => ?_
        obtain ⟨a, b, rfl⟩ := h
        refine (addLine_keeps _ _).bind fun s h => ?_
        obtain ⟨b', rfl⟩ := h
        split
        · exact listEnd_keeps (st := { st with stop := _, lines := _, lines2 := _, state := _ }) _ _
        · keep
      · split
        · refine (addLine_keeps _ _).bind fun s h => ?_
          obtain ⟨b', rfl⟩ := h
          split
          · exact listEnd_keeps (st := { st with stop := _, lines2 := _, state := _ }) _ _
          · keep
        · exact listAbort_keeps (st := { st with stop := _ }) _
  · keep

theorem olStart_keeps : Run.After (Keeps st) (olStart fx src st c isLast) := by
  unfold olStart
  split
  · refine (Run.After.any _).bind fun tmp _ => ?_
    simp only
    split
    · refine (flushItem_keeps _).bind fun s h => ?_
      obtain ⟨a, b, rfl⟩ := h
      refine (addLine_keeps _ _).bind fun s h => ?_
      obtain ⟨b', rfl⟩ := h
      split
      · exact listEnd_keeps (st := { st with stop := _, lines := _, lines2 := _, state := _ }) _ _
      · keep
    · split
      · refine (addLine_keeps _ _).bind fun s h => ?_
        obtain ⟨b', rfl⟩ := h
        split
        · exact listEnd_keeps (st := { st with stop := _, lines2 := _, state := _ }) _ _
        · keep
      · exact listAbort_keeps (st := { st with stop := _ }) _
  · keep

theorem olSpace_keeps : Run.After (Keeps st) (olSpace fx src st c isLast) := by
  unfold olSpace
  split
  · keep
  · simp only
    split
    · keep
    · exact olStart_keeps (st := { st with prefixLen := _, state := _ })

theorem paragraphEnd_keeps : Run.After (Keeps st) (paragraphEnd src w st c isLast) := by
  unfold paragraphEnd
  split
  · exact (Run.After.any _).bind fun _ _ => (Run.After.any _).bind fun _ _ => by keep
  · keep

theorem paragraph_keeps : Run.After (Keeps st) (paragraph src w st c isLast) := by
  unfold paragraph
  simp only
  by_cases h : ends c isLast = true
  · simp only [h, if_true]
    split
    · exact paragraphEnd_keeps (st := { st with state := _, stop := _ })
    · keep
  · simp only [h]
    split
    · exact paragraphEnd_keeps
    · keep

/-- The headers have levels between 1 and the number of characters read; without a place for
them there are none. -/
def HInv (w : Want) (st : BSt) : Prop :=
  (w.headers = false → st.headers = []) ∧ (∀ h ∈ st.headers, 1 ≤ h.level ∧ h.level ≤ st.current) ∧
    st.headerLevel ≤ st.current

/-- The invariant after a step, at most one position further. -/
def HNext (w : Want) (st : BSt) (r : BSt ⊕ BSt) : Prop :=
  HInv w (result r) ∧ (result r).current ≤ st.current + 1

theorem HInv.keeps {r : BSt ⊕ BSt} (hI : HInv w st) (h : Keeps st r) : HNext w st r := by
  obtain ⟨h1, h2, h3⟩ := hI
  obtain ⟨k1, k2, k3, k4⟩ := h
  refine ⟨⟨fun hw => by rw [k1, h1 hw], ?_, by omega⟩, k4⟩
  intro x hx
  rw [k1] at hx
  have := h2 x hx
  omega

theorem hinv_keeps (hI : HInv w st) {x : Run (BSt ⊕ BSt)} (h : Run.After (Keeps st) x) :
    Run.After (HNext w st) x := by
  cases x with
  | ok r => exact hI.keeps h
  | ub => trivial
  | out => trivial

theorem mem_append {hs : List Toctree.Header} {level : Nat} {slug text : Option Str}
    {x : Toctree.Header} (h : x ∈ Toctree.append hs level slug text) :
    x ∈ hs ∨ (1 ≤ level ∧ x.level = level) := by
  unfold Toctree.append at h
  split at h
  · exact .inl h
  · rename_i hl
    rcases List.mem_append.1 h with h | h
    · exact .inl h
    · rw [List.mem_singleton.1 h]; exact .inr ⟨by omega, rfl⟩

theorem startLine_hinv (hI : HInv w st) :
    Run.After (HNext w st) (startLine w st c isLast) := by
  unfold startLine
  split
  · exact hinv_keeps hI (keeps_brk rfl rfl rfl)
  · simp only
    split
    · exact hinv_keeps hI (keeps_brk rfl rfl rfl)
    · split
      · obtain ⟨h1, h2, h3⟩ := hI
        refine ⟨⟨h1, fun x hx => ?_, ?_⟩, Nat.le_refl _⟩
        · have := h2 x hx
          exact ⟨this.1, Nat.le_succ_of_le this.2⟩
        · show 1 ≤ st.current + 1
          omega
      · refine hinv_keeps hI ?_
        repeat' split
        all_goals exact keeps_brk rfl rfl rfl

theorem header_hinv (hI : HInv w st) :
    Run.After (HNext w st) (header st c) := by
  unfold header
  split
  · obtain ⟨h1, h2, h3⟩ := hI
    refine ⟨⟨h1, fun x hx => ?_, ?_⟩, Nat.le_refl _⟩
    · have := h2 x hx
      exact ⟨this.1, Nat.le_succ_of_le this.2⟩
    · exact Nat.succ_le_succ h3
  · refine hinv_keeps hI ?_
    split <;> exact keeps_brk rfl rfl rfl

theorem headerTitle_hinv (hI : HInv w st) :
    Run.After (HNext w st) (headerTitle src w st c isLast) := by
  unfold headerTitle
  split
  · refine (Run.After.any _).bind fun tmp _ => (Run.After.any _).bind fun parsed _ => ?_
    obtain ⟨h1, h2, h3⟩ := hI
    refine ⟨⟨?_, ?_, Nat.le_succ_of_le h3⟩, Nat.le_refl _⟩
    · intro hw
      show (if w.headers = true then _ else _) = []
      rw [hw]; exact h1 hw
    · intro x hx
      have hx' : x ∈ (if w.headers = true then
        Toctree.append st.headers st.headerLevel (some (slugify tmp)) (some parsed)
        else st.headers) := hx
      show 1 ≤ x.level ∧ x.level ≤ st.current + 1
      split at hx'
      · rcases mem_append hx' with h | h
        · have := h2 x h; omega
        · omega
      · have := h2 x hx'; omega
  · exact hinv_keeps hI (keeps_brk rfl rfl rfl)

theorem dispatch_hinv (hI : HInv w st) :
    Run.After (HNext w st) (dispatch fx rec src w st c isLast) := by
  unfold dispatch
  split
  · exact startLine_hinv hI
  · unfold excerpt
    refine hinv_keeps hI ?_
    repeat' split
    all_goals exact keeps_brk rfl rfl rfl
  · unfold excerptEnd
    refine hinv_keeps hI ?_
    split
    all_goals exact keeps_brk rfl rfl rfl
  · exact header_hinv hI
  · unfold headerTitleStart
    split
    · exact hinv_keeps hI (keeps_brk rfl rfl rfl)
    · split
      · exact hinv_keeps hI (keeps_brk rfl rfl rfl)
      · exact headerTitle_hinv (st := { st with start := st.current }) hI
  · exact headerTitle_hinv hI
  · exact hinv_keeps hI html_keeps
  · exact hinv_keeps hI htmlEnd_keeps
  · exact hinv_keeps hI (takePrefix_keeps _)
  · exact hinv_keeps hI blockquoteStart_keeps
  · exact hinv_keeps hI blockquoteEnd_keeps
  · exact hinv_keeps hI (takePrefix_keeps _)
  · exact hinv_keeps hI codeStart_keeps
  · exact hinv_keeps hI codeEnd_keeps
  · unfold ulOrHrOrEm
    refine hinv_keeps hI ?_
    split
    · keep
    · split
      · keep
      · exact takePrefix_keeps _
  · unfold hrOrEm
    refine hinv_keeps hI ?_
    split
    · split <;> keep
    · keep
  · unfold hr
    refine hinv_keeps hI ?_
    split
    · keep
    · split <;> keep
  · exact hinv_keeps hI ulStart_keeps
  · exact hinv_keeps hI (listEnd_keeps _ _)
  · unfold ol
    refine hinv_keeps hI ?_
    split
    · keep
    · split
      · keep
      · split <;> keep
  · exact hinv_keeps hI olSpace_keeps
  · exact hinv_keeps hI olStart_keeps
  · exact hinv_keeps hI (listEnd_keeps _ _)
  · exact hinv_keeps hI paragraph_keeps
  · exact hinv_keeps hI paragraphEnd_keeps

theorem hnext_of {s : BSt} (h : s.current + 1 ≤ src.length) {x : Run (BSt ⊕ BSt)}
    (hx : Run.After (HNext w s) x) :
    Run.After (fun r => HInv w (result r) ∧ (result r).current ≤ src.length) x := by
  cases x with
  | ok r => exact ⟨hx.1, Nat.le_trans hx.2 h⟩
  | ub => trivial
  | out => trivial

theorem blockStep_hinv (hI : HInv w st) (hle : st.current ≤ src.length) :
    Run.After (fun r => HInv w (result r) ∧ (result r).current ≤ src.length)
      (blockStep fx rec src w st) := by
  unfold blockStep
  split
  · exact ⟨hI, hle⟩
  · rename_i hc
    have hlt := (List.getElem?_eq_some_iff.1 hc).1
    split
    · split
      · rename_i hc'
        have hlt' := (List.getElem?_eq_some_iff.1 hc').1
        split
        · refine hnext_of (s := { st with
            lineEnding := _
            lineEndingFound := _
            realEnd := _
            current := st.current + 1 }) hlt' (dispatch_hinv ?_)
          obtain ⟨h1, h2, h3⟩ := hI
          refine ⟨h1, fun x hx => ?_, Nat.le_succ_of_le h3⟩
          have := h2 x hx
          exact ⟨this.1, Nat.le_succ_of_le this.2⟩
        · exact hnext_of (s := { st with lineEnding := _, lineEndingFound := _ }) hlt (dispatch_hinv hI)
      · exact hnext_of (s := { st with lineEnding := _, lineEndingFound := _ }) hlt (dispatch_hinv hI)
    · exact hnext_of hlt (dispatch_hinv hI)

theorem runL_after {σ ρ : Type} {step : σ → Run (σ ⊕ ρ)} {I : σ → Prop} {P : ρ → Prop}
    (h : ∀ s, I s → Run.After (Sum.elim I P) (step s)) :
    ∀ n s, I s → Run.After P (runL step n s) := by
  intro n
  induction n with
  | zero => intro s _; trivial
  | succ n ih =>
    intro s hI
    have := h s hI
    rw [runL]
    cases hs : step s with
    | ub => trivial
    | out => trivial
    | ok r =>
      rw [hs] at this
      cases r with
      | inl s' => exact ih s' this
      | inr r => exact this

/-- The headers a text has: of levels from 1 to its length, and none unless asked for. -/
theorem parseBlocks_headers (fx : Bool) (depth : Nat) (src : Str) (w : Want) (endl : Option Str) :
    Run.After (fun r => (w.headers = false → r.headers = []) ∧
      ∀ h ∈ r.headers, 1 ≤ h.level ∧ h.level ≤ src.length)
      (parseBlocks fx depth src w endl) := by
  cases depth with
  | zero => trivial
  | succ d =>
    rw [parseBlocks]
    refine runL_after (I := fun s => HInv w s ∧ s.current ≤ src.length) (fun s hs => ?_) _ _
      ⟨⟨fun _ => rfl, by simp [BSt.init], Nat.le_refl _⟩, Nat.zero_le _⟩
    have := blockStep_hinv (fx := fx) (rec := fun s e => do
      let r ← parseBlocks fx d s ⟨false, false, false, false⟩ (some e); pure r.rv) (src := src) hs.1 hs.2
    revert this
    generalize blockStep _ _ _ _ _ = x
    intro this
    cases x with
    | ok r =>
      cases r with
      | inl s => exact this
      | inr s =>
        obtain ⟨⟨h1, h2, h3⟩, h4⟩ := this
        refine ⟨h1, fun x hx => ?_⟩
        have := h2 x hx
        exact ⟨this.1, Nat.le_trans this.2 h4⟩
    | ub => trivial
    | out => trivial

end Content

end Blogc
