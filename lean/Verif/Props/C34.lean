import Verif.Model.FileName
import Verif.Spec.FileList
import Verif.Props.C04

/-!
# C34: the list of sources read from standard input
-/

namespace Blogc.C34

open Blogc Blogc.FileList Blogc.Spec.FileList

/-- Space or tab. -/
def sp (c : Byte) : Bool := c == 0x20 || c == 0x09

/-- What the parser really does with one line. -/
def realEntry (line : Str) : Option Str :=
  match line.dropWhile sp with
  | [] => none
  | c :: l => if c = 0x23 then none else some (strip (cstr (c :: l)))

theorem lines_cons (src : Str) : ∃ l ls, lines src = l :: ls := by
  cases src with
  | nil => exact ⟨[], [], rfl⟩
  | cons c r =>
    simp only [lines]
    split
    · exact ⟨_, _, rfl⟩
    · split <;> exact ⟨_, _, rfl⟩

theorem isEol_iff (c : Byte) : isEol c = true ↔ (c = 0x0a ∨ c = 0x0d) := by
  simp [isEol, or_comm]

theorem lines_eol (c : Byte) (r : Str) (h : isEol c = true) : lines (c :: r) = [] :: lines r := by
  rw [isEol_iff] at h
  simp only [lines, if_pos h]

theorem lines_other (c : Byte) (r l : Str) (ls : List Str) (h : isEol c = false)
    (hl : lines r = l :: ls) : lines (c :: r) = (c :: l) :: ls := by
  have h' : ¬ (c = 0x0a ∨ c = 0x0d) := by
    rw [← isEol_iff, h]; simp
  simp only [lines, if_neg h', hl]

theorem loop_all (src : Str) : ∀ (l : Str) (ls : List Str), lines src = l :: ls →
    (loop .comment [] src = ls.filterMap realEntry) ∧
    (loop .lineStart [] src = (l :: ls).filterMap realEntry) ∧
    (∀ acc, src ≠ [] → loop .line acc src = strip (cstr (acc ++ l)) :: ls.filterMap realEntry) := by
  induction src with
  | nil =>
    intro l ls h
    simp only [lines, List.cons.injEq] at h
    obtain ⟨rfl, rfl⟩ := h
    exact ⟨rfl, rfl, fun _ h => absurd rfl h⟩
  | cons c r ih =>
    intro l ls h
    obtain ⟨l', ls', hr⟩ := lines_cons r
    obtain ⟨ih1, ih2, ih3⟩ := ih l' ls' hr
    cases he : isEol c with
    | true =>
      rw [lines_eol c r he, List.cons.injEq] at h
      obtain ⟨rfl, rfl⟩ := h
      rw [hr]
      refine ⟨?_, ?_, ?_⟩
      · simp only [loop, he, if_true]
        rw [ih2]
      · have h1 : (c == c!"#") = false := by
          rcases (isEol_iff c).1 he with h | h <;> subst h <;> decide
        have h2 : (c == c!" " || c == c!"\t" || c == c!"\r" || c == c!"\n") = true := by
          rcases (isEol_iff c).1 he with h | h <;> subst h <;> decide
        simp only [loop, h1, h2, Bool.false_eq_true, if_false, if_true]
        rw [ih2]
        rfl
      · intro acc _
        simp only [loop, he, Bool.true_or, if_true, Bool.not_true, Bool.and_false,
          Bool.false_eq_true, if_false, List.append_nil, ih2]
    | false =>
      rw [lines_other c r l' ls' he hr, List.cons.injEq] at h
      obtain ⟨rfl, rfl⟩ := h
      have hline : ∀ acc, loop .line acc (c :: r) =
          strip (cstr (acc ++ c :: l')) :: ls'.filterMap realEntry := by
        intro acc
        cases r with
        | nil =>
          simp only [lines, List.cons.injEq] at hr
          obtain ⟨rfl, rfl⟩ := hr
          simp [loop, he]
        | cons d r' =>
          have := ih3 (acc ++ [c]) (by simp)
          rw [loop, he, if_neg (by simp), this]
          simp
      refine ⟨?_, ?_, fun acc _ => hline acc⟩
      · simp only [loop, he, Bool.false_eq_true, if_false]
        exact ih1
      · by_cases h1 : c = c!"#"
        · subst h1
          simp only [loop, beq_self_eq_true, if_true, ih1]
          rfl
        · by_cases h2 : (c == c!" " || c == c!"\t" || c == c!"\r" || c == c!"\n") = true
          · have hsp : sp c = true := by
              simp only [sp]
              simp only [Bool.or_eq_true, beq_iff_eq] at h2
              simp only [isEol, Bool.or_eq_false_iff, beq_eq_false_iff_ne] at he
              rcases h2 with ((h | h) | h) | h
              · simp [h]
              · simp [h]
              · exact absurd h he.1
              · exact absurd h he.2
            have h1' : (c == c!"#") = false := by simp [h1]
            simp only [loop, h1', h2, Bool.false_eq_true, if_false, if_true, ih2]
            have : realEntry (c :: l') = realEntry l' := by
              simp [realEntry, hsp]
            simp only [List.filterMap_cons, this]
          · have hsp : sp c = false := by
              simp only [Bool.not_eq_true, Bool.or_eq_false_iff] at h2
              simp [sp, h2.1.1]
            have hre : realEntry (c :: l') = some (strip (cstr (c :: l'))) := by
              simp [realEntry, hsp, h1]
            have hl := hline []
            have : loop .lineStart [] (c :: r) = loop .line [] (c :: r) := by
              have h1' : (c == c!"#") = false := by simp [h1]
              have h2' : (c == c!" " || c == c!"\t" || c == c!"\r" || c == c!"\n") = false := by
                simpa using h2
              simp only [loop, h1', h2', Bool.false_eq_true, if_false]
            rw [this, hl]
            simp [hre]

/-- What the parser does on every input: the lines that, after spaces and tabs,
are not empty and do not start with `#`, each trimmed and cut at a NUL. -/
theorem parse_eq (src : Str) : FileList.parse src = (lines src).filterMap realEntry := by
  obtain ⟨l, ls, h⟩ := lines_cons src
  rw [FileList.parse, (loop_all src l ls h).2.1, h]

/-- The property. -/
def Exact : Prop := ∀ src, NulFree src → FileList.parse src = (lines src).filterMap entry

/-- The first byte of the line that is no space or tab is a form feed or
vertical tab. -/
def OddStart (line : Str) : Prop :=
  ∃ c, (line.dropWhile sp).head? = some c ∧ (c = 0x0b ∨ c = 0x0c)

theorem mem_lines (src l : Str) (h : l ∈ lines src) : ∀ c ∈ l, c ∈ src ∧ ¬ (c = 0x0a ∨ c = 0x0d) := by
  induction src generalizing l with
  | nil =>
    simp only [lines, List.mem_singleton] at h
    subst h; simp
  | cons d r ih =>
    obtain ⟨l', ls', hr⟩ := lines_cons r
    intro c hc
    cases he : isEol d with
    | true =>
      rw [lines_eol d r he, List.mem_cons] at h
      rcases h with rfl | h
      · simp at hc
      · exact ⟨by simp [(ih l h c hc).1], (ih l h c hc).2⟩
    | false =>
      rw [lines_other d r l' ls' he hr, List.mem_cons] at h
      rcases h with rfl | h
      · rcases List.mem_cons.1 hc with rfl | hc
        · exact ⟨by simp, by rw [← isEol_iff, he]; simp⟩
        · have := ih l' (by simp [hr]) c hc
          exact ⟨by simp [this.1], this.2⟩
      · have := ih l (by simp [hr, h]) c hc
        exact ⟨by simp [this.1], this.2⟩

theorem cstr_nulFree (s : Str) (h : NulFree s) : cstr s = s := by
  induction s with
  | nil => rfl
  | cons c s ih =>
    have hc : c ≠ 0 := h c (by simp)
    simp only [cstr, List.takeWhile_cons]
    rw [if_pos (by simpa using hc)]
    congr 1
    exact ih (fun b hb => h b (by simp [hb]))

theorem strip_sp (c : Byte) (l : Str) (h : sp c = true) : strip (c :: l) = strip l := by
  have hw : Spec.White c := by
    simp only [sp, Bool.or_eq_true, beq_iff_eq] at h
    rcases h with h | h <;> simp [Spec.White, h]
  obtain ⟨⟨pre, post, hs, hpre, hpost⟩, hh, hl⟩ := C04.strip_middle l
  apply C04.strip_unique
  refine ⟨⟨c :: pre, post, ?_, ?_, hpost⟩, hh, hl⟩
  · rw [List.cons_append, List.cons_append, ← hs]
  · intro x hx
    rcases List.mem_cons.1 hx with rfl | hx
    · exact hw
    · exact hpre x hx

/-- A line that starts with a byte that is no white space keeps that byte first. -/
theorem strip_head (c : Byte) (l : Str) (h : ¬ Spec.White c) : ∃ l', strip (c :: l) = c :: l' := by
  obtain ⟨⟨pre, post, hs, hpre, hpost⟩, hh, hl⟩ := C04.strip_middle (c :: l)
  cases pre with
  | cons x pre =>
    simp only [List.cons_append, List.cons.injEq] at hs
    obtain ⟨rfl, -⟩ := hs
    exact absurd (hpre c (by simp)) h
  | nil =>
    cases hm : strip (c :: l) with
    | nil =>
      rw [hm] at hs
      simp only [List.nil_append] at hs
      exact absurd (hpost c (by simp [← hs])) h
    | cons x m =>
      rw [hm] at hs
      simp only [List.nil_append, List.cons_append, List.cons.injEq] at hs
      exact ⟨m, by rw [hs.1]⟩

theorem realEntry_eq (line : Str) (hn : NulFree line) (hl : ∀ c ∈ line, ¬ (c = 0x0a ∨ c = 0x0d))
    (ho : ¬ OddStart line) : realEntry line = entry line := by
  induction line with
  | nil => rfl
  | cons c l ih =>
    cases hsp : sp c with
    | true =>
      have h1 : realEntry (c :: l) = realEntry l := by simp [realEntry, hsp]
      have h2 : entry (c :: l) = entry l := by simp only [entry, strip_sp c l hsp]
      rw [h1, h2]
      apply ih (fun b hb => hn b (by simp [hb])) (fun b hb => hl b (by simp [hb]))
      intro h
      apply ho
      simpa [OddStart, hsp] using h
    | false =>
      have hw : ¬ Spec.White c := by
        intro hw
        simp only [sp, Bool.or_eq_false_iff, beq_eq_false_iff_ne] at hsp
        have hl := hl c (by simp)
        rcases hw with h | h | h | h | h | h
        · exact hsp.1 h
        · exact hsp.2 h
        · exact hl (Or.inl h)
        · exact ho ⟨c, by simp [sp, hsp], Or.inl h⟩
        · exact ho ⟨c, by simp [sp, hsp], Or.inr h⟩
        · exact hl (Or.inr h)
      obtain ⟨l', hl'⟩ := strip_head c l hw
      have h1 : realEntry (c :: l) = if c = 0x23 then none else some (strip (cstr (c :: l))) := by
        simp only [realEntry, List.dropWhile_cons, hsp, Bool.false_eq_true, if_false]
      rw [h1, cstr_nulFree _ hn]
      simp only [entry, hl']

/-- Proved part: the entries are exactly the trimmed non-blank non-comment
lines, in order, for every text in which no line starts (after spaces and tabs)
with a form feed or a vertical tab. Missing: such lines, see `exact_violated`. -/
theorem exact_partial (src : Str) (hn : NulFree src) (ho : ∀ l ∈ lines src, ¬ OddStart l) :
    FileList.parse src = (lines src).filterMap entry := by
  rw [parse_eq]
  apply List.filterMap_congr
  intro l hl
  have := mem_lines src l hl
  exact realEntry_eq l (fun c hc => hn c (this c hc).1) (fun c hc => (this c hc).2) (ho l hl)

/-- A line with only a form feed gives an empty file name. -/
theorem exact_violated : ¬ Exact := by
  intro h
  have := h [0x0c, 0x0a] (by decide)
  revert this
  decide

example : FileList.parse b!"a.txt\n\n  # no\r\n\t b c.txt \nlast" =
    [b!"a.txt", b!"b c.txt", b!"last"] := by decide
example : ∀ l ∈ lines b!"a.txt\n\n  # no\r\n\t b c.txt \nlast", ¬ OddStart l := by
  have : lines b!"a.txt\n\n  # no\r\n\t b c.txt \nlast" =
    [b!"a.txt", [], b!"  # no", [], b!"\t b c.txt ", b!"last"] := by decide
  rw [this]
  simp [OddStart, sp]

end Blogc.C34
