import Verif.Model.Error
import Verif.Spec.Lines

/-!
# C13: parser errors name the right line and column
-/

namespace Blogc.C13

open Blogc Blogc.Spec

/-- The terminators of `rest` (at offset `i`) that start before `cur`. -/
def tb (cur : Nat) (rest : Str) (i : Nat) : List (Nat × Nat) :=
  (terminators rest i).filter (fun t => t.1 < cur)

theorem ind2 {motive : Str → Nat → Prop} (nil : ∀ i, motive [] i) (single : ∀ c i, motive [c] i)
    (pair : ∀ c d rest i, motive rest (i + 2) → motive (d :: rest) (i + 1) →
      motive (c :: d :: rest) i) : ∀ rest i, motive rest i
  | [], i => nil i
  | [c], i => single c i
  | c :: d :: rest, i =>
    pair c d rest i (ind2 nil single pair rest (i + 2)) (ind2 nil single pair (d :: rest) (i + 1))

theorem isEol_iff (c : Byte) : isEol c = true ↔ c = 0x0a ∨ c = 0x0d := by
  simp [isEol]

theorem termLen_pair (c d : Byte) (rest : Str) :
    termLen (c :: d :: rest) = if isEolPair c d then 2 else if isEol c then 1 else 0 := by
  unfold termLen isEolPair isEol
  split <;> simp_all <;> grind

theorem termLen_single (c : Byte) : termLen [c] = if isEol c then 1 else 0 := by
  unfold termLen isEol
  split <;> simp_all

theorem terminators_lb (rest : Str) (i : Nat) : ∀ t ∈ terminators rest i, i ≤ t.1 ∧ t.1 < t.2 ∧
    t.2 ≤ i + rest.length := by
  induction rest, i using ind2 with
  | nil i => simp [terminators]
  | single c i =>
    intro t ht
    simp only [terminators] at ht
    split at ht
    · simp at ht; subst ht; simp
    · simp at ht
  | pair c d rest i ih2 ih1 =>
    intro t ht
    rw [terminators] at ht
    simp only [List.length_cons] at *
    split at ht
    · rcases List.mem_cons.1 ht with rfl | ht
      · simp
      · have := ih2 t ht; omega
    · split at ht
      · rcases List.mem_cons.1 ht with rfl | ht
        · simp
        · have := ih1 t ht; omega
      · have := ih1 t ht; omega

theorem tb_nil_of_ge (cur : Nat) (rest : Str) (i : Nat) (h : cur ≤ i) : tb cur rest i = [] := by
  unfold tb
  rw [List.filter_eq_nil_iff]
  intro t ht
  have := (terminators_lb rest i t ht).1
  simp only [decide_eq_true_eq]
  omega

theorem tb_pair (cur : Nat) (c d : Byte) (rest : Str) (i : Nat) (h : i < cur) :
    tb cur (c :: d :: rest) i =
      if isEolPair c d then (i, i + 2) :: tb cur rest (i + 2)
      else if isEol c then (i, i + 1) :: tb cur (d :: rest) (i + 1)
      else tb cur (d :: rest) (i + 1) := by
  unfold tb
  rw [terminators, termLen_pair]
  by_cases h1 : isEolPair c d
  · simp [h1, h]
  · by_cases h2 : isEol c
    · simp [h1, h2, h]
    · simp [h1, h2]

theorem tb_single (cur : Nat) (c : Byte) (i : Nat) (h : i < cur) :
    tb cur [c] i = if isEol c then [(i, i + 1)] else [] := by
  unfold tb
  rw [terminators, termLen_single]
  by_cases h2 : isEol c <;> simp [h2, h]

/-- Past the error position nothing but the end of the line is searched. -/
theorem loop_after (len cur : Nat) (rest : Str) (i : Nat) (st : ErrLoc) (h : cur ≤ i) :
    errLoop len cur rest i st =
      match rest.findIdx? isEol with
      | some k => { st with lineend := i + k }
      | none => st := by
  induction rest generalizing i with
  | nil => rfl
  | cons c rest ih =>
    have e : errLoop len cur (c :: rest) i st =
        if isEol c then { st with lineend := i } else errLoop len cur rest (i + 1) st := by
      cases rest with
      | nil => simp only [errLoop]; rw [if_neg (by omega)]
      | cons d rest => rw [errLoop, if_neg (by omega)]
    rw [e, List.findIdx?_cons]
    by_cases hc : isEol c
    · simp [hc]
    · simp only [hc, if_false, Bool.false_eq_true]
      rw [ih (i + 1) (by omega)]
      cases rest.findIdx? isEol with
      | none => rfl
      | some k => simp; omega

/-- Where the last line starts, for a loop state that had `ls` before. -/
def lastStart (len ls : Nat) (ts : List (Nat × Nat)) : Nat :=
  ts.foldl (fun a t => if t.2 < len then t.2 else a) ls

/-- What the loop computes. -/
theorem loop_spec (len cur : Nat) (rest : Str) (i : Nat) :
    ∀ (st : ErrLoc), i ≤ cur → cur ≤ i + rest.length → i + rest.length = len →
    (errLoop len cur rest i st).lineno = st.lineno + (tb cur rest i).length ∧
    (errLoop len cur rest i st).linestart = lastStart len st.linestart (tb cur rest i) ∧
    (errLoop len cur rest i st).pos = (match (tb cur rest i).getLast? with
      | some t => cur - t.2 + 1
      | none => st.pos + (cur - i)) := by
  induction rest, i using ind2 with
  | nil i =>
    intro st h1 h2 h3
    simp only [List.length_nil] at h2
    have : cur = i := by omega
    subst this
    simp [errLoop, tb, terminators, lastStart]
  | single c i =>
    intro st h1 h2 h3
    by_cases hi : i < cur
    · rw [errLoop, tb_single cur c i hi, if_pos hi]
      simp only [List.length_singleton] at h2 h3
      by_cases hc : isEol c
      · have : cur = i + 1 := by omega
        subst this; subst h3
        simp [hc, lastStart]
      · have : cur = i + 1 := by omega
        subst this
        simp [hc, lastStart]
    · rw [loop_after _ _ _ _ _ (by omega), tb_nil_of_ge _ _ _ (by omega)]
      split <;> simp [lastStart] <;> omega
  | pair c d rest i ih2 ih1 =>
    intro st h1 h2 h3
    simp only [List.length_cons] at h2 h3 ih1
    by_cases hi : i < cur
    · rw [tb_pair _ _ _ _ _ hi, errLoop, if_pos hi]
      by_cases hp : isEolPair c d
      · rw [if_pos hp, if_pos hp]
        by_cases hi2 : i + 2 ≤ cur
        · obtain ⟨e1, e2, e3⟩ := ih2
            ⟨st.lineno + 1, if i + 2 < len then i + 2 else st.linestart, st.lineend, 1⟩ hi2 (by omega) (by omega)
          refine ⟨?_, ?_, ?_⟩
          · rw [e1]; simp; omega
          · rw [e2]; simp [lastStart]
          · rw [e3, List.getLast?_cons]
            cases (tb cur rest (i + 2)).getLast? with
            | none => simp; omega
            | some t => rfl
        · rw [loop_after _ _ _ _ _ (by omega), tb_nil_of_ge _ _ _ (by omega)]
          split <;> simp [lastStart] <;> omega
      · rw [if_neg hp, if_neg hp]
        by_cases hc : isEol c
        · rw [if_pos hc, if_pos hc]
          obtain ⟨e1, e2, e3⟩ := ih1
            ⟨st.lineno + 1, if i + 1 < len then i + 1 else st.linestart, st.lineend, 1⟩ (by omega) (by omega)
            (by omega)
          refine ⟨?_, ?_, ?_⟩
          · rw [e1]; simp; omega
          · rw [e2]; simp [lastStart]
          · rw [e3, List.getLast?_cons]
            cases (tb cur (d :: rest) (i + 1)).getLast? with
            | none => simp; omega
            | some t => rfl
        · rw [if_neg hc, if_neg hc]
          obtain ⟨e1, e2, e3⟩ := ih1 { st with pos := st.pos + 1 } (by omega) (by omega) (by omega)
          refine ⟨e1, e2, ?_⟩
          rw [e3]
          cases (tb cur (d :: rest) (i + 1)).getLast? with
          | none => simp; omega
          | some t => rfl
    · rw [loop_after _ _ _ _ _ (by omega), tb_nil_of_ge _ _ _ (by omega)]
      split <;> simp [lastStart] <;> omega

theorem locate_lineno (src : Str) (cur : Nat) :
    (errLocate src cur).lineno = (errLoop src.length cur src 0 ⟨1, 0, 0, 1⟩).lineno ∧
    (errLocate src cur).pos = (errLoop src.length cur src 0 ⟨1, 0, 0, 1⟩).pos ∧
    (errLocate src cur).linestart = (errLoop src.length cur src 0 ⟨1, 0, 0, 1⟩).linestart := by
  unfold errLocate
  simp only
  split <;> simp

/-- The reported line and column are those of the error position: one plus the
number of line terminators that start before it, and the distance from the end
of the last of these. -/
theorem error_position (src : Str) (cur : Nat) (h : cur ≤ src.length) :
    (errLocate src cur).lineno = lineNumber src cur ∧
    (errLocate src cur).pos = column src cur := by
  obtain ⟨l1, l2, _⟩ := locate_lineno src cur
  obtain ⟨e1, _, e3⟩ := loop_spec src.length cur src 0 ⟨1, 0, 0, 1⟩ (by omega) (by omega) (by omega)
  rw [l1, l2, e1, e3]
  have e : termsBefore src cur = tb cur src 0 := rfl
  unfold lineNumber column lineStart
  rw [e]
  refine ⟨by simp; omega, ?_⟩
  cases (tb cur src 0).getLast? with
  | none => simp; omega
  | some t => rfl

theorem lastStart_le (len ls : Nat) (ts : List (Nat × Nat)) (h : ls ≤ len) :
    lastStart len ls ts ≤ len := by
  induction ts generalizing ls with
  | nil => exact h
  | cons t ts ih =>
    simp only [lastStart, List.foldl_cons] at ih ⊢
    apply ih
    split <;> omega

theorem loop_lineend_le (len cur : Nat) (rest : Str) (i : Nat) (st : ErrLoc)
    (hl : i + rest.length = len) (hst : st.lineend ≤ len) :
    (errLoop len cur rest i st).lineend ≤ len := by
  induction rest, i using ind2 generalizing st with
  | nil i => exact hst
  | single c i =>
    rw [errLoop]
    simp only [List.length_singleton] at hl
    split
    · split <;> exact hst
    · split
      · simp; omega
      · exact hst
  | pair c d rest i ih2 ih1 =>
    rw [errLoop]
    simp only [List.length_cons] at hl ih1
    split
    · split
      · exact ih2 _ (by omega) hst
      · split <;> exact ih1 _ (by omega) hst
    · split
      · simp; omega
      · exact ih1 _ (by omega) hst

/-- The quoted line is always read inside the source. -/
theorem error_line_in_bounds (src : Str) (cur : Nat) (h : cur ≤ src.length) :
    ∃ l, errLine src cur = .ok l := by
  obtain ⟨_, e2, _⟩ := loop_spec src.length cur src 0 ⟨1, 0, 0, 1⟩ (by omega) (by omega) (by omega)
  have h1 := lastStart_le src.length 0 (tb cur src 0) (by omega)
  have h2 := loop_lineend_le src.length cur src 0 ⟨1, 0, 0, 1⟩ (by omega) (by simp)
  refine ⟨cstr (slice src (errLocate src cur).linestart (errLocate src cur).lineend), ?_⟩
  unfold errLine
  simp only
  rw [if_pos]
  unfold errLocate
  simp only
  split
  · simp only; omega
  · rename_i hn
    rw [e2] at hn ⊢
    simp only at hn ⊢
    omega

/-- The end of the line is searched from the error position on. -/
theorem loop_lineend (len cur : Nat) (rest : Str) (i : Nat) :
    ∀ (st : ErrLoc) (x : Byte), i ≤ cur → rest[cur - i]? = some x → isEol x = false →
    (errLoop len cur rest i st).lineend = (match (rest.drop (cur - i)).findIdx? isEol with
      | some k => cur + k
      | none => st.lineend) := by
  induction rest, i using ind2 with
  | nil i => intro st x h1 h2 h3; simp at h2
  | single c i =>
    intro st x h1 h2 h3
    have : cur - i = 0 := by
      rcases Nat.eq_zero_or_pos (cur - i) with h | h
      · exact h
      · rw [List.getElem?_eq_none (by simp; omega)] at h2; simp at h2
    have : cur = i := by omega
    subst this
    rw [loop_after _ _ _ _ _ (Nat.le_refl _)]
    simp only [Nat.sub_self, List.drop_zero]
    split <;> rfl
  | pair c d rest i ih2 ih1 =>
    intro st x h1 h2 h3
    by_cases hi : i < cur
    · rw [errLoop, if_pos hi]
      by_cases hp : isEolPair c d
      · rw [if_pos hp]
        by_cases h12 : cur = i + 1
        · subst h12
          simp only [Nat.add_sub_cancel_left, List.getElem?_cons_succ, List.getElem?_cons_zero,
            Option.some.injEq] at h2
          subst h2
          simp [isEolPair, isEol] at hp h3
          grind
        · have e : cur - i = (cur - (i + 2)) + 2 := by omega
          rw [e, List.getElem?_cons_succ, List.getElem?_cons_succ] at h2
          rw [ih2 _ x (by omega) h2 h3, e, List.drop_succ_cons, List.drop_succ_cons]
      · have e : cur - i = (cur - (i + 1)) + 1 := by omega
        rw [e, List.getElem?_cons_succ] at h2
        rw [if_neg hp, e, List.drop_succ_cons]
        split
        · rw [ih1 _ x (by omega) h2 h3]
        · rw [ih1 _ x (by omega) h2 h3]
    · have : cur = i := by omega
      subst this
      rw [loop_after _ _ _ _ _ (Nat.le_refl _)]
      simp only [Nat.sub_self, List.drop_zero]
      split <;> rfl

theorem tb_le (cur : Nat) (rest : Str) (i : Nat) :
    ∀ (x : Byte), i ≤ cur → rest[cur - i]? = some x → isEol x = false →
    ∀ t ∈ tb cur rest i, t.2 ≤ cur := by
  induction rest, i using ind2 with
  | nil i => intro x h1 h2 h3; simp at h2
  | single c i =>
    intro x h1 h2 h3 t ht
    by_cases hi : i < cur
    · rw [List.getElem?_eq_none (by simp; omega)] at h2; simp at h2
    · rw [tb_nil_of_ge _ _ _ (by omega)] at ht; simp at ht
  | pair c d rest i ih2 ih1 =>
    intro x h1 h2 h3 t ht
    by_cases hi : i < cur
    · rw [tb_pair _ _ _ _ _ hi] at ht
      by_cases hp : isEolPair c d
      · rw [if_pos hp] at ht
        by_cases h12 : cur = i + 1
        · subst h12
          simp only [Nat.add_sub_cancel_left, List.getElem?_cons_succ, List.getElem?_cons_zero,
            Option.some.injEq] at h2
          subst h2
          simp [isEolPair, isEol] at hp h3
          grind
        · have e : cur - i = (cur - (i + 2)) + 2 := by omega
          rw [e, List.getElem?_cons_succ, List.getElem?_cons_succ] at h2
          rcases List.mem_cons.1 ht with rfl | ht
          · simp; omega
          · exact ih2 x (by omega) h2 h3 t ht
      · have e : cur - i = (cur - (i + 1)) + 1 := by omega
        rw [e, List.getElem?_cons_succ] at h2
        rw [if_neg hp] at ht
        split at ht
        · rcases List.mem_cons.1 ht with rfl | ht
          · simp; omega
          · exact ih1 x (by omega) h2 h3 t ht
        · exact ih1 x (by omega) h2 h3 t ht
    · rw [tb_nil_of_ge _ _ _ (by omega)] at ht; simp at ht

theorem lastStart_eq (len ls : Nat) (ts : List (Nat × Nat)) (h : ∀ t ∈ ts, t.2 < len) :
    lastStart len ls ts = (match ts.getLast? with
      | some t => t.2
      | none => ls) := by
  induction ts generalizing ls with
  | nil => rfl
  | cons t ts ih =>
    simp only [lastStart, List.foldl_cons] at ih ⊢
    rw [ih _ (fun t ht => h t (List.mem_cons_of_mem _ ht)), List.getLast?_cons,
      if_pos (h t (List.mem_cons_self ..))]
    cases ts.getLast? <;> rfl

theorem findIdx_lineEnd (s : Str) :
    (s.takeWhile (fun c => c != 0x0a && c != 0x0d)).length =
      (match s.findIdx? isEol with
      | some k => k
      | none => s.length) := by
  induction s with
  | nil => rfl
  | cons c s ih =>
    rw [List.findIdx?_cons, List.takeWhile_cons]
    by_cases hc : isEol c
    · have : (c != 0x0a && c != 0x0d) = false := by
        simp [isEol] at hc; grind
      simp [hc, this]
    · have : (c != 0x0a && c != 0x0d) = true := by
        simp [isEol] at hc; grind
      rw [if_pos this, if_neg hc, List.length_cons, ih]
      cases s.findIdx? isEol <;> simp

/-- An error at a character of a line quotes that line, from its first
character to the last one before its terminator. -/
theorem quoted_line (src : Str) (cur : Nat) (c : Byte) (h : src[cur]? = some c)
    (hc : c ≠ 0x0a ∧ c ≠ 0x0d) :
    errLine src cur = .ok (cstr (slice src (lineStart src cur) (lineEnd src cur))) := by
  have hlt : cur < src.length := by
    rcases Nat.lt_or_ge cur src.length with h' | h'
    · exact h'
    · rw [List.getElem?_eq_none h'] at h; simp at h
  have hc' : isEol c = false := by simp [isEol]; grind
  obtain ⟨_, e2, _⟩ := loop_spec src.length cur src 0 ⟨1, 0, 0, 1⟩ (by omega) (by omega) (by omega)
  have hle := tb_le cur src 0 c (by omega) (by simpa using h) hc'
  rw [lastStart_eq _ _ _ (fun t ht => by have := hle t ht; omega)] at e2
  have e4 := loop_lineend src.length cur src 0 ⟨1, 0, 0, 1⟩ c (by omega) (by simpa using h) hc'
  have hs : (errLoop src.length cur src 0 ⟨1, 0, 0, 1⟩).linestart = lineStart src cur := by
    rw [e2]; rfl
  have hsle : lineStart src cur ≤ cur := by
    rw [← hs, e2]
    cases hg : (tb cur src 0).getLast? with
    | none => simp
    | some t => exact hle t (List.mem_of_getLast? hg)
  have hend : lineEnd src cur = (match (src.drop cur).findIdx? isEol with
      | some k => cur + k
      | none => src.length) := by
    unfold lineEnd
    rw [findIdx_lineEnd]
    cases (src.drop cur).findIdx? isEol with
    | none => simp; omega
    | some k => rfl
  have hk : ∀ k, (src.drop cur).findIdx? isEol = some k → 0 < k ∧ cur + k ≤ src.length := by
    intro k hk
    have hd : src.drop cur = c :: src.drop (cur + 1) := by
      rw [List.drop_eq_getElem_cons hlt]
      rw [List.getElem?_eq_getElem hlt] at h
      simp only [Option.some.injEq] at h
      rw [h]
    have hlen := List.findIdx?_eq_some_iff_findIdx_eq.1 hk
    rw [hd, List.findIdx?_cons, if_neg (by simp [hc'])] at hk
    simp only [List.length_drop] at hlen
    constructor
    · rcases k with _ | k
      · simp at hk
      · omega
    · omega
  unfold errLine errLocate
  simp only [Nat.sub_zero] at e4 ⊢
  rw [hend]
  generalize errLoop src.length cur src 0 ⟨1, 0, 0, 1⟩ = st at hs e4
  cases hf : (src.drop cur).findIdx? isEol with
  | none =>
    rw [hf] at e4
    simp only at e4 ⊢
    have c1 : st.lineend ≤ st.linestart ∧ src.length ≥ st.linestart := by omega
    rw [if_pos c1]
    simp only
    rw [if_pos (by omega), hs]
  | some k =>
    have := hk k hf
    rw [hf] at e4
    simp only at e4 ⊢
    have c1 : ¬ (st.lineend ≤ st.linestart ∧ src.length ≥ st.linestart) := by omega
    rw [if_neg c1, if_pos (by omega), hs, e4]

/-! Non-vacuity: an error at the `b` of the second line. -/

example : (errLocate b!"one\r\n  bad\nthree" 7).lineno = 2 ∧
    (errLocate b!"one\r\n  bad\nthree" 7).pos = 3 ∧
    errLine b!"one\r\n  bad\nthree" 7 = .ok b!"  bad" := by decide
example : (b!"one\r\n  bad\nthree")[7]? = some 0x62 := by decide
example : lineNumber b!"one\r\n  bad\nthree" 7 = 2 ∧ column b!"one\r\n  bad\nthree" 7 = 3 ∧
    slice b!"one\r\n  bad\nthree" 5 10 = b!"  bad" := by decide

/-- At a line terminator the quoted text may go beyond the line: an error on
an empty line quotes the rest of the source. -/
theorem quoted_line_violated :
    ∃ src cur, cur < src.length ∧ lineStart src cur = lineEnd src cur ∧
      errLine src cur = .ok b!"\nb\nc" :=
  ⟨b!"a\n\nb\nc", 2, by decide⟩

end Blogc.C13
