import Verif.Model.ErrorText
import Verif.Props.C13
import Verif.Lemmas.Config

/-!
# The text of parser errors
-/

namespace Blogc

open Blogc.Spec

theorem terminators_length (rest : Str) (i : Nat) : (terminators rest i).length ≤ rest.length := by
  induction rest, i using C13.ind2 with
  | nil i => simp [terminators]
  | single c i =>
    simp only [terminators]
    split <;> simp
  | pair c d rest i ih2 ih1 =>
    rw [terminators]
    simp only [List.length_cons] at *
    split
    · simp only [List.length_cons]; omega
    · split
      · simp only [List.length_cons]; omega
      · omega

theorem lineNumber_le (src : Str) (k : Nat) : lineNumber src k ≤ src.length + 1 := by
  have h1 := terminators_length src 0
  have h2 : (termsBefore src k).length ≤ (terminators src 0).length := List.length_filter_le ..
  simp only [lineNumber]; omega

/-- A terminator begins with a line break. -/
theorem terminator_eol (rest : Str) (i : Nat) :
    ∀ t ∈ terminators rest i, t.2 ≤ t.1 + 2 ∧ (∃ c, rest[t.1 - i]? = some c ∧ isEol c = true) ∧
      ∃ c, rest[t.2 - 1 - i]? = some c ∧ isEol c = true := by
  induction rest, i using C13.ind2 with
  | nil i => simp [terminators]
  | single c i =>
    intro t ht
    rw [terminators, C13.termLen_single] at ht
    by_cases hc : isEol c
    · simp [hc] at ht; subst ht; simp [hc]
    · simp [hc] at ht
  | pair c d rest i ih2 ih1 =>
    intro t ht
    have one : t ∈ terminators (d :: rest) (i + 1) → t.2 ≤ t.1 + 2 ∧ (∃ x, (c :: d :: rest)[t.1 - i]? = some x ∧ isEol x = true) ∧
        ∃ x, (c :: d :: rest)[t.2 - 1 - i]? = some x ∧ isEol x = true := by
      intro ht
      have hb := C13.terminators_lb _ _ t ht
      obtain ⟨h0, h1, h2⟩ := ih1 t ht
      rw [show t.1 - i = (t.1 - (i + 1)) + 1 by omega, show t.2 - 1 - i = (t.2 - 1 - (i + 1)) + 1 by omega]
      exact ⟨h0, h1, h2⟩
    rw [terminators, C13.termLen_pair] at ht
    by_cases hp : isEolPair c d
    · rw [if_pos (by simp [hp])] at ht
      rcases List.mem_cons.1 ht with rfl | ht
      · have : isEol c = true ∧ isEol d = true := by
          simp [isEolPair] at hp
          simp [isEol]; grind
        refine ⟨by simp, ⟨c, by simp, this.1⟩, d, ?_, this.2⟩
        rw [show i + 2 - 1 - i = 1 by omega]; rfl
      · have hb := C13.terminators_lb _ _ t ht
        obtain ⟨h0, h1, h2⟩ := ih2 t ht
        rw [show t.1 - i = (t.1 - (i + 2)) + 1 + 1 by omega, show t.2 - 1 - i = (t.2 - 1 - (i + 2)) + 1 + 1 by omega]
        exact ⟨h0, h1, h2⟩
    · by_cases hc : isEol c
      · simp only [hp, hc, if_true, Bool.false_eq_true, if_false] at ht
        rw [if_neg (by decide)] at ht
        rcases List.mem_cons.1 ht with rfl | ht
        · refine ⟨by simp, ⟨c, by simp, hc⟩, c, ?_, hc⟩
          rw [show i + 1 - 1 - i = 0 by omega]; rfl
        · exact one ht
      · simp only [hp, hc, Bool.false_eq_true, if_false] at ht
        rw [if_neg (by decide), if_neg (by decide)] at ht
        exact one ht

theorem notEol {c : Byte} (h : c ≠ c!"\n" ∧ c ≠ c!"\r") : isEol c = false := by simp [isEol, h.1, h.2]

/-- No terminator goes over an offset on a line. -/
theorem onLine_apart {src : Str} {k : Nat} (h : OnLine src k) : ∀ t ∈ termsBefore src k, t.2 ≤ k := by
  intro t ht
  obtain ⟨i, c, hi, hc, hn⟩ := h
  have hm : t ∈ terminators src 0 := (List.mem_filter.1 ht).1
  have hlt : t.1 < k := by simpa using (List.mem_filter.1 ht).2
  obtain ⟨h2, ⟨x, hx, ex⟩, y, hy, ey⟩ := terminator_eol src 0 t hm
  have hb := C13.terminators_lb src 0 t hm
  apply Nat.le_of_not_lt
  intro hgt
  have he := notEol hn
  rcases hi with rfl | rfl
  · rw [show t.2 - 1 - 0 = i by omega, hc] at hy
    injection hy with hy
    rw [hy, ey] at he
    cases he
  · rw [show t.1 - 0 = i by omega, hc] at hx
    injection hx with hx
    rw [hx, ex] at he
    cases he

/-- The end of the line is searched from the error position on. -/
theorem loop_lineend_apart (len cur : Nat) (rest : Str) (i : Nat) :
    ∀ (st : ErrLoc), i ≤ cur → cur ≤ i + rest.length → (∀ t ∈ C13.tb cur rest i, t.2 ≤ cur) →
    (errLoop len cur rest i st).lineend = (match (rest.drop (cur - i)).findIdx? isEol with
      | some k => cur + k
      | none => st.lineend) := by
  induction rest, i using C13.ind2 with
  | nil i => intro st h1 h2 h3; simp [errLoop]
  | single c i =>
    intro st h1 h2 h3
    by_cases hi : i < cur
    · have : cur = i + 1 := by simp at h2; omega
      subst this
      rw [errLoop, if_pos hi, Nat.add_sub_cancel_left]
      split <;> rfl
    · have : cur = i := by omega
      subst this
      rw [C13.loop_after _ _ _ _ _ (Nat.le_refl _)]
      simp only [Nat.sub_self, List.drop_zero]
      cases List.findIdx? isEol [c] <;> rfl
  | pair c d rest i ih2 ih1 =>
    intro st h1 h2 h3
    simp only [List.length_cons] at h2 ih1
    by_cases hi : i < cur
    · rw [errLoop, if_pos hi]
      rw [C13.tb_pair _ _ _ _ _ hi] at h3
      by_cases hp : isEolPair c d
      · rw [if_pos hp] at h3 ⊢
        have h4 : i + 2 ≤ cur := h3 _ (List.mem_cons_self ..)
        rw [ih2 _ h4 (by omega) (fun t ht => h3 t (List.mem_cons_of_mem _ ht)),
          show cur - i = (cur - (i + 2)) + 1 + 1 by omega, List.drop_succ_cons, List.drop_succ_cons]
      · rw [if_neg hp] at h3 ⊢
        rw [show cur - i = (cur - (i + 1)) + 1 by omega, List.drop_succ_cons]
        split
        · rename_i hc
          rw [if_pos hc] at h3
          rw [ih1 _ (by omega) (by omega) (fun t ht => h3 t (List.mem_cons_of_mem _ ht))]
        · rename_i hc
          rw [if_neg hc] at h3
          rw [ih1 _ (by omega) (by omega) h3]
    · have : cur = i := by omega
      subst this
      rw [C13.loop_after _ _ _ _ _ (Nat.le_refl _)]
      simp only [Nat.sub_self, List.drop_zero]
      cases List.findIdx? isEol (c :: d :: rest) <;> rfl

theorem onLine_le {src : Str} {k : Nat} (h : OnLine src k) : k ≤ src.length := by
  obtain ⟨i, c, hi, hc, _⟩ := h
  obtain ⟨hlt, _⟩ := List.getElem?_eq_some_iff.1 hc
  omega

/-- The line of an offset on a line is not empty. -/
theorem line_contains {src : Str} {k : Nat} (h : OnLine src k) :
    lineStart src k ≤ k ∧ k ≤ lineEnd src k ∧ lineEnd src k ≤ src.length ∧ lineStart src k < lineEnd src k := by
  have ha := onLine_apart h
  have hk := onLine_le h
  have h1 : lineStart src k ≤ k := by
    rw [lineStart]
    cases hg : (termsBefore src k).getLast? with
    | none => simp
    | some t => exact ha t (List.mem_of_getLast? hg)
  have h3 : lineEnd src k ≤ src.length := by
    have h3 := (List.takeWhile_sublist (fun c => c != 0x0a && c != 0x0d) (l := src.drop k)).length_le
    rw [List.length_drop] at h3
    rw [lineEnd]
    omega
  refine ⟨h1, by rw [lineEnd]; omega, h3, ?_⟩
  obtain ⟨i, c, hi, hc, hn⟩ := h
  rcases hi with rfl | rfl
  · obtain ⟨hlt, e⟩ := List.getElem?_eq_some_iff.1 hc
    rw [lineEnd, List.drop_eq_getElem_cons hlt, e, List.takeWhile_cons, if_pos (by simp [hn.1, hn.2])]
    simp only [List.length_cons]
    omega
  · have : lineStart src (i + 1) ≠ i + 1 := by
      intro e
      rw [lineStart] at e
      cases hg : (termsBefore src (i + 1)).getLast? with
      | none => rw [hg] at e; cases e
      | some t =>
        rw [hg] at e
        simp only at e
        have hm := (List.mem_filter.1 (List.mem_of_getLast? hg)).1
        obtain ⟨_, _, y, hy, ey⟩ := terminator_eol src 0 t hm
        rw [show t.2 - 1 - 0 = i by omega, hc] at hy
        injection hy with hy
        have he := notEol hn
        rw [hy, ey] at he
        cases he
    rw [lineEnd]
    omega

/-- An error at an offset on a line quotes that line. -/
theorem errLine_at {src : Str} {k : Nat} (h : OnLine src k) :
    errLine src k = .ok (cstr (slice src (lineStart src k) (lineEnd src k))) := by
  have ha := onLine_apart h
  have hk := onLine_le h
  obtain ⟨h1, h2, h3, h4⟩ := line_contains h
  obtain ⟨_, e2, _⟩ := C13.loop_spec src.length k src 0 ⟨1, 0, 0, 1⟩ (by omega) (by omega) (by omega)
  have e4 := loop_lineend_apart src.length k src 0 ⟨1, 0, 0, 1⟩ (by omega) (by omega) ha
  have hs : (errLoop src.length k src 0 ⟨1, 0, 0, 1⟩).linestart = lineStart src k := by
    have hlast : ∀ t, (C13.tb k src 0).getLast? = some t → t.2 < src.length := by
      intro t ht
      have : lineStart src k = t.2 := by
        rw [lineStart, show (termsBefore src k).getLast? = some t from ht]
      omega
    rw [e2, lineStart, show termsBefore src k = C13.tb k src 0 from rfl]
    generalize C13.tb k src 0 = ts at hlast
    rcases List.eq_nil_or_concat ts with rfl | ⟨l, t, rfl⟩
    · rfl
    · rw [List.concat_eq_append, List.getLast?_concat] at *
      simp only [C13.lastStart, List.foldl_append, List.foldl_cons, List.foldl_nil]
      rw [if_pos (hlast t rfl)]
  have hend : lineEnd src k = (match (src.drop k).findIdx? isEol with
      | some j => k + j
      | none => src.length) := by
    unfold lineEnd
    rw [C13.findIdx_lineEnd]
    cases (src.drop k).findIdx? isEol with
    | none => simp; omega
    | some j => rfl
  unfold errLine errLocate
  simp only [Nat.sub_zero] at e4 ⊢
  generalize errLoop src.length k src 0 ⟨1, 0, 0, 1⟩ = st at hs e4
  cases hf : (src.drop k).findIdx? isEol with
  | none =>
    rw [hf] at e4 hend
    simp only at e4 hend ⊢
    have c1 : st.lineend ≤ st.linestart ∧ src.length ≥ st.linestart := by omega
    rw [if_pos c1]
    simp only
    rw [if_pos (by omega), hs, hend]
  | some j =>
    rw [hf] at e4 hend
    simp only at e4 hend ⊢
    have c1 : ¬ (st.lineend ≤ st.linestart ∧ src.length ≥ st.linestart) := by omega
    rw [if_neg c1, if_pos (by omega), hs, hend, e4]

/-- The text of an error at an offset on a line. -/
theorem errText_on {src msg : Str} {k : Nat} (hs : src.length < 2 ^ 31 - 1) (hn : NulFree src) (h : OnLine src k) :
    errText src k msg = .ok (msg ++ b!"\nError occurred near line " ++ decNat (lineNumber src k) ++
      b!", position " ++ decNat (column src k) ++ b!": " ++ slice src (lineStart src k) (lineEnd src k)) := by
  have hk := onLine_le h
  obtain ⟨h1, _, h2, h0⟩ := line_contains h
  obtain ⟨e1, e2⟩ := C13.error_position src k (by omega)
  have hf : NulFree (slice src (lineStart src k) (lineEnd src k)) := fun x hx =>
    hn x (List.mem_of_mem_drop (List.mem_of_mem_take hx))
  have hne : slice src (lineStart src k) (lineEnd src k) ≠ [] := by
    intro h
    have := congrArg List.length h
    simp [slice] at this
    omega
  have h3 := lineNumber_le src k
  have h4 : column src k ≤ k + 1 := by simp only [column]; omega
  rw [errText, errLine_at h, Res.bind, Blogc.Config.cstr_of_nulFree _ hf, if_neg hne, e1, e2, printInt,
    if_pos (by omega), Res.bind, printInt, if_pos (by omega), Res.bind]

/-- The text of an error at a character of a line. -/
theorem errText_at {src msg : Str} {k : Nat} {c : Byte} (hs : src.length < 2 ^ 31 - 1) (hn : NulFree src)
    (hk : src[k]? = some c) (hc : c ≠ c!"\n" ∧ c ≠ c!"\r") :
    errText src k msg = .ok (msg ++ b!"\nError occurred near line " ++ decNat (lineNumber src k) ++
      b!", position " ++ decNat (column src k) ++ b!": " ++ slice src (lineStart src k) (lineEnd src k)) :=
  errText_on hs hn ⟨k, c, .inl rfl, hk, hc⟩

/-- Wherever the error is, the line and the column are right, if they are given. -/
theorem errText_numbered {src msg : Str} {k : Nat} (hs : src.length < 2 ^ 31 - 1) (hk : k ≤ src.length) :
    errText src k msg = .ok msg ∨ ∃ line, errText src k msg =
      .ok (msg ++ b!"\nError occurred near line " ++ decNat (lineNumber src k) ++ b!", position " ++
        decNat (column src k) ++ b!": " ++ line) := by
  obtain ⟨line, hl⟩ := C13.error_line_in_bounds src k (by omega)
  obtain ⟨e1, e2⟩ := C13.error_position src k (by omega)
  have h3 := lineNumber_le src k
  have h4 : column src k ≤ k + 1 := by simp only [column]; omega
  rw [errText, hl, Res.bind]
  by_cases h : line = []
  · rw [if_pos h]; exact .inl rfl
  · rw [if_neg h, e1, e2, printInt, if_pos (by omega), Res.bind, printInt, if_pos (by omega), Res.bind]
    exact .inr ⟨line, rfl⟩

/-- A position whose line or column does not fit in an `int`. -/
theorem errText_far {src msg : Str} {k : Nat} (hn : NulFree src) (h : OnLine src k)
    (hf : 2 ^ 31 ≤ lineNumber src k ∨ 2 ^ 31 ≤ column src k) : errText src k msg = .ub := by
  have hk := onLine_le h
  obtain ⟨h1, h2, h3, h4⟩ := line_contains h
  obtain ⟨e1, e2⟩ := C13.error_position src k hk
  have hf0 : NulFree (slice src (lineStart src k) (lineEnd src k)) := fun x hx =>
    hn x (List.mem_of_mem_drop (List.mem_of_mem_take hx))
  have hne : slice src (lineStart src k) (lineEnd src k) ≠ [] := by
    intro e
    have := congrArg List.length e
    simp only [slice, List.length_take, List.length_drop, List.length_nil] at this
    omega
  rw [errText, errLine_at h, Blogc.Config.cstr_of_nulFree _ hf0, Res.bind, if_neg hne, e1, e2]
  by_cases hl : lineNumber src k < 2 ^ 31
  · rw [printInt, if_pos hl, Res.bind, printInt, if_neg (by omega), Res.bind]
  · rw [printInt, if_neg hl, Res.bind]

/-- Each line break counts. -/
theorem terminators_breaks (n i : Nat) (c : Byte) (rest : Str) (hc : c ≠ c!"\r") :
    (terminators (List.replicate n c!"\n" ++ c :: rest) i).map Prod.fst =
      (List.range' i n) ++ (terminators (c :: rest) (i + n)).map Prod.fst := by
  induction n generalizing i with
  | zero => rfl
  | succ n ih =>
    have : ∃ d t, List.replicate n c!"\n" ++ c :: rest = d :: t ∧ d ≠ c!"\r" := by
      cases n with
      | zero => exact ⟨c, rest, rfl, hc⟩
      | succ n => exact ⟨_, _, rfl, by decide⟩
    obtain ⟨d, t, e, hd⟩ := this
    have ht : termLen (c!"\n" :: d :: t) = 1 := by
      rw [C13.termLen_pair]
      have : isEolPair c!"\n" d = false := by simp [isEolPair, hd]
      rw [this]; rfl
    rw [List.replicate_succ, List.cons_append, e, terminators, ht, if_neg (by decide), if_pos rfl, ← e,
      List.map_cons, ih, List.range'_succ, show i + 1 + n = i + (n + 1) by omega]
    rfl

/-- The line after a number of empty lines. -/
theorem lineNumber_breaks (n m : Nat) (c : Byte) (rest : Str) (hc : c ≠ c!"\r") :
    n + 1 ≤ lineNumber (List.replicate n c!"\n" ++ c :: rest) (n + m) := by
  have h := terminators_breaks n 0 c rest hc
  have e : (termsBefore (List.replicate n c!"\n" ++ c :: rest) (n + m)).length =
      (((terminators (List.replicate n c!"\n" ++ c :: rest) 0).map Prod.fst).filter (· < n + m)).length := by
    rw [termsBefore, List.filter_map, List.length_map]
    rfl
  rw [lineNumber, e, h, List.filter_append, List.length_append, List.filter_eq_self.2]
  · simp only [List.length_range']; omega
  · intro x hx
    have := List.mem_range'_1.1 hx
    simp; omega

end Blogc
