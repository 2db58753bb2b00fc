import Verif.Model.Content
import Verif.Spec.Lists

/-!
# Lines and list markers, seen from a position in the text
-/

namespace Blogc.Content

open Blogc Blogc.Spec

theorem splitLines_append : ∀ {l t : Str}, (∀ c ∈ l, isNl c = false) →
    splitLines (l ++ t) = (l ++ (splitLines t).1, (splitLines t).2)
  | [], t, _ => rfl
  | c :: l, t, h => by
    have hc : newline c = false := h c (by simp)
    rw [List.cons_append, splitLines, hc, splitLines_append fun c hc => h c (by simp [hc])]
    rfl

theorem splitLines_nl {c : Byte} {t : Str} (hc : isNl c = true) :
    splitLines (c :: t) = ([], lines t) := by
  have hc : newline c = true := hc
  rw [splitLines, hc]; rfl

theorem slice_drop {src : Str} {a b : Nat} (hab : a ≤ b) : src.drop a = slice src a b ++ src.drop b := by
  unfold slice
  have : src.drop b = (src.drop a).drop (b - a) := by rw [List.drop_drop]; congr 1; omega
  rw [this, List.take_append_drop]

/-- A piece without newlines is part of the line. -/
theorem line_slice {src : Str} {a b : Nat} (hab : a ≤ b) (hn : ∀ c ∈ slice src a b, isNl c = false) :
    splitLines (src.drop a) =
      (slice src a b ++ (splitLines (src.drop b)).1, (splitLines (src.drop b)).2) := by
  conv => lhs; rw [slice_drop hab]
  exact splitLines_append hn

theorem drop_cons {src : Str} {k : Nat} {c : Byte} (hc : src[k]? = some c) :
    src.drop k = c :: src.drop (k + 1) := by
  have h := List.getElem?_eq_some_iff.1 hc
  rw [List.drop_eq_getElem_cons h.1, h.2]

theorem mem_block {l : Str} {ls : List Str} (h : l ≠ []) : l ∈ block (l :: ls) := by
  unfold block
  rw [List.takeWhile_cons_of_pos (by cases l <;> simp_all)]
  exact List.mem_cons_self

theorem block_tail {l : Str} {ls : List Str} (h : l ≠ []) {m : Str} (hm : m ∈ block ls) :
    m ∈ block (l :: ls) := by
  unfold block at *
  rw [List.takeWhile_cons_of_pos (by cases l <;> simp_all)]
  exact List.mem_cons_of_mem _ hm

/-- The start of a line. -/
def LS (src : Str) (k : Nat) : Prop := k = 0 ∨ src.length ≤ k ∨ ∃ j c, k = j + 1 ∧ src[j]? = some c ∧ isNl c = true

theorem unbroken_at : ∀ {src : Str} {k : Nat}, unbroken (lines src) = true → LS src k →
    unbrokenAt (splitLines (src.drop k)).1 (splitLines (src.drop k)).2 = true
  | src, 0, h, _ => by
    unfold lines at h
    rw [unbroken] at h
    exact (Bool.and_eq_true_iff.1 h).1
  | [], k + 1, _, _ => by rw [List.drop_nil]; rfl
  | c :: r, k + 1, h, hk => by
    rw [List.drop_succ_cons]
    cases hc : isNl c with
    | true =>
      refine unbroken_at (src := r) ?_ ?_
      · unfold lines at h
        rw [splitLines_nl hc, unbroken] at h
        exact (Bool.and_eq_true_iff.1 h).2
      · rcases hk with hk | hk | ⟨j, c', h1, h2, h3⟩
        · cases hk
        · exact .inr (.inl (by simpa using hk))
        · cases j with
          | zero => exact .inl (by omega)
          | succ j =>
            rw [List.getElem?_cons_succ] at h2
            exact .inr (.inr ⟨j, c', by omega, h2, h3⟩)
    | false =>
      -- the line at `k + 1` is not the first one
      have tail : ∀ {l : Str} {ls : List Str}, unbroken (l :: ls) = true → unbroken ls = true :=
        fun h => (Bool.and_eq_true_iff.1 h).2
      have key : ∀ {r : Str} {k : Nat}, unbroken (splitLines r).2 = true →
          (r.length ≤ k ∨ ∃ j c, k = j + 1 ∧ r[j]? = some c ∧ isNl c = true) →
          unbrokenAt (splitLines (r.drop k)).1 (splitLines (r.drop k)).2 = true := by
        intro r
        induction r with
        | nil => intro k _ _; rw [List.drop_nil]; rfl
        | cons d r ih =>
          intro k hu hk
          rcases hk with hk | ⟨j, c', rfl, h2, h3⟩
          · rw [List.drop_eq_nil_of_le hk]; rfl
          · rw [List.drop_succ_cons]
            cases hd : isNl d with
            | true =>
              rw [splitLines_nl hd] at hu
              cases j with
              | zero => exact (Bool.and_eq_true_iff.1 hu).1
              | succ j =>
                rw [List.getElem?_cons_succ] at h2
                exact ih (tail hu) (.inr ⟨j, c', rfl, h2, h3⟩)
            | false =>
              have hs : (splitLines (d :: r)).2 = (splitLines r).2 := by
                have hd : newline d = false := hd
                rw [splitLines, hd]; rfl
              rw [hs] at hu
              cases j with
              | zero =>
                rw [List.getElem?_cons_zero] at h2
                injection h2 with h2
                rw [h2, h3] at hd; cases hd
              | succ j =>
                rw [List.getElem?_cons_succ] at h2
                exact ih hu (.inr ⟨j, c', rfl, h2, h3⟩)
      have hs : (splitLines (c :: r)).2 = (splitLines r).2 := by
        have hd : newline c = false := hc
        rw [splitLines, hd]; rfl
      have hu : unbroken (splitLines r).2 = true := by rw [← hs]; exact tail h
      refine key hu ?_
      rcases hk with hk | hk | ⟨j, c', h1, h2, h3⟩
      · cases hk
      · exact .inl (by simpa using hk)
      · cases j with
        | zero =>
          rw [List.getElem?_cons_zero] at h2
          injection h2 with h2
          rw [h2, h3] at hc; cases hc
        | succ j =>
          rw [List.getElem?_cons_succ] at h2
          exact .inr ⟨j, c', by omega, h2, h3⟩

theorem prefix_startsWith {p m : Str} (h : p.isPrefixOf m = true) : startsWith m p = true := by
  obtain ⟨t, rfl⟩ := List.isPrefixOf_iff_prefix.1 h
  unfold startsWith
  rw [if_neg (by simp)]
  simp

theorem skipBlanks_all : ∀ {n i : Nat} {t : Str}, i ≤ n → n - i ≤ t.length → (t.take (n - i)).all blank = true →
    skipBlanks n t i = n
  | n, i, [], h1, h2, _ => by
    rw [skipBlanks]
    simp only [List.length_nil] at h2; omega
  | n, i, c :: t, h1, h2, h3 => by
    rw [skipBlanks]
    by_cases hi : i < n
    · have : n - i = (n - (i + 1)) + 1 := by omega
      rw [this, List.take_succ_cons, List.all_cons, Bool.and_eq_true] at h3
      have hb : isSp c = true := h3.1
      rw [if_pos ⟨hi, hb⟩]
      exact skipBlanks_all hi (by simp only [List.length_cons] at h2; omega) h3.2
    · rw [if_neg (by omega)]; omega

theorem numbered_item {n : Nat} {m : Str} (hm : NulFree m) (h : numbered n m = true) : isOrderedItem m n = true := by
  have hd : isDig = digit := rfl
  unfold numbered at h
  simp only [Bool.and_eq_true, bne_iff_ne, ne_eq, beq_iff_eq, decide_eq_true_eq] at h
  obtain ⟨⟨⟨⟨h1, h2⟩, h3⟩, h4⟩, h5⟩ := h
  unfold isOrderedItem
  rw [hd]
  generalize hk : (m.takeWhile digit).length = k at *
  simp only
  rw [if_neg (by omega), if_neg h1]
  have h2' : m[k]? = some c!"." := by rw [← h2, List.head?_drop]
  have : m.getD k 0 = c!"." := by rw [List.getD_eq_getElem?_getD, h2']; rfl
  rw [if_neg (by rw [this]; simp)]
  rw [skipBlanks_all (by omega) (by rw [List.length_drop]; omega) h4]
  have : m.getD n 0 ≠ 0 := by
    rw [List.getD_eq_getElem?_getD, List.getElem?_eq_getElem h5]
    exact hm _ (List.getElem_mem h5)
  rw [if_neg this]
  simp

theorem takeWhile_append {p : Byte → Bool} {a b : Str} (ha : ∀ c ∈ a, p c = true) (hb : ∀ c r, b = c :: r → p c = false) :
    (a ++ b).takeWhile p = a := by
  induction a with
  | nil =>
    cases b with
    | nil => rfl
    | cons c r => rw [List.nil_append, List.takeWhile_cons_of_neg (by rw [hb c r rfl]; simp)]
  | cons c a ih =>
    rw [List.cons_append, List.takeWhile_cons_of_pos (ha c (by simp)), ih fun c hc => ha c (by simp [hc])]

theorem bullet_eq {d : Byte} {ws u : Str} (hd : (d == c!"*" || d == c!"+" || d == c!"-") = true)
    (hw : ∀ c ∈ ws, isSp c = true) (hu : ∀ c r, u = c :: r → isSp c = false)
    (h1 : ws = [] → u.head? ≠ some d) (h2 : ws = [] → d ≠ c!"*") : bullet (d :: (ws ++ u)) = some (d :: ws) := by
  have hne : (ws ++ u).head? ≠ some d := by
    cases ws with
    | nil => exact h1 rfl
    | cons c ws =>
      intro h
      injection h with h
      have := hw c (by simp)
      subst h
      rcases (by simpa using hd : (c = c!"*" ∨ c = c!"+") ∨ c = c!"-") with (rfl | rfl) | rfl <;> cases this
  have h3 : (d != c!"*" || (ws ++ u).head?.any blank) = true := by
    cases ws with
    | nil => simp [h2 rfl]
    | cons c ws =>
      have hb : blank c = true := hw c (by simp)
      simp [hb]
  have h4 : (ws ++ u).takeWhile blank = ws := takeWhile_append hw hu
  have h5 : ((ws ++ u).head? != some d) = true := bne_iff_ne.2 hne
  unfold bullet
  dsimp only
  rw [hd, h5, h3, h4]
  rfl

theorem number_eq {ds ws u : Str} (h0 : ds ≠ []) (hd : ∀ c ∈ ds, isDig c = true) (hw : ∀ c ∈ ws, isSp c = true)
    (hu : ∀ c r, u = c :: r → isSp c = false) :
    number (ds ++ c!"." :: (ws ++ u)) = some (ds.length + 1 + ws.length) := by
  have e1 : (ds ++ c!"." :: (ws ++ u)).takeWhile digit = ds := by
    refine takeWhile_append hd ?_
    intro c r h
    injection h with h _
    subst h; rfl
  have e2 : (ds ++ c!"." :: (ws ++ u)).drop (ds.length + 1) = ws ++ u := by
    rw [← List.drop_drop, List.drop_left]; rfl
  have e3 : (ws ++ u).takeWhile blank = ws := takeWhile_append hw hu
  unfold number
  simp only [e1, e2, e3, List.drop_left]
  have : ds.length ≠ 0 := fun h => h0 (List.length_eq_zero_iff.1 h)
  simp [this]

end Blogc.Content
