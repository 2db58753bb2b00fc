import Verif.Model.Strings

/-!
# C02: splitting and joining are inverse
-/

namespace Blogc.C02

open Blogc

theorem slice_snoc (str pre rest : Str) (b : Byte) (start : Nat)
    (hs : str = pre ++ b :: rest) (hst : start ≤ pre.length) :
    slice str start (pre.length + 1) = slice str start pre.length ++ [b] := by
  subst hs
  simp only [slice]
  rw [List.drop_append_of_le_length hst]
  have e1 : pre.length + 1 - start = (pre.drop start).length + 1 := by simp; omega
  have e2 : pre.length - start = (pre.drop start).length := by simp
  rw [e1, e2, List.take_length_add_append]
  simp

/-- The loop without indices: `cur` is the piece being collected. -/
def splitAcc (c : Byte) (m : Nat) : Str → Str → Nat → List Str
  | [], cur, _ => [cur]
  | b :: rest, cur, count =>
    if b = c ∧ (m = 0 ∨ count + 1 < m) then cur :: splitAcc c m rest [] (count + 1)
    else splitAcc c m rest (cur ++ [b]) count

theorem splitLoop_eq (str : Str) (c : Byte) (m : Nat) (rest pre : Str) (start count : Nat)
    (hs : str = pre ++ rest) (hst : start ≤ pre.length) :
    splitLoop str c m rest pre.length start count
      = splitAcc c m rest (slice str start pre.length) count := by
  induction rest generalizing pre start count with
  | nil => rfl
  | cons b rest ih =>
    have hs' : str = (pre ++ [b]) ++ rest := by simp [hs]
    have hl : (pre ++ [b]).length = pre.length + 1 := by simp
    simp only [splitLoop, splitAcc]
    split
    · have := ih (pre ++ [b]) (pre.length + 1) (count + 1) hs' (by simp)
      rw [hl] at this
      rw [this]
      simp [slice]
    · have := ih (pre ++ [b]) start count hs' (by simp; omega)
      rw [hl] at this
      rw [this, slice_snoc str pre rest b start hs hst]

theorem split_eq (s : Str) (c : Byte) (m : Nat) (h : s ≠ []) :
    split s c m = splitAcc c m s [] 0 := by
  cases s with
  | nil => exact absurd rfl h
  | cons b rest =>
    have := splitLoop_eq (b :: rest) c m (b :: rest) [] 0 0 rfl (Nat.le_refl _)
    simp only [List.length_nil] at this
    simp only [split, this, slice]
    rfl

theorem splitAcc_ne_nil (c : Byte) (m : Nat) (rest cur : Str) (n : Nat) :
    splitAcc c m rest cur n ≠ [] := by
  induction rest generalizing cur n with
  | nil => simp [splitAcc]
  | cons b rest ih => simp only [splitAcc]; split <;> simp [ih]

theorem join_cons (sep p : Str) (l : List Str) (h : l ≠ []) :
    join sep (p :: l) = p ++ sep ++ join sep l := by
  cases l with
  | nil => exact absurd rfl h
  | cons q r => rfl

theorem join_splitAcc (c : Byte) (m : Nat) (rest cur : Str) (n : Nat) :
    join [c] (splitAcc c m rest cur n) = cur ++ rest := by
  induction rest generalizing cur n with
  | nil => simp [splitAcc, join]
  | cons b rest ih =>
    simp only [splitAcc]
    split
    · rename_i h
      rw [join_cons _ _ _ (splitAcc_ne_nil _ _ _ _ _), ih, h.1]
      simp
    · rw [ih]; simp

/-- Joining the pieces with the separator gives the string back, for every
limit. -/
theorem join_split (s : Str) (c : Byte) (m : Nat) : join [c] (split s c m) = s := by
  by_cases h : s = []
  · subst h; rfl
  · rw [split_eq s c m h, join_splitAcc]; rfl

/-- The empty string has no pieces. -/
theorem split_empty (c : Byte) (m : Nat) : split [] c m = [] := rfl

theorem dropLast_cons_ne (p : Str) (l : List Str) (h : l ≠ []) :
    (p :: l).dropLast = p :: l.dropLast := by
  cases l with
  | nil => exact absurd rfl h
  | cons q r => rfl

theorem splitAcc_dropLast (c : Byte) (m : Nat) (rest cur : Str) (n : Nat) (hc : c ∉ cur ∨
    (m ≠ 0 ∧ m ≤ n + 1)) :
    ∀ p ∈ (splitAcc c m rest cur n).dropLast, c ∉ p := by
  induction rest generalizing cur n with
  | nil => simp [splitAcc]
  | cons b rest ih =>
    simp only [splitAcc]
    split
    · rename_i h
      rw [dropLast_cons_ne _ _ (splitAcc_ne_nil _ _ _ _ _)]
      intro p hp
      rcases List.mem_cons.1 hp with rfl | hp
      · rcases hc with hc | hc
        · exact hc
        · omega
      · exact ih [] (n + 1) (Or.inl (by simp)) p hp
    · rename_i h
      refine ih _ n ?_
      rcases hc with hc | hc
      · by_cases hb : b = c
        · right
          constructor
          · intro h0; exact h ⟨hb, Or.inl h0⟩
          · rcases Nat.lt_or_ge (n + 1) m with h1 | h1
            · exact absurd ⟨hb, Or.inr h1⟩ h
            · exact h1
        · left
          simp [hc, Ne.symm hb]
      · exact Or.inr hc

/-- Every piece except possibly the last is free of the separator. -/
theorem split_pieces_sep_free (s : Str) (c : Byte) (m : Nat) :
    ∀ p ∈ (split s c m).dropLast, c ∉ p := by
  by_cases h : s = []
  · subst h; simp [split]
  · rw [split_eq s c m h]
    exact splitAcc_dropLast c m s [] 0 (Or.inl (by simp))

theorem splitAcc_last (c : Byte) (rest cur : Str) (n : Nat) (hc : c ∉ cur) :
    ∀ p ∈ splitAcc c 0 rest cur n, c ∉ p := by
  induction rest generalizing cur n with
  | nil => simpa [splitAcc] using hc
  | cons b rest ih =>
    simp only [splitAcc]
    split
    · intro p hp
      rcases List.mem_cons.1 hp with rfl | hp
      · exact hc
      · exact ih [] (n + 1) (by simp) p hp
    · rename_i h
      refine ih _ n ?_
      have : b ≠ c := fun hb => h (by simp [hb])
      simp [hc, Ne.symm this]

/-- Without a limit no piece contains the separator. -/
theorem split_unlimited_sep_free (s : Str) (c : Byte) : ∀ p ∈ split s c 0, c ∉ p := by
  by_cases h : s = []
  · subst h; simp [split]
  · rw [split_eq s c 0 h]; exact splitAcc_last c s [] 0 (by simp)

theorem splitAcc_length (c : Byte) (m : Nat) (rest cur : Str) (n : Nat) (hn : m = 0 ∨ n < m) :
    (splitAcc c m rest cur n).length
      = if m = 0 then rest.count c + 1 else min (m - n) (rest.count c + 1) := by
  induction rest generalizing cur n with
  | nil => simp only [splitAcc]; split <;> simp; omega
  | cons b rest ih =>
    simp only [splitAcc, List.count_cons]
    split
    · rename_i h
      rw [List.length_cons, ih _ _ (by omega)]
      simp only [h.1, beq_self_eq_true, if_true]
      split
      · rfl
      · omega
    · rename_i h
      rw [ih _ _ hn]
      by_cases hb : b = c
      · have : m ≠ 0 := fun h0 => h ⟨hb, Or.inl h0⟩
        have : ¬ n + 1 < m := fun h0 => h ⟨hb, Or.inr h0⟩
        simp only [hb, beq_self_eq_true, if_true]
        split <;> omega
      · simp [hb]

/-- Number of pieces: one more than the number of separators, cut at the limit
(0 means no limit). -/
theorem split_length (s : Str) (c : Byte) (m : Nat) (h : s ≠ []) :
    (split s c m).length = if m = 0 then s.count c + 1 else min m (s.count c + 1) := by
  rw [split_eq s c m h, splitAcc_length c m s [] 0 (by omega)]
  simp

example : split b!"a=b=c" c!"=" 2 = [b!"a", b!"b=c"] := by decide
example : split b!"a==c" c!"=" 0 = [b!"a", b!"", b!"c"] := by decide

end Blogc.C02
