import Verif.Props.C74

/-!
# C74, continued: the lines of an ordered list
-/

namespace Blogc.C74

open Blogc Blogc.Content Blogc.Spec

theorem skipBlanks_spec (n : Nat) (s : Str) (i : Nat) (hi : i ≤ n) :
    ∃ ws r, s = ws ++ r ∧ (∀ c ∈ ws, isSp c = true) ∧ skipBlanks n s i = i + ws.length ∧ i + ws.length ≤ n ∧
      (i + ws.length < n → ∀ c, r.head? = some c → isSp c = false) := by
  induction s generalizing i with
  | nil => exact ⟨[], [], rfl, by simp, rfl, by simpa using hi, by simp⟩
  | cons c s ih =>
    rw [skipBlanks]
    by_cases h : i < n ∧ isSp c = true
    · rw [if_pos h]
      obtain ⟨ws, r, rfl, h1, h2, h3, h4⟩ := ih (i + 1) h.1
      refine ⟨c :: ws, r, rfl, ?_, by rw [h2]; simp only [List.length_cons]; omega, by simp only [List.length_cons]; omega, ?_⟩
      · intro x hx
        rcases List.mem_cons.mp hx with rfl | hx
        · exact h.2
        · exact h1 x hx
      · intro hl
        refine h4 ?_
        simp only [List.length_cons] at hl
        omega
    · rw [if_neg h]
      refine ⟨[], c :: s, rfl, by simp, rfl, by simpa using hi, ?_⟩
      intro hl x hx
      simp only [List.head?_cons, Option.some.injEq] at hx
      subst hx
      cases hsp : isSp c with
      | false => rfl
      | true => exact absurd ⟨by simpa using hl, hsp⟩ h

theorem takeWhile_digits (ds rest : Str) (hd : ∀ c ∈ ds, isDig c = true) :
    (ds ++ c!"." :: rest).takeWhile isDig = ds := by
  rw [List.takeWhile_append_of_pos hd]
  simp [isDig]

theorem skipBlanks_all (n : Nat) (ws r : Str) (i : Nat) (h : ∀ c ∈ ws, isSp c = true) (hn : i + ws.length = n) :
    skipBlanks n (ws ++ r) i = n := by
  induction ws generalizing i with
  | nil =>
    simp only [List.length_nil, Nat.add_zero] at hn
    subst hn
    cases r with
    | nil => rfl
    | cons c r => simp [skipBlanks]
  | cons c ws ih =>
    simp only [List.length_cons] at hn
    rw [List.cons_append, skipBlanks, if_pos ⟨by omega, h c (by simp)⟩, ih (i + 1) (fun x hx => h x (by simp [hx])) (by omega)]

/-- A line is an item of an ordered list of indentation `n` exactly if it is a number, a point and
blanks, of together `n` bytes, and some text. -/
theorem ordered_item_iff (s : Str) (n : Nat) (hs : NulFree s) :
    isOrderedItem s n = true ↔ ∃ ds ws text, s = ds ++ b!"." ++ ws ++ text ∧ ds ≠ [] ∧ (∀ c ∈ ds, isDig c = true) ∧
      (∀ c ∈ ws, isSp c = true) ∧ text ≠ [] ∧ ds.length + 1 + ws.length = n := by
  constructor
  · intro h
    unfold isOrderedItem at h
    split at h
    · cases h
    simp only at h
    split at h
    · cases h
    next h1 =>
    split at h
    · cases h
    next h2 =>
    split at h
    · cases h
    next h3 =>
    have hds : ∀ c ∈ s.takeWhile isDig, isDig c = true := fun c hc => List.mem_takeWhile_imp hc
    have hsplit := List.takeWhile_append_dropWhile (p := isDig) (l := s)
    generalize hD : s.takeWhile isDig = ds at *
    generalize s.dropWhile isDig = t at *
    subst hsplit
    cases t with
    | nil => simp at h2
    | cons p t =>
      have hp : p = c!"." := by simpa [List.getD] using h2
      subst hp
      have hdrop : (ds ++ c!"." :: t).drop (ds.length + 1) = t := by
        rw [List.drop_append]; simp
      rw [hdrop] at h h3
      have hj : skipBlanks n t (ds.length + 1) = n := by simpa using h
      have hle : ds.length + 1 ≤ n := by
        by_cases hlt : ds.length + 1 ≤ n
        · exact hlt
        · exfalso
          have : skipBlanks n t (ds.length + 1) = ds.length + 1 := by
            cases t with
            | nil => rfl
            | cons x t => rw [skipBlanks, if_neg (by omega)]
          omega
      obtain ⟨ws, r, rfl, w1, w2, w3, w4⟩ := skipBlanks_spec n t _ hle
      have hn : ds.length + 1 + ws.length = n := by omega
      refine ⟨ds, ws, r, by simp, by rintro rfl; simp at h1, hds, w1, ?_, hn⟩
      rintro rfl
      apply h3
      rw [hj]
      simp only [List.append_nil, List.getD_eq_getElem?_getD]
      rw [List.getElem?_eq_none (by simp; omega)]
      rfl
  · rintro ⟨ds, ws, text, rfl, h1, h2, h3, h4, rfl⟩
    have e : ds ++ b!"." ++ ws ++ text = ds ++ c!"." :: (ws ++ text) := by simp
    rw [e] at hs ⊢
    have hlen : 0 < ds.length := List.length_pos_iff.mpr h1
    unfold isOrderedItem
    rw [if_neg (by simp; omega)]
    simp only [takeWhile_digits ds _ h2]
    rw [if_neg (by omega), if_neg (by simp [List.getD])]
    have hdrop : (ds ++ c!"." :: (ws ++ text)).drop (ds.length + 1) = ws ++ text := by
      rw [List.drop_append]; simp
    rw [hdrop, skipBlanks_all _ ws text _ h3 rfl]
    obtain ⟨c, r, rfl⟩ := List.exists_cons_of_ne_nil h4
    have hget : (ds ++ c!"." :: (ws ++ c :: r)).getD (ds.length + 1 + ws.length) 0 = c := by
      have : ds ++ c!"." :: (ws ++ c :: r) = (ds ++ c!"." :: ws) ++ c :: r := by simp
      rw [this, List.getD_eq_getElem?_getD, List.getElem?_append_right (by simp; omega)]
      simp [Nat.add_assoc, Nat.add_comm 1]
    have hc : c ≠ 0 := hs c (by simp)
    rw [hget, if_neg hc]
    simp

example : isOrderedItem b!"12. x" 4 = true := by decide +kernel
example : isOrderedItem b!"1. x" 4 = false := by decide +kernel

/-- So a list goes on only with items of the indentation of the first one; else it is a paragraph. -/
example : result b!"1.  a\n2. b\n" = some (b!"<p>1.  a\n2. b</p>\n", 0) := by decide +kernel

end Blogc.C74
