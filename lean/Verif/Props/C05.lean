import Verif.Spec.Strings

/-!
# C05: escaped search

The searched byte is neither NUL (then the position of the terminator is
returned) nor the backslash itself (which the code never finds).
-/

namespace Blogc.C05

open Blogc Blogc.Spec

theorem run_succ (s : Str) (i : Nat) (b : Byte) (h : s[i]? = some b) :
    backslashRun s (i + 1) = if b = 0x5c then backslashRun s i + 1 else 0 := by
  unfold backslashRun
  obtain ⟨hi, hb⟩ := List.getElem?_eq_some_iff.1 h
  rw [List.take_succ_eq_append_getElem hi, hb]
  simp only [List.reverse_append, List.reverse_cons, List.reverse_nil, List.nil_append,
    List.singleton_append, List.takeWhile_cons]
  by_cases hc : b = 0x5c <;> simp [hc]

/-- What the outcome of the search says about the string. -/
def Outcome (s : Str) (c : Byte) : Res (Option Nat) → Prop
  | .ok (some k) => FirstAt s c k
  | .ok none => (∀ j, ¬ FoundAt s c j) ∧ ¬ Dangling s
  | .ub => (∀ j, ¬ FoundAt s c j) ∧ Dangling s

theorem not_found_ge (s : Str) (c : Byte) (j : Nat) (h : s.length ≤ j) : ¬ FoundAt s c j := by
  intro hf
  have := hf.1
  rw [List.getElem?_eq_none_iff.2 h] at this
  simp at this

theorem findLoop_outcome (s : Str) (c : Byte) (hn : NulFree s) (hc : c ≠ 0x5c) :
    ∀ (n i : Nat), s.length - i ≤ n → i ≤ s.length → Unescaped s i →
      (∀ j, j < i → ¬ FoundAt s c j) → Outcome s c (findLoop c (s.drop i ++ [0]) i) := by
  intro n
  induction n using Nat.strongRecOn with
  | _ n ih =>
  intro i hle hi hu hno
  by_cases hend : i = s.length
  · subst hend
    simp only [List.drop_length, List.nil_append, findLoop, if_true, Outcome]
    refine ⟨fun j => ?_, ?_⟩
    · by_cases hj : j < s.length
      · exact hno j hj
      · exact not_found_ge s c j (by omega)
    · unfold Dangling; unfold Unescaped at hu; omega
  · have hlt : i < s.length := by omega
    have hget : s[i]? = some s[i] := List.getElem?_eq_getElem hlt
    rw [List.drop_eq_getElem_cons hlt, List.cons_append]
    generalize hb : s[i] = b at hget ⊢
    have hb0 : b ≠ 0 := by
      have : b ∈ s := hb ▸ List.getElem_mem hlt
      exact hn b this
    have hrun := run_succ s i b hget
    rw [findLoop.eq_def]
    simp only [if_neg hb0]
    by_cases hbs : b = 0x5c
    · rw [if_pos hbs]
      rw [if_pos hbs] at hrun
      have hnoi : ¬ FoundAt s c i := by
        intro hf; have := hf.1; rw [hget] at this; simp at this; exact hc (this ▸ hbs)
      have hnoi1 : ¬ FoundAt s c (i + 1) := by
        intro hf; have := hf.2; unfold Unescaped at this hu; omega
      by_cases hend1 : i + 1 = s.length
      · have : s.drop (i + 1) = [] := by rw [hend1]; simp
        rw [this]
        simp only [List.nil_append, findLoop, Outcome]
        refine ⟨fun j => ?_, ?_⟩
        · by_cases hj : j < i
          · exact hno j hj
          · by_cases hj' : j = i
            · subst hj'; exact hnoi
            · exact not_found_ge s c j (by omega)
        · unfold Dangling; unfold Unescaped at hu; rw [← hend1]; omega
      · have hlt1 : i + 1 < s.length := by omega
        rw [List.drop_eq_getElem_cons hlt1, List.cons_append]
        have hget1 : s[i + 1]? = some s[i + 1] := List.getElem?_eq_getElem hlt1
        have hrun1 := run_succ s (i + 1) _ hget1
        refine ih (n - 1) (by omega) (i + 2) (by omega) (by omega) ?_ ?_
        · unfold Unescaped at hu ⊢
          rw [show i + 2 = i + 1 + 1 from rfl, hrun1]
          split <;> omega
        · intro j hj
          rcases Nat.lt_or_ge j i with h | h
          · exact hno j h
          · rcases Nat.eq_or_lt_of_le h with h | h
            · exact h ▸ hnoi
            · have : j = i + 1 := by omega
              exact this ▸ hnoi1
    · rw [if_neg hbs]
      rw [if_neg hbs] at hrun
      by_cases hbc : b = c
      · rw [if_pos hbc]
        exact ⟨⟨hbc ▸ hget, hu⟩, hno⟩
      · rw [if_neg hbc]
        refine ih (n - 1) (by omega) (i + 1) (by omega) (by omega) ?_ ?_
        · unfold Unescaped; omega
        · intro j hj
          by_cases hj' : j = i
          · subst hj'
            intro hf; have := hf.1; rw [hget] at this; simp at this; exact hbc this
          · exact hno j (by omega)

theorem find_outcome (s : Str) (c : Byte) (hn : NulFree s) (h0 : c ≠ 0) (hc : c ≠ 0x5c) :
    Outcome s c (find s c) := by
  rw [find, if_neg h0]
  have := findLoop_outcome s c hn hc s.length 0 (by omega) (by omega) (by simp [Unescaped, backslashRun])
    (by intro j hj; omega)
  simpa using this

/-- The search returns position `i` exactly when `i` is the first unescaped
occurrence. -/
theorem find_some_iff (s : Str) (c : Byte) (hn : NulFree s) (h0 : c ≠ 0) (hc : c ≠ 0x5c)
    (i : Nat) : find s c = .ok (some i) ↔ FirstAt s c i := by
  have h := find_outcome s c hn h0 hc
  constructor
  · intro he; rw [he] at h; exact h
  · intro hf
    cases hr : find s c with
    | ub => rw [hr] at h; exact absurd hf.1 (h.1 i)
    | ok o =>
      cases o with
      | none => rw [hr] at h; exact absurd hf.1 (h.1 i)
      | some k =>
        rw [hr] at h
        have : k = i := by
          rcases Nat.lt_trichotomy k i with hl | hl | hl
          · exact absurd h.1 (hf.2 k hl)
          · exact hl
          · exact absurd hf.1 (h.2 i hl)
        rw [this]

/-- The search returns nothing exactly when there is no unescaped occurrence,
provided the string does not end in the middle of an escape. -/
theorem find_none_iff (s : Str) (c : Byte) (hn : NulFree s) (h0 : c ≠ 0) (hc : c ≠ 0x5c) :
    find s c = .ok none ↔ (∀ i, ¬ FoundAt s c i) ∧ ¬ Dangling s := by
  have h := find_outcome s c hn h0 hc
  constructor
  · intro he; rw [he] at h; exact h
  · intro hf
    cases hr : find s c with
    | ub => rw [hr] at h; exact absurd h.2 hf.2
    | ok o =>
      cases o with
      | none => rfl
      | some k => rw [hr] at h; exact absurd h.1 (hf.1 k)

/-- The search reads past the terminator exactly when there is no unescaped
occurrence and the string ends in the middle of an escape. -/
theorem find_ub_iff (s : Str) (c : Byte) (hn : NulFree s) (h0 : c ≠ 0) (hc : c ≠ 0x5c) :
    find s c = .ub ↔ (∀ i, ¬ FoundAt s c i) ∧ Dangling s := by
  have h := find_outcome s c hn h0 hc
  constructor
  · intro he; rw [he] at h; exact h
  · intro hf
    cases hr : find s c with
    | ub => rfl
    | ok o =>
      cases o with
      | none => rw [hr] at h; exact absurd hf.2 h.2
      | some k => rw [hr] at h; exact absurd h.1 (hf.1 k)

/-- In bounds and correct for every string that does not end in the middle of
an escape. The full property (for every string) is false, see
`find_in_bounds_violated`. -/
theorem find_in_bounds_partial (s : Str) (c : Byte) (hn : NulFree s) (h0 : c ≠ 0)
    (hc : c ≠ 0x5c) (hd : ¬ Dangling s) : ∃ r, find s c = .ok r := by
  cases hr : find s c with
  | ok r => exact ⟨r, rfl⟩
  | ub => exact absurd ((find_ub_iff s c hn h0 hc).1 hr).2 hd

/-- The full property fails: on a string ending in a backslash the search reads
past the terminator. -/
theorem find_in_bounds_violated :
    ¬ ∀ (s : Str) (c : Byte), NulFree s → c ≠ 0 → c ≠ 0x5c → ∃ r, find s c = .ok r := by
  intro h
  obtain ⟨r, hr⟩ := h b!"a\\" c!"|" (by decide) (by decide) (by decide)
  have : find b!"a\\" c!"|" = .ub := by decide
  rw [this] at hr
  exact absurd hr (by simp)

example : find b!"a\\|b|c" c!"|" = .ok (some 4) := by decide
example : FirstAt b!"a\\|b|c" c!"|" 4 := (find_some_iff _ _ (by decide) (by decide) (by decide) 4).1 (by decide)
example : find b!"a\\\\|" c!"|" = .ok (some 3) := by decide
example : ¬ Dangling b!"a\\\\" := by unfold Dangling; decide

end Blogc.C05
