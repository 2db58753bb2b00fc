import Verif.Model.Utf8
import Verif.Spec.Utf8

namespace Blogc.Utf8

open Blogc Blogc.Spec

/-- The automaton as a function of ranges. -/
def stepN (st n : Nat) : Nat :=
  if st = 0 then
    if n < 0x80 then 0 else if n < 0xC2 then 12 else if n < 0xE0 then 24
    else if n = 0xE0 then 48 else if n = 0xED then 60 else if n < 0xF0 then 36
    else if n = 0xF0 then 72 else if n < 0xF4 then 84 else if n = 0xF4 then 96 else 12
  else if st = 24 then (if 0x80 ≤ n ∧ n < 0xC0 then 0 else 12)
  else if st = 36 then (if 0x80 ≤ n ∧ n < 0xC0 then 24 else 12)
  else if st = 48 then (if 0xA0 ≤ n ∧ n < 0xC0 then 24 else 12)
  else if st = 60 then (if 0x80 ≤ n ∧ n < 0xA0 then 24 else 12)
  else if st = 72 then (if 0x90 ≤ n ∧ n < 0xC0 then 36 else 12)
  else if st = 84 then (if 0x80 ≤ n ∧ n < 0xC0 then 36 else 12)
  else if st = 96 then (if 0x80 ≤ n ∧ n < 0x90 then 36 else 12)
  else 12

/-- The states of the automaton. -/
def states : List Nat := [0, 12, 24, 36, 48, 60, 72, 84, 96]

theorem step_table : ∀ st ∈ states, ∀ n : Fin 256,
    utf8Step st (UInt8.ofNat n.val) = .ok (stepN st n.val) := by decide +kernel

theorem stepN_states (st n : Nat) : stepN st n ∈ states := by
  unfold stepN states
  repeat' split
  all_goals simp

theorem step_eq (st : Nat) (h : st ∈ states) (b : Byte) :
    utf8Step st b = .ok (stepN st b.toNat) := by
  have := step_table st h ⟨b.toNat, b.toNat_lt⟩
  simpa using this

/-- Run of the automaton. -/
def run : Nat → Str → Nat
  | st, [] => st
  | st, b :: s => run (stepN st b.toNat) s

theorem foldlM_eq (s : Str) (st : Nat) (h : st ∈ states) :
    s.foldlM utf8Step st = .ok (run st s) := by
  induction s generalizing st with
  | nil => rfl
  | cons b s ih =>
    rw [List.foldlM_cons, step_eq st h b]
    exact ih _ (stepN_states _ _)

theorem validate_eq (s : Str) : utf8Validate s = .ok (run 0 s == 0) := by
  unfold utf8Validate
  rw [foldlM_eq s 0 (by simp [states])]
  rfl

theorem run_append (s t : Str) (st : Nat) : run st (s ++ t) = run (run st s) t := by
  induction s generalizing st with
  | nil => rfl
  | cons b s ih => exact ih _

theorem run_12 (s : Str) : run 12 s = 12 := by
  induction s with
  | nil => rfl
  | cons b s ih => rw [run, show stepN 12 b.toNat = 12 by simp [stepN], ih]

theorem toNat_ofNat' (n : Nat) (h : n < 256) : (UInt8.ofNat n).toNat = n := by
  simp; omega

theorem run_encode (c : Nat) (h : IsScalar c) : run 0 (encode c) = 0 := by
  unfold IsScalar at h
  unfold encode
  split
  · simp only [run]
    rw [toNat_ofNat' _ (by omega)]
    unfold stepN
    split <;> omega
  · split
    · simp only [run]
      rw [toNat_ofNat' _ (by omega), toNat_ofNat' _ (by omega)]
      have e : stepN 0 (0xC0 + c / 64) = 24 := by
        unfold stepN
        rw [if_pos rfl, if_neg (by omega), if_neg (by omega), if_pos (by omega)]
      rw [e]
      unfold stepN
      rw [if_neg (by omega), if_pos rfl, if_pos (by omega)]
    · split
      · simp only [run]
        rw [toNat_ofNat' _ (by omega), toNat_ofNat' _ (by omega), toNat_ofNat' _ (by omega)]
        have e : stepN (stepN 0 (0xE0 + c / 4096)) (0x80 + c / 64 % 64) = 24 := by
          rcases (by omega : c / 4096 = 0 ∨ c / 4096 = 13 ∨ (c / 4096 ≠ 0 ∧ c / 4096 ≠ 13))
            with h0 | h0 | h0
          · rw [h0, show stepN 0 (0xE0 + 0) = 48 from rfl]
            have : ∀ n, stepN 48 n = if 0xA0 ≤ n ∧ n < 0xC0 then 24 else 12 := by
              intro n; simp [stepN]
            rw [this, if_pos (by omega)]
          · rw [h0, show stepN 0 (0xE0 + 13) = 60 from rfl]
            have : ∀ n, stepN 60 n = if 0x80 ≤ n ∧ n < 0xA0 then 24 else 12 := by
              intro n; simp [stepN]
            rw [this, if_pos (by omega)]
          · have h1 : stepN 0 (0xE0 + c / 4096) = 36 := by
              unfold stepN
              rw [if_pos rfl, if_neg (by omega), if_neg (by omega), if_neg (by omega),
                if_neg (by omega), if_neg (by omega), if_pos (by omega)]
            have : ∀ n, stepN 36 n = if 0x80 ≤ n ∧ n < 0xC0 then 24 else 12 := by
              intro n; simp [stepN]
            rw [h1, this, if_pos (by omega)]
        rw [e]
        unfold stepN
        rw [if_neg (by omega), if_pos rfl, if_pos (by omega)]
      · simp only [run]
        rw [toNat_ofNat' _ (by omega), toNat_ofNat' _ (by omega), toNat_ofNat' _ (by omega),
          toNat_ofNat' _ (by omega)]
        have e : stepN (stepN 0 (0xF0 + c / 262144)) (0x80 + c / 4096 % 64) = 36 := by
          rcases (by omega : c / 262144 = 0 ∨ c / 262144 = 4 ∨ (0 < c / 262144 ∧ c / 262144 < 4))
            with h0 | h0 | h0
          · rw [h0, show stepN 0 (0xF0 + 0) = 72 from rfl]
            have : ∀ n, stepN 72 n = if 0x90 ≤ n ∧ n < 0xC0 then 36 else 12 := by
              intro n; simp [stepN]
            rw [this, if_pos (by omega)]
          · rw [h0, show stepN 0 (0xF0 + 4) = 96 from rfl]
            have : ∀ n, stepN 96 n = if 0x80 ≤ n ∧ n < 0x90 then 36 else 12 := by
              intro n; simp [stepN]
            rw [this, if_pos (by omega)]
          · have h1 : stepN 0 (0xF0 + c / 262144) = 84 := by
              unfold stepN
              rw [if_pos rfl, if_neg (by omega), if_neg (by omega), if_neg (by omega),
                if_neg (by omega), if_neg (by omega), if_neg (by omega), if_neg (by omega),
                if_pos (by omega)]
            have : ∀ n, stepN 84 n = if 0x80 ≤ n ∧ n < 0xC0 then 36 else 12 := by
              intro n; simp [stepN]
            rw [h1, this, if_pos (by omega)]
        rw [e]
        have e2 : stepN 36 (0x80 + c / 64 % 64) = 24 := by
          unfold stepN
          rw [if_neg (by omega), if_neg (by omega), if_pos rfl, if_pos (by omega)]
        rw [e2]
        unfold stepN
        rw [if_neg (by omega), if_pos rfl, if_pos (by omega)]

theorem run_wellFormed (cs : List Nat) (h : ∀ c ∈ cs, IsScalar c) :
    run 0 (cs.flatMap encode) = 0 := by
  induction cs with
  | nil => rfl
  | cons c cs ih =>
    rw [List.flatMap_cons, run_append, run_encode c (h c (by simp))]
    exact ih (fun x hx => h x (by simp [hx]))

theorem ofNat_toNat' (b : Byte) (n : Nat) (h : n = b.toNat) : UInt8.ofNat n = b := by
  subst h; simp

/-- Tails accepted from the intermediate states. -/
theorem run_24 (s : Str) (h : run 24 s = 0) :
    ∃ b t, s = b :: t ∧ 0x80 ≤ b.toNat ∧ b.toNat < 0xC0 ∧ run 0 t = 0 := by
  cases s with
  | nil => simp [run] at h
  | cons b t =>
    simp only [run] at h
    unfold stepN at h
    rw [if_neg (by omega), if_pos rfl] at h
    split at h
    · rename_i hr; exact ⟨b, t, rfl, hr.1, hr.2, h⟩
    · rw [run_12] at h; omega

theorem run_36 (s : Str) (h : run 36 s = 0) :
    ∃ b c t, s = b :: c :: t ∧ 0x80 ≤ b.toNat ∧ b.toNat < 0xC0 ∧
      0x80 ≤ c.toNat ∧ c.toNat < 0xC0 ∧ run 0 t = 0 := by
  cases s with
  | nil => simp [run] at h
  | cons b t =>
    simp only [run] at h
    unfold stepN at h
    rw [if_neg (by omega), if_neg (by omega), if_pos rfl] at h
    split at h
    · rename_i hr
      obtain ⟨c, t', rfl, h1, h2, h3⟩ := run_24 t h
      exact ⟨b, c, t', rfl, hr.1, hr.2, h1, h2, h3⟩
    · rw [run_12] at h; omega

theorem run_second (st lo hi nx : Nat) (s : Str) (hst : st ≠ 0)
    (hstep : ∀ n, stepN st n = if lo ≤ n ∧ n < hi then nx else 12) (h : run st s = 0) :
    ∃ b t, s = b :: t ∧ lo ≤ b.toNat ∧ b.toNat < hi ∧ run nx t = 0 := by
  cases s with
  | nil => exact absurd h hst
  | cons b t =>
    simp only [run] at h
    rw [hstep] at h
    split at h
    · rename_i hr; exact ⟨b, t, rfl, hr.1, hr.2, h⟩
    · rw [run_12] at h; omega

/-- An accepted nonempty string starts with the encoding of a scalar value. -/
theorem run_uncons (a : Byte) (s : Str) (h : run 0 (a :: s) = 0) :
    ∃ c t, IsScalar c ∧ a :: s = encode c ++ t ∧ run 0 t = 0 := by
  have ha := a.toNat_lt
  simp only [run] at h
  unfold stepN at h
  rw [if_pos rfl] at h
  have two : ∀ (n : Nat) (b : Byte), a.toNat = 0xC0 + n / 64 → b.toNat = 0x80 + n % 64 →
      0x80 ≤ n → n < 0x800 → [a, b] = encode n := by
    intro n b h1 h2 h3 h4
    unfold encode
    rw [if_neg (by omega), if_pos h4, ofNat_toNat' a _ h1.symm, ofNat_toNat' b _ h2.symm]
  have three : ∀ (n : Nat) (b c : Byte), a.toNat = 0xE0 + n / 4096 →
      b.toNat = 0x80 + n / 64 % 64 → c.toNat = 0x80 + n % 64 →
      0x800 ≤ n → n < 0x10000 → [a, b, c] = encode n := by
    intro n b c h1 h2 h3 h4 h5
    unfold encode
    rw [if_neg (by omega), if_neg (by omega), if_pos h5, ofNat_toNat' a _ h1.symm,
      ofNat_toNat' b _ h2.symm, ofNat_toNat' c _ h3.symm]
  have four : ∀ (n : Nat) (b c d : Byte), a.toNat = 0xF0 + n / 262144 →
      b.toNat = 0x80 + n / 4096 % 64 → c.toNat = 0x80 + n / 64 % 64 → d.toNat = 0x80 + n % 64 →
      0x10000 ≤ n → [a, b, c, d] = encode n := by
    intro n b c d h1 h2 h3 h4 h5
    unfold encode
    rw [if_neg (by omega), if_neg (by omega), if_neg (by omega), ofNat_toNat' a _ h1.symm,
      ofNat_toNat' b _ h2.symm, ofNat_toNat' c _ h3.symm, ofNat_toNat' d _ h4.symm]
  -- three-byte forms, given the range of the second byte
  have case3 : ∀ lo hi, (∀ n, a.toNat - 0xE0 = n → 0x80 ≤ lo ∧ hi ≤ 0xC0 ∧
        (n = 0 → 0xA0 ≤ lo) ∧ (n = 13 → hi ≤ 0xA0)) →
      0xE0 ≤ a.toNat → a.toNat < 0xF0 →
      (∃ b t, s = b :: t ∧ lo ≤ b.toNat ∧ b.toNat < hi ∧ run 24 t = 0) →
      ∃ c t, IsScalar c ∧ a :: s = encode c ++ t ∧ run 0 t = 0 := by
    rintro lo hi hr h1 h2 ⟨b, t, rfl, hb1, hb2, ht⟩
    obtain ⟨c, t', rfl, hc1, hc2, ht'⟩ := run_24 t ht
    obtain ⟨r1, r2, r3, r4⟩ := hr _ rfl
    refine ⟨(a.toNat - 0xE0) * 4096 + (b.toNat - 0x80) * 64 + (c.toNat - 0x80), t', ?_, ?_, ht'⟩
    · unfold IsScalar; omega
    · rw [← three _ b c (by omega) (by omega) (by omega) (by omega) (by omega)]
      rfl
  have case4 : ∀ lo hi, (∀ n, a.toNat - 0xF0 = n → 0x80 ≤ lo ∧ hi ≤ 0xC0 ∧
        (n = 0 → 0x90 ≤ lo) ∧ (n = 4 → hi ≤ 0x90)) →
      0xF0 ≤ a.toNat → a.toNat ≤ 0xF4 →
      (∃ b t, s = b :: t ∧ lo ≤ b.toNat ∧ b.toNat < hi ∧ run 36 t = 0) →
      ∃ c t, IsScalar c ∧ a :: s = encode c ++ t ∧ run 0 t = 0 := by
    rintro lo hi hr h1 h2 ⟨b, t, rfl, hb1, hb2, ht⟩
    obtain ⟨c, d, t', rfl, hc1, hc2, hd1, hd2, ht'⟩ := run_36 t ht
    obtain ⟨r1, r2, r3, r4⟩ := hr _ rfl
    refine ⟨(a.toNat - 0xF0) * 262144 + (b.toNat - 0x80) * 4096 + (c.toNat - 0x80) * 64
      + (d.toNat - 0x80), t', ?_, ?_, ht'⟩
    · unfold IsScalar; omega
    · rw [← four _ b c d (by omega) (by omega) (by omega) (by omega) (by omega)]
      rfl
  split at h
  · refine ⟨a.toNat, s, ?_, ?_, h⟩
    · unfold IsScalar; omega
    · unfold encode
      rw [if_pos ‹_›]
      simp
  split at h
  · rw [run_12] at h; omega
  split at h
  · obtain ⟨b, t, rfl, h1, h2, h3⟩ := run_24 s h
    refine ⟨(a.toNat - 0xC0) * 64 + (b.toNat - 0x80), t, ?_, ?_, h3⟩
    · unfold IsScalar; omega
    · rw [← two _ b (by omega) (by omega) (by omega) (by omega)]
      rfl
  split at h
  · exact case3 0xA0 0xC0 (by intro n hn; omega) (by omega) (by omega)
      (run_second 48 0xA0 0xC0 24 s (by omega) (by intro n; simp [stepN]) h)
  split at h
  · exact case3 0x80 0xA0 (by intro n hn; omega) (by omega) (by omega)
      (run_second 60 0x80 0xA0 24 s (by omega) (by intro n; simp [stepN]) h)
  split at h
  · exact case3 0x80 0xC0 (by intro n hn; omega) (by omega) (by omega)
      (run_second 36 0x80 0xC0 24 s (by omega) (by intro n; simp [stepN]) h)
  split at h
  · exact case4 0x90 0xC0 (by intro n hn; omega) (by omega) (by omega)
      (run_second 72 0x90 0xC0 36 s (by omega) (by intro n; simp [stepN]) h)
  split at h
  · exact case4 0x80 0xC0 (by intro n hn; omega) (by omega) (by omega)
      (run_second 84 0x80 0xC0 36 s (by omega) (by intro n; simp [stepN]) h)
  split at h
  · exact case4 0x80 0x90 (by intro n hn; omega) (by omega) (by omega)
      (run_second 96 0x80 0x90 36 s (by omega) (by intro n; simp [stepN]) h)
  · rw [run_12] at h; omega

theorem encode_ne_nil (c : Nat) : encode c ≠ [] := by
  unfold encode
  repeat' split
  all_goals simp

theorem wellFormed_of_run (n : Nat) : ∀ (s : Str), s.length ≤ n → run 0 s = 0 →
    WellFormedUtf8 s := by
  induction n with
  | zero =>
    intro s hl _
    have : s = [] := List.length_eq_zero_iff.1 (by omega)
    subst this
    exact ⟨[], by simp, rfl⟩
  | succ n ih =>
    intro s hl h
    cases s with
    | nil => exact ⟨[], by simp, rfl⟩
    | cons a s =>
      obtain ⟨c, t, hc, he, ht⟩ := run_uncons a s h
      have hlen : t.length ≤ n := by
        have h1 := congrArg List.length he
        have h2 : 0 < (encode c).length := List.length_pos_iff.2 (encode_ne_nil c)
        simp only [List.length_cons, List.length_append] at h1 hl
        omega
      obtain ⟨cs, h1, h2⟩ := ih t hlen ht
      refine ⟨c :: cs, ?_, ?_⟩
      · intro x hx
        rcases List.mem_cons.1 hx with rfl | hx
        · exact hc
        · exact h1 x hx
      · rw [he, List.flatMap_cons, h2]

theorem run_iff (s : Str) : run 0 s = 0 ↔ WellFormedUtf8 s := by
  constructor
  · exact wellFormed_of_run s.length s (Nat.le_refl _)
  · rintro ⟨cs, h, rfl⟩
    exact run_wellFormed cs h

end Blogc.Utf8
