import Verif.Model.Numbers

/-!
# Lemmas about number conversions
-/

namespace Blogc

theorem digit_toNat (n : Nat) (h : n < 10) : (UInt8.ofNat (48 + n)).toNat = 48 + n := by
  simp; omega

theorem isDigit_digit (n : Nat) (h : n < 10) : isDigit (UInt8.ofNat (48 + n)) = true := by
  simp only [isDigit, Bool.and_eq_true, decide_eq_true_eq, UInt8.le_iff_toNat_le, digit_toNat n h]
  simp; omega

theorem decAux_fuel (f n : Nat) (h : n ≤ f) : decAux f n = decNat n := by
  have key : ∀ n f g : Nat, n ≤ f → n ≤ g → decAux f n = decAux g n := by
    intro n
    induction n using Nat.strongRecOn with
    | _ n ih =>
      intro f g hf hg
      cases f with
      | zero =>
        have : n = 0 := by omega
        subst this
        cases g <;> simp [decAux]
      | succ f =>
        cases g with
        | zero =>
          have : n = 0 := by omega
          subst this
          simp [decAux]
        | succ g =>
          simp only [decAux]
          split
          · rfl
          · rw [ih (n / 10) (by omega) f g (by omega) (by omega)]
  exact key n f n h (Nat.le_refl _)

theorem decNat_eq (n : Nat) : decNat n =
    if n < 10 then [UInt8.ofNat (48 + n)] else decNat (n / 10) ++ [UInt8.ofNat (48 + n % 10)] := by
  conv => lhs; unfold decNat
  cases n with
  | zero => simp [decAux]
  | succ n =>
    simp only [decAux]
    split
    · rfl
    · rw [decAux_fuel _ _ (by omega)]

theorem readDigits_append (a b : Str) (acc : Nat) (h : ∀ c ∈ a, isDigit c = true) :
    readDigits acc (a ++ b) = readDigits (readDigits acc a).1 b := by
  induction a generalizing acc with
  | nil => rfl
  | cons c a ih =>
    have hc := h c (by simp)
    simp only [List.cons_append, readDigits, hc, if_true]
    exact ih _ (fun x hx => h x (by simp [hx]))

theorem decNat_digits (n : Nat) : ∀ c ∈ decNat n, isDigit c = true := by
  induction n using Nat.strongRecOn with
  | _ n ih =>
    intro c hc
    rw [decNat_eq] at hc
    split at hc
    · simp only [List.mem_singleton] at hc
      subst hc; exact isDigit_digit n (by omega)
    · rcases List.mem_append.1 hc with h | h
      · exact ih (n / 10) (by omega) c h
      · simp only [List.mem_singleton] at h
        subst h; exact isDigit_digit _ (by omega)

theorem decNat_ne_nil (n : Nat) : decNat n ≠ [] := by
  rw [decNat_eq]
  split <;> simp

theorem readDigits_decNat (n : Nat) : readDigits 0 (decNat n) = (n, []) := by
  induction n using Nat.strongRecOn with
  | _ n ih =>
    rw [decNat_eq]
    split
    · rename_i h
      simp only [readDigits, isDigit_digit n h, if_true, digit_toNat n h]
      simp
    · rename_i h
      rw [readDigits_append _ _ _ (decNat_digits _), ih (n / 10) (by omega)]
      simp only [readDigits, isDigit_digit (n % 10) (by omega), if_true,
        digit_toNat (n % 10) (by omega)]
      congr 1
      omega

theorem digit_cases {c : Byte} (h : isDigit c = true) :
    isSpace c = false ∧ (c == c!"-") = false ∧ (c == c!"+") = false ∧ c ≠ 0 := by
  simp only [isDigit, Bool.and_eq_true, decide_eq_true_eq] at h
  refine ⟨?_, ?_, ?_, ?_⟩
  · simp only [isSpace]; grind
  · grind
  · grind
  · grind

theorem readNumber_decNat (n : Nat) : readNumber (decNat n) = some (false, n, []) := by
  have h1 := decNat_digits n
  have h2 := readDigits_decNat n
  revert h1 h2
  cases h : decNat n with
  | nil => exact absurd h (decNat_ne_nil n)
  | cons c t =>
    intro h1 h2
    have hc := h1 c (by simp)
    obtain ⟨a, b, d, -⟩ := digit_cases hc
    simp only [readNumber, lstrip, a, Bool.not_false, if_true, b, d, Bool.false_eq_true, if_false,
      hc, h2]

theorem strtol_decNat (n : Nat) (h : n < 2 ^ 63) : strtol (decNat n) = ((n : Int), []) := by
  simp only [strtol, readNumber_decNat]
  simp
  omega

theorem strtoul_decNat (n : Nat) (h : n < 2 ^ 64) : strtoul (decNat n) = n := by
  simp only [strtoul, readNumber_decNat]
  rw [if_neg (by omega)]
  simp

/-! ## Rounding -/

theorem roundEven_le {n d c : Nat} (hd : 0 < d) (h : n ≤ d * c) : roundEven n d ≤ c := by
  have hq : n / d ≤ c := Nat.div_le_of_le_mul h
  have hn := Nat.div_add_mod n d
  unfold roundEven
  have hlt : n % d ≠ 0 → n / d + 1 ≤ c := by
    intro hr
    by_cases he : n / d = c
    · rw [he] at hn; omega
    · omega
  split
  · exact hq
  · split
    · apply hlt; omega
    · split
      · exact hq
      · apply hlt; omega

theorem le_roundEven {n d c : Nat} (hd : 0 < d) (h : d * c ≤ n) : c ≤ roundEven n d := by
  have hq : c ≤ n / d := (Nat.le_div_iff_mul_le hd).2 (by rw [Nat.mul_comm]; exact h)
  unfold roundEven
  split
  · exact hq
  · split
    · omega
    · split <;> omega

/-- Above the middle, rounding goes up. -/
theorem roundEven_gt {n d c : Nat} (hd : 0 < d) (h : d * (2 * c + 1) < 2 * n) : c + 1 ≤ roundEven n d := by
  by_cases hq : c + 1 ≤ n / d
  · apply le_roundEven hd
    calc d * (c + 1) ≤ d * (n / d) := Nat.mul_le_mul_left _ hq
      _ ≤ n := Nat.mul_div_le n d
  · have hn := Nat.div_add_mod n d
    have hc : n / d = c := by
      have h1 : d * c ≤ n := by
        have : d * (2 * c + 1) = 2 * (d * c) + d := by rw [Nat.mul_add, Nat.mul_left_comm, Nat.mul_one]
        omega
      have := (Nat.le_div_iff_mul_le hd).2 (by rw [Nat.mul_comm]; exact h1 : c * d ≤ n)
      omega
    have h2 : d * (2 * c + 1) = 2 * (d * c) + d := by rw [Nat.mul_add, Nat.mul_left_comm, Nat.mul_one]
    rw [hc] at hn
    unfold roundEven
    rw [if_neg (by omega), if_pos (by omega), hc]
    exact Nat.le_refl _

theorem upShift_spec (n d : Nat) : ∀ (fuel k K : Nat), k ≤ K → K < k + fuel → d * 2 ^ 23 ≤ n * 2 ^ K →
    d * 2 ^ 23 ≤ n * 2 ^ (upShift n d fuel k) := by
  intro fuel
  induction fuel with
  | zero => intro k K h1 h2; omega
  | succ fuel ih =>
    intro k K h1 h2 h3
    simp only [upShift]
    split
    · assumption
    · rename_i h
      have : k ≠ K := by rintro rfl; exact h h3
      exact ih (k + 1) K (by omega) (by omega) h3

theorem downShift_spec (n d : Nat) : ∀ (fuel k : Nat), (k = 0 ∨ d * 2 ^ (23 + k) ≤ n) →
    (downShift n d fuel k = 0 ∨ d * 2 ^ (23 + downShift n d fuel k) ≤ n) ∧ k ≤ downShift n d fuel k := by
  intro fuel
  induction fuel with
  | zero => intro k h; exact ⟨h, Nat.le_refl _⟩
  | succ fuel ih =>
    intro k h
    simp only [downShift]
    split
    · exact ⟨h, Nat.le_refl _⟩
    · rename_i hn
      have := ih (k + 1) (Or.inr (by
        have e : 23 + (k + 1) = 24 + k := by omega
        rw [e]; omega))
      exact ⟨this.1, by omega⟩

/-- Large integers stay large when converted to `float`. -/
theorem floatOfNat_large (n : Nat) (h : 2 ^ 24 ≤ n) : 2 ^ 24 ≤ floatOfNat n := by
  unfold floatOfNat
  rw [if_neg (by omega)]
  simp only
  have h0 := downShift_spec n 1 64 0 (Or.inl rfl)
  have hk : 1 ≤ downShift n 1 64 0 := by
    simp only [downShift]
    rw [if_neg (by omega)]
    have := (downShift_spec n 1 63 1 (Or.inr (by omega))).2
    exact this
  generalize downShift n 1 64 0 = k at h0 hk
  have h1 : 2 ^ (23 + k) ≤ n := by
    rcases h0.1 with h | h
    · omega
    · omega
  have h2 : 2 ^ 23 ≤ roundEven n (2 ^ k) := by
    apply le_roundEven (Nat.two_pow_pos k)
    rw [← Nat.pow_add, Nat.add_comm]; exact h1
  have h3 : 2 ^ 1 ≤ 2 ^ k := Nat.pow_le_pow_right (by omega) hk
  calc 2 ^ 24 = 2 ^ 23 * 2 ^ 1 := by decide
    _ ≤ _ := Nat.mul_le_mul h2 h3

/-- For fewer than `2 ^ 24` things, single precision division and `ceilf` give
the exact number of groups. -/
theorem ceilDiv32_exact (n d : Nat) (hd : 0 < d) (hd' : d < 2 ^ 128) (hn : n < 2 ^ 24) :
    ceilDiv32 n d = (n + d - 1) / d := by
  unfold ceilDiv32
  by_cases h0 : n = 0
  · rw [if_pos h0, h0, Nat.zero_add, Nat.div_eq_of_lt (by omega)]
  rw [if_neg h0, if_pos (by have := Nat.mul_le_mul_right (2 ^ 24) hd; omega)]
  simp only
  have hk := upShift_spec n d 256 0 151 (by omega) (by omega) (by
    calc d * 2 ^ 23 ≤ 2 ^ 128 * 2 ^ 23 := Nat.mul_le_mul_right _ (by omega)
      _ = 1 * 2 ^ 151 := by decide
      _ ≤ n * 2 ^ 151 := Nat.mul_le_mul_right _ (by omega))
  generalize upShift n d 256 0 = k at hk
  have hp : 0 < 2 ^ k := Nat.two_pow_pos k
  generalize hm : (n + d - 1) / d = m
  have hm1 : n ≤ d * m := by
    have := Nat.div_add_mod (n + d - 1) d
    have := Nat.mod_lt (n + d - 1) hd
    rw [hm] at *
    omega
  have hm2 : d * m < n + d := by
    have := Nat.div_add_mod (n + d - 1) d
    rw [hm] at *
    omega
  have hm0 : 0 < m := by
    rcases Nat.eq_zero_or_pos m with h | h
    · subst h; omega
    · exact h
  obtain ⟨j, rfl⟩ : ∃ j, m = j + 1 := ⟨m - 1, by omega⟩
  have hj : d * j < n := by rw [Nat.mul_add] at hm2; omega
  have hden : d < 2 ^ (k + 1) := by
    have h1 : d * 2 ^ 23 < 2 ^ (k + 1) * 2 ^ 23 := by
      calc d * 2 ^ 23 ≤ n * 2 ^ k := hk
        _ < 2 ^ 24 * 2 ^ k := Nat.mul_lt_mul_of_pos_right hn hp
        _ = 2 ^ (k + 1) * 2 ^ 23 := by rw [Nat.pow_succ]; omega
    exact Nat.lt_of_mul_lt_mul_right h1
  have u : roundEven (n * 2 ^ k) d ≤ (j + 1) * 2 ^ k := by
    apply roundEven_le hd
    calc n * 2 ^ k ≤ d * (j + 1) * 2 ^ k := Nat.mul_le_mul_right _ hm1
      _ = _ := Nat.mul_assoc _ _ _
  have l : j * 2 ^ k + 1 ≤ roundEven (n * 2 ^ k) d := by
    apply roundEven_gt hd
    have h1 : (d * j + 1) * 2 ^ (k + 1) ≤ n * 2 ^ (k + 1) := Nat.mul_le_mul_right _ hj
    have h2 : d * (2 * (j * 2 ^ k) + 1) = d * j * 2 ^ (k + 1) + d := by
      rw [Nat.pow_succ, Nat.mul_add, Nat.mul_one]
      congr 1
      rw [Nat.mul_assoc d j, ← Nat.mul_assoc j, Nat.mul_comm 2]
    have h3 : 2 * (n * 2 ^ k) = n * 2 ^ (k + 1) := by
      rw [Nat.pow_succ, ← Nat.mul_assoc, Nat.mul_comm 2 n, Nat.mul_assoc, Nat.mul_comm 2]
    rw [h2, h3]
    rw [Nat.add_mul, Nat.one_mul] at h1
    omega
  generalize roundEven (n * 2 ^ k) d = R at u l
  apply Nat.le_antisymm
  · rw [← Nat.lt_succ_iff, Nat.div_lt_iff_lt_mul hp]
    rw [Nat.succ_mul]
    omega
  · rw [Nat.le_div_iff_mul_le hp, Nat.add_mul, Nat.one_mul]
    omega

end Blogc

namespace Blogc

theorem readNumber_neg (n : Nat) : readNumber (c!"-" :: decNat n) = some (true, n, []) := by
  have h1 := decNat_digits n
  have h2 := readDigits_decNat n
  revert h1 h2
  cases h : decNat n with
  | nil => exact absurd h (decNat_ne_nil n)
  | cons c t =>
    intro h1 h2
    have hc := h1 c (by simp)
    have hm : isSpace c!"-" = false := by decide
    simp only [readNumber, lstrip, hm, Bool.not_false, if_true, beq_self_eq_true, hc, h2]

/-- Printing a 64 bit signed number and reading it as unsigned gives it modulo
`2 ^ 64`. -/
theorem strtoul_decInt (z : Int) (h1 : -(2 ^ 63) ≤ z) (h2 : z < 2 ^ 63) :
    (strtoul (decInt z) : Int) = z % 2 ^ 64 := by
  unfold decInt
  by_cases hz : z < 0
  · rw [if_pos hz]
    simp only [strtoul, readNumber_neg]
    rw [if_neg (by omega)]
    simp only [if_true]
    omega
  · rw [if_neg hz, strtoul_decNat _ (by omega)]
    omega

end Blogc
