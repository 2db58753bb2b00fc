import Verif.Lemmas.Numbers
import Verif.Spec.SysVars

/-!
# Rounding of times and amounts of memory
-/

namespace Blogc.SysVars

open Blogc Blogc.Spec.SysVars

/-- Rounding goes to the nearest integer. -/
theorem roundEven_near (n d : Nat) (hd : 0 < d) : Nearest n d (roundEven n d) := by
  have hn := Nat.div_add_mod n d
  have hm := Nat.mod_lt n hd
  have h1 : d * (n / d + 1) = d * (n / d) + d := by rw [Nat.mul_add, Nat.mul_one]
  unfold Nearest roundEven
  split
  · constructor <;> omega
  · split
    · constructor <;> omega
    · split
      · constructor <;> omega
      · constructor <;> omega

theorem upShift53_spec (n d : Nat) : ∀ (fuel k K : Nat), k ≤ K → K < k + fuel → d * 2 ^ 52 ≤ n * 2 ^ K →
    d * 2 ^ 52 ≤ n * 2 ^ (upShift53 n d fuel k) := by
  intro fuel
  induction fuel with
  | zero => intro k K h1 h2; omega
  | succ fuel ih =>
    intro k K h1 h2 h3
    simp only [upShift53]
    split
    · assumption
    · rename_i h
      have : k ≠ K := by rintro rfl; exact h h3
      exact ih (k + 1) K (by omega) (by omega) h3

/-- The arithmetic of two roundings. -/
theorem two_roundings (n d m q p : Nat) (hp : 0 < p) (h1 : Nearest (n * p) d m) (h2 : Nearest (m * 1000) p q)
    (hb : 1000 * d < 2 * p) (he : 2 ∣ d) : Nearest (1000 * n) d q := by
  obtain ⟨a1, a2⟩ := h1
  obtain ⟨b1, b2⟩ := h2
  obtain ⟨e, rfl⟩ := he
  unfold Nearest
  have A1 : 2000 * e * m ≤ 1000 * n * p + 1000 * e := by grind
  have A2 : 1000 * n * p ≤ 2000 * e * m + 1000 * e := by grind
  have B1 : e * (2 * (p * q)) ≤ e * (2 * (m * 1000) + p) := Nat.mul_le_mul_left e b1
  have B2 : e * (2 * (m * 1000)) ≤ e * (2 * (p * q) + p) := Nat.mul_le_mul_left e b2
  have C1 : p * (2 * e * q) < p * (1000 * n + e + 1) := by grind
  have C2 : p * (1000 * n) < p * (2 * e * q + e + 1) := by grind
  have D1 := Nat.lt_of_mul_lt_mul_left C1
  have D2 := Nat.lt_of_mul_lt_mul_left C2
  constructor <;> omega

theorem shift_bound (n d : Nat) (h1 : d ≤ n) (hd : 0 < d) (h2 : n < 2 ^ 43) :
    1000 * d < 2 * 2 ^ (upShift53 n d 64 0) := by
  have h := upShift53_spec n d 64 0 52 (by omega) (by omega) (Nat.mul_le_mul_right _ h1)
  generalize 2 ^ upShift53 n d 64 0 = p at h
  refine Decidable.byContradiction fun hc => ?_
  have : n * (2 * p) ≤ n * (1000 * d) := Nat.mul_le_mul_left n (by omega)
  have h4 : n * (1000 * d) < 2 ^ 43 * (1000 * d) := Nat.mul_lt_mul_of_pos_right h2 (by omega)
  have : n * (2 * p) = 2 * (n * p) := by grind
  omega

/-- A quotient printed with three decimals is rounded to the nearest: the rounding to double precision does not matter. -/
theorem printf3_eq (n d : Nat) (hd : 0 < d) (he : 2 ∣ d) (h1 : d ≤ n) (h2 : n < 2 ^ 43) :
    ∃ k, printf3 (doubleDiv n d) = thousandths k ∧ Nearest (1000 * n) d k := by
  refine ⟨_, ?_, two_roundings n d _ _ _ (Nat.two_pow_pos _) (roundEven_near _ _ hd) (roundEven_near _ _ (Nat.two_pow_pos _))
    (shift_bound n d h1 hd h2) he⟩
  unfold printf3 doubleDiv thousandths three
  simp only
  generalize roundEven _ _ = q
  have e1 : q % 1000 / 10 % 10 = q % 100 / 10 := by omega
  have e2 : q % 1000 % 10 = q % 10 := by omega
  rw [e1, e2]

theorem printf0_eq (j : Nat) (hj : 1 ≤ j) : printf0 (doubleDiv (1000 * j) 1000) = decNat j := by
  unfold printf0 doubleDiv
  simp only
  generalize upShift53 _ _ _ _ = k
  have e : 1000 * j * 2 ^ k = 1000 * (j * 2 ^ k) := by grind
  have e1 : roundEven (1000 * j * 2 ^ k) 1000 = j * 2 ^ k :=
    Nat.le_antisymm (roundEven_le (by omega) (by omega)) (le_roundEven (by omega) (by omega))
  rw [e1]
  have e2 : roundEven (j * 2 ^ k) (2 ^ k) = j :=
    Nat.le_antisymm (roundEven_le (Nat.two_pow_pos _) (by rw [Nat.mul_comm]; exact Nat.le_refl _))
      (le_roundEven (Nat.two_pow_pos _) (by rw [Nat.mul_comm]; exact Nat.le_refl _))
  rw [e2]

theorem downShift_small (n : Nat) (h : n < 2 ^ 33) : downShift n 1 64 0 ≤ 9 := by
  have := downShift_spec n 1 64 0 (Or.inl rfl)
  rcases this.1 with h' | h'
  · omega
  · refine Decidable.byContradiction fun hc => ?_
    have : 2 ^ 33 ≤ 2 ^ (23 + downShift n 1 64 0) := Nat.pow_le_pow_right (by omega) (by omega)
    omega

/-- The conversion to single precision is off by at most 256 for numbers below `2 ^ 33`. -/
theorem float_near (n : Nat) (h : n < 2 ^ 33) : floatOfNat n ≤ n + 256 ∧ n ≤ floatOfNat n + 256 := by
  unfold floatOfNat
  split
  · omega
  · simp only
    have hk := downShift_small n h
    generalize downShift n 1 64 0 = k at hk
    have hp : 2 ^ k ≤ 512 := Nat.pow_le_pow_right (n := 2) (j := 9) (by omega) hk
    obtain ⟨h1, h2⟩ := roundEven_near n (2 ^ k) (Nat.two_pow_pos k)
    rw [Nat.mul_comm (roundEven _ _)]
    omega

theorem cpu_shown (t : Nat) (h1 : 1000 ≤ t) (h2 : t < 2 ^ 33) : ∃ s, formatCpuTime t = .ok s ∧ CpuShown t s := by
  unfold formatCpuTime
  split
  · rename_i h
    have hn := float_near t h2
    have hl : 1000000 ≤ floatOfNat t := by
      by_cases hs : t < 2 ^ 24
      · rw [floatOfNat, if_pos hs]; exact h
      · have := floatOfNat_large t (by omega); omega
    obtain ⟨k, e, hk1, hk2⟩ := printf3_eq (floatOfNat t) 1000000 (by omega) (by omega) hl (by omega)
    refine ⟨_, rfl, ?_⟩
    rw [e]
    refine .seconds h (fun hs => ?_) ?_
    · rw [floatOfNat, if_pos hs] at hk1 hk2
      constructor <;> omega
    · constructor <;> omega
  · refine ⟨_, rfl, ?_⟩
    have e0 : floatOfNat t = t := by rw [floatOfNat, if_pos (by omega)]
    rw [e0]
    split
    · obtain ⟨k, e, hk1, hk2⟩ := printf3_eq t 1000 (by omega) (by omega) h1 (by omega)
      have : k = t := by omega
      rw [e, this]
      exact .milliseconds h1 (by omega) (by assumption)
    · have : t = 1000 * (t / 1000) := by omega
      have e := printf0_eq (t / 1000) (by omega)
      rw [← this] at e
      rw [e]
      exact .whole this (by omega) (by omega)

theorem memory_shown (m : Nat) (h1 : 1024 ≤ m) (h2 : m < 2 ^ 33) : ∃ s, formatMemory m = .ok s ∧ MemoryShown m s := by
  unfold formatMemory
  split
  · rename_i h
    have hn := float_near m h2
    have hl : 1048576 ≤ floatOfNat m := by
      by_cases hs : m < 2 ^ 24
      · rw [floatOfNat, if_pos hs]; exact h
      · have := floatOfNat_large m (by omega); omega
    obtain ⟨k, e, hk1, hk2⟩ := printf3_eq (floatOfNat m) 1048576 (by omega) (by omega) hl (by omega)
    refine ⟨_, rfl, ?_⟩
    rw [e]
    refine .giga h (fun hs => ?_) ?_
    · rw [floatOfNat, if_pos hs] at hk1 hk2
      exact ⟨hk1, hk2⟩
    · constructor <;> omega
  · refine ⟨_, rfl, ?_⟩
    have e0 : floatOfNat m = m := by rw [floatOfNat, if_pos (by omega)]
    rw [e0]
    obtain ⟨k, e, hk⟩ := printf3_eq m 1024 (by omega) (by omega) h1 (by omega)
    rw [e]
    exact .mega h1 (by omega) hk

end Blogc.SysVars
