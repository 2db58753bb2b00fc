import Verif.Model.Httpd
import Verif.Spec.Url

/-!
# C46: URL decoding inverts percent-encoding
-/

namespace Blogc.C46

open Blogc Blogc.Httpd Blogc.Url

/-- The digit conversion is right for each of the 256 bytes. -/
theorem hextoi_eq (c : Byte) : hextoi c = match hexVal c with
    | some n => (n : Int)
    | none => -1 := by
  have h : ∀ n : Fin 256, hextoi (UInt8.ofFin n) = match hexVal (UInt8.ofFin n) with
      | some n => (n : Int)
      | none => -1 := by decide +kernel
  exact h c.toFin

theorem hextoi_nonneg (c : Byte) : 0 ≤ hextoi c * 16 ↔ ∃ x, hexVal c = some x := by
  rw [hextoi_eq]
  cases hexVal c with
  | none => simp
  | some n => simp; omega

theorem hextoi_nonneg' (c : Byte) : 0 ≤ hextoi c ↔ ∃ x, hexVal c = some x := by
  rw [hextoi_eq]
  cases hexVal c with
  | none => simp
  | some n => simp

theorem readAt_one (c a : Byte) (r : Str) : readAt (c :: a :: r) 1 = .ok a := by
  simp [readAt]

theorem readAt_two (c a b : Byte) (r : Str) : readAt (c :: a :: b :: r) 2 = .ok b := by
  simp [readAt]

/-- A `%` followed by two digits. -/
theorem decode_escape (a b : Byte) (r : Str) (x y : Nat) (hx : hexVal a = some x) (hy : hexVal b = some y) :
    urldecode (c!"%" :: a :: b :: r) = (urldecode r).map (UInt8.ofNat (16 * x + y) :: ·) := by
  have h1 : hextoi a = x := by rw [hextoi_eq, hx]
  have h2 : hextoi b = y := by rw [hextoi_eq, hy]
  rw [urldecode.eq_def]
  simp only [if_true, List.length_cons, readAt_one, readAt_two, Res.bind_ok, h1, h2]
  rw [if_pos (by omega), if_pos (by omega)]
  have h3 : ((x : Int) * 16 + (y : Int)).toNat = 16 * x + y := by omega
  rw [h3]
  cases urldecode r <;> rfl

/-- A `%` not followed by two hexadecimal digits is kept. -/
theorem percent_kept (rest : Str) (h : ¬ TwoHex rest) :
    urldecode (c!"%" :: rest) = (urldecode rest).map (c!"%" :: ·) := by
  have fin : (do let r ← urldecode rest; pure (c!"%" :: r) : Res Str) =
      (urldecode rest).map (c!"%" :: ·) := by
    cases urldecode rest <;> rfl
  rw [urldecode.eq_def]
  simp only [if_true]
  by_cases hl : 2 < rest.length + 1
  · rw [if_pos hl]
    match rest, hl, h, fin with
    | a :: b :: r, _, h, fin =>
      rw [readAt_one, readAt_two, Res.bind_ok, Res.bind_ok]
      rw [if_neg]
      · exact fin
      · rintro ⟨h1, h2⟩
        obtain ⟨x, hx⟩ := (hextoi_nonneg a).1 h1
        obtain ⟨y, hy⟩ := (hextoi_nonneg' b).1 h2
        exact h ⟨a, b, r, x, y, rfl, hx, hy⟩
  · rw [if_neg hl]
    exact fin

theorem decode_literal (c : Byte) (r : Str) (h1 : c ≠ c!"%") (h2 : c ≠ c!"+") :
    urldecode (c :: r) = (urldecode r).map (c :: ·) := by
  rw [urldecode.eq_def]
  simp only [h1, h2, if_false]
  cases urldecode r <;> rfl

theorem decode_plus (r : Str) : urldecode (c!"+" :: r) = (urldecode r).map (c!" " :: ·) := by
  rw [urldecode.eq_def]
  simp only [if_true]
  rw [if_neg (by decide)]
  cases urldecode r <;> rfl

/-- Decoding never reads outside of the string. -/
theorem in_bounds (s : Str) : ∃ r, urldecode s = .ok r := by
  induction hn : s.length using Nat.strongRecOn generalizing s with
  | ind n ih =>
    cases s with
    | nil => exact ⟨[], rfl⟩
    | cons c r =>
      simp only [List.length_cons] at hn
      obtain ⟨q, hq⟩ := ih r.length (by omega) r rfl
      by_cases h1 : c = c!"%"
      · subst h1
        by_cases h : TwoHex r
        · obtain ⟨a, b, r', x, y, rfl, hx, hy⟩ := h
          simp only [List.length_cons] at hn
          obtain ⟨q', hq'⟩ := ih r'.length (by omega) r' rfl
          exact ⟨_, by rw [decode_escape a b r' x y hx hy, hq']; rfl⟩
        · exact ⟨_, by rw [percent_kept r h, hq]; rfl⟩
      · by_cases h2 : c = c!"+"
        · subst h2; exact ⟨_, by rw [decode_plus, hq]; rfl⟩
        · exact ⟨_, by rw [decode_literal c r h1 h2, hq]; rfl⟩

/-- Decoding any percent-encoding of any bytes that does not write `+` literally
gives these bytes. Missing: literal `+`, which RFC 3986 allows in a path
(`plus_violated`). -/
theorem inverts_partial (t s : Str) (h : Encodes (· ≠ c!"+") t s) : urldecode t = .ok s := by
  induction h with
  | nil => rfl
  | literal h1 h2 _ ih => rw [decode_literal _ _ h1 h2, ih]; rfl
  | escaped hx hy _ ih => rw [decode_escape _ _ _ _ _ hx hy, ih]; rfl

/-- A literal `+` in a path is changed to a space. -/
theorem plus_violated : ∃ t s, Encodes (fun _ => True) t s ∧ urldecode t ≠ .ok s :=
  ⟨b!"c++", b!"c++", .literal (by decide) trivial (.literal (by decide) trivial
    (.literal (by decide) trivial .nil)), by decide⟩

example : Encodes (· ≠ c!"+") b!"a%2Fb%2bc%E2%82%ac" b!"a/b+c€" :=
  .literal (by decide) (by decide) (.escaped (x := 2) (y := 15) rfl rfl (.literal (by decide) (by decide)
    (.escaped (x := 2) (y := 11) rfl rfl (.literal (by decide) (by decide)
    (.escaped (x := 14) (y := 2) rfl rfl (.escaped (x := 8) (y := 2) rfl rfl
    (.escaped (x := 10) (y := 12) rfl rfl .nil)))))))

example : ¬ TwoHex b!"4" ∧ urldecode b!"100%4" = .ok b!"100%4" := by
  refine ⟨?_, by decide⟩
  rintro ⟨a, b, r, x, y, h, -⟩
  simp at h

end Blogc.C46
