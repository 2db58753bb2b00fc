import Verif.Model.Httpd
import Verif.Spec.Mime

/-!
# C51: content types come from the extension
-/

namespace Blogc.C51

open Blogc Blogc.Httpd

/-- The type the table gives to an extension. -/
def typeOfExtension (ext : Str) : Str :=
  match contentTypes.find? (fun e => e.2.1 == ext) with
  | some e => e.1
  | none => b!"application/octet-stream"

/-- No extension is listed twice, so the order of the table does not matter. -/
theorem table_functional : (contentTypes.map (fun e => e.2.1)).Nodup := by decide +kernel

theorem table_plain : ∀ e ∈ contentTypes, c!"\\" ∉ e.2.1 := by decide +kernel

/-- Bytes at which the search for the extension stops. -/
def Stop (c : Byte) : Prop := c = c!"." ∨ c = c!"/" ∨ c = c!"\\"

theorem extLoop_skip (f : Str) (k : Nat) (n : Nat) (hk : k ≤ n)
    (h : ∀ j, k < j → j ≤ n → ¬ Stop (f.getD j 0)) : extLoop f n = extLoop f k := by
  induction n with
  | zero => rw [Nat.le_zero.1 hk]
  | succ n ih =>
    by_cases e : k = n + 1
    · rw [e]
    · have hs := h (n + 1) (by omega) (by omega)
      unfold Stop at hs
      rw [not_or] at hs
      rw [extLoop]
      simp only [hs.1, if_false]
      rw [if_neg hs.2]
      exact ih (by omega) (fun j h1 h2 => h j h1 (by omega))

theorem getD_at (a b : Str) (c : Byte) : (a ++ c :: b).getD a.length 0 = c := by
  simp

theorem getD_after (a b : Str) (c : Byte) (j : Nat) (h1 : a.length < j) (P : Byte → Prop)
    (h0 : P 0) (h : ∀ x ∈ b, P x) : P ((a ++ c :: b).getD j 0) := by
  rw [List.getD_eq_getElem?_getD]
  cases e : (a ++ c :: b)[j]? with
  | none => exact h0
  | some x =>
    rw [List.getElem?_append_right (by omega)] at e
    obtain ⟨m, hm⟩ : ∃ m, j - a.length = m + 1 := ⟨j - a.length - 1, by omega⟩
    rw [hm, List.getElem?_cons_succ] at e
    exact h x (List.mem_of_getElem? e)

/-- The last stop byte decides. -/
theorem getExtension_at (a b : Str) (c : Byte) (ha : a ≠ []) (hb : ∀ x ∈ b, ¬ Stop x) (hc : Stop c) :
    getExtension (a ++ c :: b) = if c = c!"." then some b else none := by
  unfold getExtension
  rw [extLoop_skip _ a.length _ (by simp)
    (fun j h1 _ => getD_after a b c j h1 (fun x => ¬ Stop x) (by unfold Stop; decide) hb)]
  obtain ⟨n, hn⟩ : ∃ n, a.length = n + 1 := by
    cases a with
    | nil => exact absurd rfl ha
    | cons x r => exact ⟨r.length, rfl⟩
  rw [hn, extLoop, ← hn, getD_at]
  have hd : (a ++ c :: b).drop (n + 2) = b := by
    rw [show n + 2 = a.length + 1 by omega]
    simp
  simp only [hd]
  split
  · rfl
  · rename_i h
    rw [if_pos]
    rcases hc with h' | h'
    · exact absurd h' h
    · exact h'

theorem getExtension_none (b : Str) (c : Byte) (hb : ∀ x ∈ b, ¬ Stop x) :
    getExtension (c :: b) = none := by
  unfold getExtension
  rw [extLoop_skip (c :: b) 0 _ (by omega)
    (fun j h1 _ => getD_after [] b c j h1 (fun x => ¬ Stop x) (by unfold Stop; decide) hb)]
  rfl

/-- The last byte of a kind in a text. -/
theorem last_split (P : Byte → Prop) [DecidablePred P] (s : Str) :
    (∀ x ∈ s, ¬ P x) ∨ ∃ a c b, s = a ++ c :: b ∧ P c ∧ ∀ x ∈ b, ¬ P x := by
  induction s with
  | nil => left; simp
  | cons x r ih =>
    rcases ih with h | ⟨a, c, b, rfl, hc, hb⟩
    · by_cases hx : P x
      · exact .inr ⟨[], x, r, rfl, hx, h⟩
      · left
        intro y hy
        rcases List.mem_cons.1 hy with rfl | hy
        · exact hx
        · exact h y hy
    · exact .inr ⟨x :: a, c, b, rfl, hc, hb⟩

instance (c : Byte) : Decidable (Stop c) := inferInstanceAs (Decidable (_ ∨ _))

theorem backslash_unknown (ext : Str) (h : c!"\\" ∈ ext) :
    typeOfExtension ext = b!"application/octet-stream" := by
  unfold typeOfExtension
  split
  · rename_i e he
    have hm := List.mem_of_find?_eq_some he
    have hp := List.find?_some he
    simp only [beq_iff_eq] at hp
    exact absurd (hp ▸ h) (table_plain e hm)
  · rfl

/-- The type of a file with an extension is the type of the text after the last
`.` of the last component of its path. -/
theorem with_extension (dir stem ext : Str) (h1 : c!"." ∉ ext) (h2 : c!"/" ∉ ext) :
    guessType (dir ++ b!"/" ++ stem ++ b!"." ++ ext) = typeOfExtension ext := by
  rcases last_split Stop ext with h | ⟨a, c, b, rfl, hc, hb⟩
  · have e := getExtension_at (dir ++ b!"/" ++ stem) ext c!"." (by simp) h (.inl rfl)
    unfold guessType
    have e' : dir ++ b!"/" ++ stem ++ b!"." ++ ext = (dir ++ b!"/" ++ stem) ++ c!"." :: ext := by simp
    rw [e', e]
    rfl
  · have hc' : c = c!"\\" := by
      rcases hc with rfl | rfl | rfl
      · exact absurd (by simp) h1
      · exact absurd (by simp) h2
      · rfl
    subst hc'
    have e := getExtension_at (dir ++ b!"/" ++ stem ++ b!"." ++ a) b c!"\\" (by simp) hb
      (.inr (.inr rfl))
    rw [backslash_unknown _ (by simp)]
    unfold guessType
    have e' : dir ++ b!"/" ++ stem ++ b!"." ++ (a ++ c!"\\" :: b)
        = (dir ++ b!"/" ++ stem ++ b!"." ++ a) ++ c!"\\" :: b := by simp
    rw [e', e]
    rfl

/-- A file whose last path component has no `.` has the type
`application/octet-stream`. -/
theorem without_extension (dir base : Str) (h1 : c!"." ∉ base) (h2 : c!"/" ∉ base) :
    guessType (dir ++ b!"/" ++ base) = b!"application/octet-stream" := by
  have key : getExtension (dir ++ b!"/" ++ base) = none := by
    rcases last_split Stop base with h | ⟨a, c, b, rfl, hc, hb⟩
    · have e' : dir ++ b!"/" ++ base = dir ++ c!"/" :: base := by simp
      rw [e']
      cases dir with
      | nil => exact getExtension_none base _ h
      | cons x r =>
        rw [getExtension_at (x :: r) base c!"/" (by simp) h (.inr (.inl rfl))]
        rfl
    · have hc' : c ≠ c!"." := by
        rintro rfl
        exact h1 (by simp)
      have e' : dir ++ b!"/" ++ (a ++ c :: b) = (dir ++ b!"/" ++ a) ++ c :: b := by simp
      rw [e', getExtension_at _ b c (by simp) hb hc, if_neg hc']
  unfold guessType
  rw [key]

/-- The table gives the customary types. -/
theorem customary (ext : Str) : typeOfExtension ext = Mime.typeOf ext := by
  by_cases h : ext ∈ contentTypes.map (fun e => e.2.1) ++ Mime.types.flatMap (·.2)
  · have : ∀ x ∈ contentTypes.map (fun e => e.2.1) ++ Mime.types.flatMap (·.2), typeOfExtension x = Mime.typeOf x := by
      decide +kernel
    exact this ext h
  · rw [List.mem_append, not_or, List.mem_map, List.mem_flatMap] at h
    have h1 : contentTypes.find? (fun e => e.2.1 == ext) = none := by
      rw [List.find?_eq_none]
      intro e he hx
      exact h.1 ⟨e, he, by simpa using hx⟩
    have h2 : Mime.types.find? (fun t => t.2.contains ext) = none := by
      rw [List.find?_eq_none]
      intro t ht hx
      exact h.2 ⟨t, ht, by simpa using hx⟩
    unfold typeOfExtension Mime.typeOf
    rw [h1, h2]

/-- A file is sent with the customary media type of its extension. -/
theorem sent_as (dir stem ext : Str) (h1 : c!"." ∉ ext) (h2 : c!"/" ∉ ext) :
    guessType (dir ++ b!"/" ++ stem ++ b!"." ++ ext) = Mime.typeOf ext :=
  (with_extension dir stem ext h1 h2).trans (customary ext)

example : Mime.typeOf b!"bmp" = b!"image/x-ms-bmp" ∧ Mime.typeOf b!"deb" = b!"application/octet-stream" := by
  decide +kernel
example : guessType b!"/srv/www/site.min.css" = b!"text/css" := by decide +kernel
example : guessType b!"/srv/www.d/README" = b!"application/octet-stream" := by decide +kernel
example : guessType b!"/srv/www/a.xyz" = b!"application/octet-stream" := by decide +kernel
example : typeOfExtension b!"css" = b!"text/css" := by decide +kernel

end Blogc.C51
