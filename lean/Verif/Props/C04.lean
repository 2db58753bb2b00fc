import Verif.Spec.Strings
import Mathlib.Data.List.Induction
import Mathlib.Data.List.DropRight

/-!
# C04: stripping removes exactly the surrounding white space
-/

namespace Blogc.C04

open Blogc Blogc.Spec

theorem isSpace_iff (c : Byte) : isSpace c = true ↔ White c := by
  simp only [isSpace, White, Bool.or_eq_true, beq_iff_eq]
  grind

/-- `m` is the middle part of `s`: `s` is `m` between white space, and `m`
neither starts nor ends with white space. -/
structure Middle (s m : Str) : Prop where
  decomp : ∃ pre post, s = pre ++ m ++ post ∧ (∀ c ∈ pre, White c) ∧ (∀ c ∈ post, White c)
  head : ∀ c, m.head? = some c → ¬ White c
  last : ∀ c, m.getLast? = some c → ¬ White c

theorem lstrip_eq (s : Str) : lstrip s = s.dropWhile isSpace := by
  induction s with
  | nil => rfl
  | cons c rest ih =>
    simp only [lstrip, List.dropWhile_cons]
    cases hc : isSpace c with
    | false => simp
    | true =>
      cases rest with
      | nil => simp
      | cons d r => simpa using ih

theorem rstripLoop_eq (pre post : Str) (hw : ∀ c ∈ post, isSpace c = true) (hne : pre ++ post ≠ []) :
    rstripLoop (pre ++ post) pre.length
      = (if pre = [] then pre ++ post else (pre.reverse.dropWhile isSpace).reverse) := by
  rcases List.eq_nil_or_concat pre with h | ⟨ini, c, h⟩
  · subst h; simp [rstripLoop]
  · rw [List.concat_eq_append] at h
    subst h
    rw [if_neg (by simp)]
    induction ini using List.reverseRecOn generalizing c post with
    | nil =>
      simp only [List.nil_append, List.length_singleton, rstripLoop]
      cases hc : isSpace c <;> simp [hc]
    | append_singleton ini d ih =>
      have hlen : (ini ++ [d] ++ [c]).length = (ini ++ [d]).length + 1 := by simp
      rw [hlen]
      simp only [rstripLoop]
      have hget : (ini ++ [d] ++ [c] ++ post).getD (ini ++ [d]).length 0 = c := by
        simp [List.getD]
      rw [hget]
      cases hc : isSpace c with
      | false =>
        simp only [Bool.not_false, if_true]
        rw [show (ini ++ [d]).length + 1 = (ini ++ [d] ++ [c]).length by simp,
          List.take_left]
        simp [hc]
      | true =>
        simp only [Bool.not_true, Bool.false_eq_true, if_false]
        rw [if_neg (by simp)]
        have := ih ([c] ++ post) (by simpa [hc] using hw) d (by simp)
        rw [List.append_assoc (ini ++ [d]) [c] post, this]
        simp [hc]

theorem rstrip_eq (s : Str) : rstrip s = (s.reverse.dropWhile isSpace).reverse := by
  by_cases h : s = []
  · subst h; rfl
  · have := rstripLoop_eq s [] (by simp) (by simpa using h)
    simp only [List.append_nil] at this
    rw [rstrip, this, if_neg h]

theorem strip_eq (s : Str) :
    strip s = ((s.reverse.dropWhile isSpace).reverse).dropWhile isSpace := by
  rw [strip, lstrip_eq, rstrip_eq]

theorem head_dropWhile (s : Str) (c : Byte) (h : (s.dropWhile isSpace).head? = some c) :
    isSpace c = false := by
  induction s with
  | nil => simp at h
  | cons d s ih =>
    rw [List.dropWhile_cons] at h
    split at h
    · exact ih h
    · simp at h; subst h; simp_all

/-- `bc_str_strip` returns a middle part of its argument. -/
theorem strip_middle (s : Str) : Middle s (strip s) := by
  rw [strip_eq]
  have h1 : s.reverse.takeWhile isSpace ++ s.reverse.dropWhile isSpace = s.reverse :=
    List.takeWhile_append_dropWhile
  have h2 : s = (s.reverse.dropWhile isSpace).reverse ++ (s.reverse.takeWhile isSpace).reverse := by
    rw [← List.reverse_append, h1, List.reverse_reverse]
  generalize hm : (s.reverse.dropWhile isSpace).reverse = m at h2
  have h3 : m.takeWhile isSpace ++ m.dropWhile isSpace = m := List.takeWhile_append_dropWhile
  refine ⟨⟨m.takeWhile isSpace, (s.reverse.takeWhile isSpace).reverse, ?_, ?_, ?_⟩, ?_, ?_⟩
  · rw [h3]; exact h2
  · intro c hc
    exact (isSpace_iff c).1 (List.all_eq_true.1 (List.all_takeWhile) c hc)
  · intro c hc
    rw [List.mem_reverse] at hc
    exact (isSpace_iff c).1 (List.all_eq_true.1 (List.all_takeWhile) c hc)
  · intro c hc hw
    have := head_dropWhile m c hc
    rw [(isSpace_iff c).2 hw] at this
    exact absurd this (by simp)
  · intro c hc hw
    have hlast : m.getLast? = some c := by
      rw [← h3, List.getLast?_append, hc]; rfl
    rw [← hm, List.getLast?_reverse] at hlast
    have := head_dropWhile _ c hlast
    rw [(isSpace_iff c).2 hw] at this
    exact absurd this (by simp)

theorem dropWhile_white_append (pre m : Str) (hp : ∀ c ∈ pre, White c)
    (hm : ∀ c, m.head? = some c → ¬ White c) : (pre ++ m).dropWhile isSpace = m := by
  induction pre with
  | nil =>
    cases m with
    | nil => rfl
    | cons d m =>
      have : isSpace d = false := by
        have := hm d rfl
        rw [← isSpace_iff] at this
        simpa using this
      simp [this]
  | cons a pre ih =>
    have ha : isSpace a = true := (isSpace_iff a).2 (hp a (by simp))
    simp only [List.cons_append, List.dropWhile_cons, ha, if_true]
    exact ih (fun c hc => hp c (by simp [hc]))

/-- The middle part is unique when the string is not blank, so stripping is
fully determined; when the middle part is empty the string is all white
space. -/
theorem strip_unique (s m : Str) (h : Middle s m) : strip s = m := by
  obtain ⟨⟨pre, post, hs, hpre, hpost⟩, hh, hl⟩ := h
  rw [strip_eq]
  subst hs
  by_cases hm : m = []
  · subst hm
    have : (pre ++ [] ++ post).reverse.dropWhile isSpace = [] := by
      rw [List.dropWhile_eq_nil_iff]
      intro c hc
      rw [isSpace_iff]
      simp only [List.append_nil, List.mem_reverse, List.mem_append] at hc
      rcases hc with hc | hc
      · exact hpre c hc
      · exact hpost c hc
    rw [this]; rfl
  · have e : (pre ++ m ++ post).reverse = post.reverse ++ (pre ++ m).reverse := by simp
    rw [e, dropWhile_white_append post.reverse (pre ++ m).reverse]
    · rw [List.reverse_reverse]
      exact dropWhile_white_append pre m hpre hh
    · intro c hc; exact hpost c (by simpa using hc)
    · intro c hc
      rw [List.head?_reverse, List.getLast?_append] at hc
      cases hg : m.getLast? with
      | none => simp [List.getLast?_eq_none_iff.1 hg] at hm
      | some d =>
        rw [hg] at hc
        simp at hc
        subst hc
        exact hl d hg

/-- A blank string becomes empty. -/
theorem strip_blank (s : Str) (h : ∀ c ∈ s, White c) : strip s = [] :=
  strip_unique s [] ⟨⟨s, [], by simp, h, by simp⟩, by simp, by simp⟩

example : Middle b!"  a b\t\n" b!"a b" :=
  ⟨⟨b!"  ", b!"\t\n", rfl, by simp [White], by simp [White]⟩, by simp [White], by simp [White]⟩
example : strip b!"  a b\t\n" = b!"a b" := by decide

end Blogc.C04
