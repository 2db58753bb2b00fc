import Verif.Spec.Html
import Verif.Model.Inline

/-!
# C37: escaping of HTML
-/

namespace Blogc.C37

open Blogc Blogc.Content Blogc.Spec

theorem entity_table : ∀ n : Fin 256, (∃ e ∈ references, e.2 = UInt8.ofFin n ∧
      entity (UInt8.ofFin n) = c!"&" :: e.1) ∨
    (entity (UInt8.ofFin n) = [UInt8.ofFin n] ∧ ∀ e ∈ references, e.2 ≠ UInt8.ofFin n) := by
  decide +kernel

/-- A character is replaced by its reference when it has one, and kept otherwise. -/
theorem entity_spec (c : Byte) : (∃ e ∈ references, e.2 = c ∧ entity c = c!"&" :: e.1) ∨
    (entity c = [c] ∧ ∀ e ∈ references, e.2 ≠ c) := entity_table c.toFin

theorem htmlentities_cons (c : Byte) (s : Str) :
    htmlentities (c :: s) = entity c ++ htmlentities s := rfl

theorem references_chars : ∀ e ∈ references, ∀ c ∈ e.1,
    c ≠ c!"<" ∧ c ≠ c!">" ∧ c ≠ c!"\"" ∧ c ≠ c!"'" ∧ c ≠ c!"&" := by decide

theorem has_reference (c : Byte) (h : c = c!"<" ∨ c = c!">" ∨ c = c!"\"" ∨ c = c!"'" ∨ c = c!"&") :
    ∃ e ∈ references, e.2 = c := by
  rcases h with rfl | rfl | rfl | rfl | rfl <;> decide

theorem no_amp_split {l a b rest : Str} (hl : ∀ c ∈ l, c ≠ c!"&")
    (h : l ++ rest = a ++ c!"&" :: b) : ∃ a', rest = a' ++ c!"&" :: b := by
  induction l generalizing a with
  | nil => exact ⟨a, h⟩
  | cons x l ih =>
    cases a with
    | nil =>
      simp only [List.cons_append, List.nil_append, List.cons.injEq] at h
      exact absurd h.1 (hl x (by simp))
    | cons y a =>
      simp only [List.cons_append, List.cons.injEq] at h
      exact ih (fun c hc => hl c (by simp [hc])) h.2

/-- The escaped text is safe to put in HTML text and attribute values. -/
theorem escaped_safe (s : Str) : HtmlSafe (htmlentities s) := by
  induction s with
  | nil => exact ⟨by simp [htmlentities], by intro a b h; simp [htmlentities] at h⟩
  | cons c s ih =>
    rw [htmlentities_cons]
    rcases entity_spec c with ⟨e, he, hc, heq⟩ | ⟨heq, hno⟩
    · rw [heq]
      have hch := references_chars e he
      constructor
      · intro d hd
        simp only [List.cons_append, List.mem_cons, List.mem_append] at hd
        rcases hd with rfl | hd | hd
        · decide
        · have := hch d hd; exact ⟨this.1, this.2.1, this.2.2.1, this.2.2.2.1⟩
        · exact ih.1 d hd
      · intro a b h
        cases a with
        | nil =>
          simp only [List.cons_append, List.nil_append, List.cons.injEq, true_and] at h
          exact ⟨e, he, ⟨_, h⟩⟩
        | cons y a =>
          simp only [List.cons_append, List.cons.injEq] at h
          obtain ⟨a', h'⟩ := no_amp_split (fun d hd => (hch d hd).2.2.2.2) h.2
          exact ih.2 a' b h'
    · rw [heq]
      constructor
      · intro d hd
        simp only [List.cons_append, List.nil_append, List.mem_cons] at hd
        rcases hd with rfl | hd
        · refine ⟨?_, ?_, ?_, ?_⟩ <;> intro h <;> subst h <;> revert hno <;> decide
        · exact ih.1 d hd
      · intro a b h
        have : ∀ d ∈ [c], d ≠ c!"&" := by
          intro d hd h38; simp only [List.mem_singleton] at hd; subst hd; subst h38
          revert hno; decide
        obtain ⟨a', h'⟩ := no_amp_split this h
        exact ih.2 a' b h'

theorem decodeFrom_skip (l r : Str) : decodeFrom l.length (l ++ r) = decodeFrom 0 r := by
  induction l with
  | nil => rfl
  | cons c l ih => simpa [decodeFrom] using ih

theorem find_reference (e : Str × Byte) (he : e ∈ references) (r : Str) :
    references.find? (fun e' => e'.1.isPrefixOf (e.1 ++ r)) = some e := by
  simp only [references, List.mem_cons, List.not_mem_nil, or_false] at he
  rcases he with rfl | rfl | rfl | rfl | rfl | rfl <;> simp [references, List.find?, List.isPrefixOf]

/-- Decoding gives the original text back. -/
theorem decode_escaped (s : Str) : decode (htmlentities s) = s := by
  induction s with
  | nil => rfl
  | cons c s ih =>
    rw [htmlentities_cons]
    rcases entity_spec c with ⟨e, he, hc, heq⟩ | ⟨heq, hno⟩
    · rw [heq, decode, List.cons_append, decodeFrom, if_pos rfl, find_reference e he]
      simp only [hc]
      rw [decodeFrom_skip]
      exact congrArg (c :: ·) ih
    · have : c ≠ c!"&" := by intro h; subst h; revert hno; decide
      rw [heq, decode, List.cons_append, List.nil_append, decodeFrom, if_neg this]
      exact congrArg (c :: ·) ih

/-- Different texts have different escaped forms. -/
theorem escaped_injective (s t : Str) (h : htmlentities s = htmlentities t) : s = t := by
  rw [← decode_escaped s, h, decode_escaped]

/-- The escaped text is not longer than six times the text. -/
theorem escaped_length (s : Str) : s.length ≤ (htmlentities s).length ∧
    (htmlentities s).length ≤ 6 * s.length := by
  have ht : ∀ n : Fin 256, 1 ≤ (entity (UInt8.ofFin n)).length ∧
      (entity (UInt8.ofFin n)).length ≤ 6 := by decide +kernel
  induction s with
  | nil => simp [htmlentities]
  | cons c s ih =>
    rw [htmlentities_cons, List.length_append, List.length_cons]
    have := ht c.toFin
    have e : UInt8.ofFin c.toFin = c := rfl
    rw [e] at this
    omega

example : htmlentities b!"<a href='x'>&amp;</a>" =
    b!"&lt;a href=&#x27;x&#x27;&gt;&amp;amp;&lt;&#x2F;a&gt;" := by decide

/-- The safety predicate is not trivial. -/
example : ¬ HtmlSafe b!"a & b" := by
  intro h
  obtain ⟨r, hr, hp⟩ := h.2 b!"a " b!" b" rfl
  simp only [references, List.mem_cons, List.not_mem_nil, or_false] at hr
  rcases hr with rfl | rfl | rfl | rfl | rfl | rfl <;> revert hp <;> decide

end Blogc.C37
