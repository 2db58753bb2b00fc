import Verif.Lemmas.Utf8
import Verif.Model.File

/-!
# C12: file loading
-/

namespace Blogc.C12

open Blogc Blogc.Spec

theorem skipBom_drop (s : Str) : s.drop (utf8SkipBom s) = dropBom s := by
  unfold utf8SkipBom dropBom bom
  match s with
  | [] => rfl
  | [a] => simp
  | [a, b] => simp
  | a :: b :: c :: t =>
    rw [if_neg (by simp)]
    by_cases h : (a :: b :: c :: t).take 3 = [0xef, 0xbb, 0xbf]
    · rw [if_pos h]
      simp only [List.take_succ_cons, List.take_zero, List.cons.injEq, and_true] at h
      obtain ⟨rfl, rfl, rfl⟩ := h
      simp
    · rw [if_neg h]
      have : ¬ ([0xEF, 0xBB, 0xBF] : Str).isPrefixOf (a :: b :: c :: t) = true := by
        simp only [List.take_succ_cons, List.take_zero, List.cons.injEq, and_true] at h
        simp only [List.isPrefixOf, Bool.and_eq_true, beq_iff_eq, and_true]
        rintro ⟨rfl, rfl, rfl⟩
        exact h ⟨rfl, rfl, rfl⟩
      rw [if_neg this]
      rfl

theorem dropBom_append (s t : Str) (h : 3 ≤ s.length) : dropBom (s ++ t) = dropBom s ++ t := by
  match s, h with
  | a :: b :: c :: s, _ =>
    unfold dropBom bom
    simp only [List.cons_append, List.isPrefixOf, List.drop_succ_cons, List.drop_zero]
    split <;> simp

/-- Once something has been read, chunks are appended unchanged. -/
theorem loop_tail (utf8 : Bool) (content : Str) :
    ∀ (n i fuel : Nat) (acc : Str), content.length - fileChunkSize * i ≤ n → n + 1 < fuel →
      (acc ≠ [] ∨ utf8 = false) →
      fileReadLoop utf8 (regularFile content) fuel i false acc
        = some (acc ++ content.drop (fileChunkSize * i)) := by
  intro n
  induction n using Nat.strongRecOn with
  | _ n ih =>
  intro i fuel acc hn hf hacc
  obtain ⟨f, rfl⟩ : ∃ f, fuel = f + 1 := ⟨fuel - 1, by omega⟩
  obtain ⟨f, rfl⟩ : ∃ g, f = g + 1 := ⟨f - 1, by omega⟩
  have happ : ∀ chunk : Str, fileAppendChunk utf8 acc chunk = acc ++ chunk := by
    intro chunk
    unfold fileAppendChunk
    rcases hacc with h | h
    · have : (acc.length == 0) = false := by simpa using h
      simp [this]
    · simp [h]
  rw [fileReadLoop]
  simp only [Bool.false_eq_true, if_false, regularFile, happ]
  by_cases hlt : ((content.drop (fileChunkSize * i)).take fileChunkSize).length < fileChunkSize
  · have hall : (content.drop (fileChunkSize * i)).take fileChunkSize
        = content.drop (fileChunkSize * i) := by
      apply List.take_of_length_le
      simp only [List.length_take] at hlt
      omega
    rw [decide_eq_true hlt, fileReadLoop, hall]
    simp
  · rw [decide_eq_false hlt]
    have hge : fileChunkSize ≤ (content.drop (fileChunkSize * i)).length := by
      simp only [List.length_take] at hlt
      omega
    simp only [List.length_drop] at hge
    have := ih (n - 1) (by simp only [fileChunkSize] at *; omega) (i + 1) (f + 1)
      (acc ++ (content.drop (fileChunkSize * i)).take fileChunkSize)
      (by simp only [fileChunkSize] at *; omega)
      (by simp only [fileChunkSize] at *; omega)
      (Or.inl (by
        intro h
        have := congrArg List.length h
        simp only [List.length_append, List.length_take, List.length_drop, List.length_nil,
          fileChunkSize] at this hge
        omega))
    rw [this, List.append_assoc]
    congr 2
    rw [Nat.mul_add, Nat.mul_one, ← List.drop_drop, List.take_append_drop]

theorem loop_regular (utf8 : Bool) (content : Str) (fuel : Nat) (hf : content.length + 2 < fuel) :
    fileReadLoop utf8 (regularFile content) fuel 0 false []
      = some (if utf8 then dropBom content else content) := by
  cases utf8 with
  | false =>
    have := loop_tail false content content.length 0 fuel [] (by omega) (by omega) (Or.inr rfl)
    simpa using this
  | true =>
    obtain ⟨f, rfl⟩ : ∃ f, fuel = f + 1 := ⟨fuel - 1, by omega⟩
    obtain ⟨f, rfl⟩ : ∃ g, f = g + 1 := ⟨f - 1, by omega⟩
    rw [fileReadLoop]
    have hchunk : fileAppendChunk true [] (content.take fileChunkSize)
        = dropBom (content.take fileChunkSize) := by
      unfold fileAppendChunk
      by_cases h : content.take fileChunkSize = []
      · rw [h]; rfl
      · have : 0 < (content.take fileChunkSize).length := List.length_pos_iff.2 h
        simp only [List.length_nil, beq_self_eq_true, Bool.true_and, this, decide_true,
          List.nil_append, if_true]
        exact skipBom_drop _
    simp only [Bool.false_eq_true, if_false, regularFile, Nat.mul_zero, List.drop_zero, hchunk,
      if_true]
    by_cases hlt : (content.take fileChunkSize).length < fileChunkSize
    · have hall : content.take fileChunkSize = content := by
        apply List.take_of_length_le
        simp only [List.length_take] at hlt
        omega
      rw [decide_eq_true hlt, fileReadLoop, hall]
      simp
    · rw [decide_eq_false hlt]
      have hge : fileChunkSize ≤ content.length := by
        simp only [List.length_take] at hlt
        omega
      have hlen : (content.take fileChunkSize).length = fileChunkSize := by
        simp only [List.length_take]; omega
      have hne : dropBom (content.take fileChunkSize) ≠ [] := by
        intro h
        have := congrArg List.length h
        unfold dropBom at this
        have hc : fileChunkSize = 1024 := rfl
        split at this
        · rw [List.length_drop, hlen, hc] at this
          simp at this
        · rw [hlen, hc] at this
          simp at this
      have := loop_tail true content content.length 1 (f + 1) _ (by omega) (by omega) (Or.inl hne)
      rw [Nat.zero_add]
      rw [this, Nat.mul_one, ← dropBom_append _ _ (by rw [hlen]; decide), List.take_append_drop]

/-- Loading a regular file as text terminates and returns its bytes without one
leading byte-order mark, exactly when those bytes are well-formed UTF-8;
otherwise it is rejected. -/
theorem load_text (content : Str) (fuel : Nat) (hf : content.length + 2 < fuel) :
    (WellFormedUtf8 (dropBom content) →
      fileGetContents true (regularFile content) fuel = some (.ok (.contents (dropBom content)))) ∧
    (¬ WellFormedUtf8 (dropBom content) →
      fileGetContents true (regularFile content) fuel = some (.ok .notUtf8)) := by
  unfold fileGetContents
  rw [loop_regular true content fuel hf]
  simp only [if_true, Utf8.validate_eq]
  rw [← Utf8.run_iff]
  constructor
  · intro h; simp [h]
  · intro h; simp [h]

/-- Loading a regular file as raw bytes returns exactly its bytes. -/
theorem load_binary (content : Str) (fuel : Nat) (hf : content.length + 2 < fuel) :
    fileGetContents false (regularFile content) fuel = some (.ok (.contents content)) := by
  unfold fileGetContents
  rw [loop_regular false content fuel hf]
  simp

/-- Only one byte-order mark is removed, also when the file is longer than one
buffer. -/
example : dropBom (bom ++ bom ++ b!"x") = bom ++ b!"x" := by decide
example : fileGetContents true (regularFile (bom ++ bom ++ b!"x")) 20
    = some (.ok (.contents (bom ++ b!"x"))) := by decide +kernel

/-- The full property also claims termination for anything that can be opened.
It is false: when reads fail (a directory, an I/O error) the end-of-file
indicator is never set and the loop never ends, for every number of
iterations. -/
theorem load_terminates_violated : ∀ fuel, fileGetContents true failingFile fuel = none := by
  have key : ∀ fuel i, fileReadLoop true failingFile fuel i false [] = none := by
    intro fuel
    induction fuel with
    | zero => intro i; rfl
    | succ fuel ih =>
      intro i
      rw [fileReadLoop]
      exact ih (i + 1)
  intro fuel
  unfold fileGetContents
  rw [key]

/-- Standard input is returned byte for byte. -/
theorem stdin_read (input : Str) : stdinRead [] input = input := by
  have key : ∀ acc, stdinRead acc input = acc ++ input := by
    induction input with
    | nil => intro acc; simp [stdinRead]
    | cons c rest ih => intro acc; rw [stdinRead, ih]; simp
  exact key []

end Blogc.C12
