import Verif.Model.MakeNative

/-!
# C59: file copy is exact
-/

namespace Blogc.C59

open Blogc Blogc.Make

/-- The property: whenever the copy reports success, the destination has the
bytes that the source had. -/
def Exact (same : Bool) (src : Str) (reads writes : List (Option Nat)) : Prop :=
  ∀ dst, copyFile same src reads writes = some (dst, true) → dst = src

theorem chunk_spec (buf : Str) (ws : List (Option Nat)) (w : Str) (ws' : List (Option Nat)) (ok : Bool)
    (h : copyChunk buf ws = some (w, ws', ok)) : w <+: buf ∧ (ok = true → w = buf) := by
  induction ws generalizing buf w with
  | nil => cases h
  | cons a ws ih =>
    cases a with
    | none =>
      simp only [copyChunk, Option.some.injEq, Prod.mk.injEq] at h
      obtain ⟨rfl, _, rfl⟩ := h
      simp
    | some n =>
      simp only [copyChunk] at h
      split at h
      · simp only [Option.some.injEq, Prod.mk.injEq] at h
        obtain ⟨rfl, _, rfl⟩ := h
        exact ⟨List.prefix_refl _, fun _ => rfl⟩
      · split at h
        · cases h
        · next w0 ws0 ok0 h0 =>
          simp only [Option.some.injEq, Prod.mk.injEq] at h
          obtain ⟨rfl, rfl, rfl⟩ := h
          obtain ⟨h1, h2⟩ := ih _ _ h0
          constructor
          · conv => rhs; rw [← List.take_append_drop n buf]
            exact (List.prefix_append_right_inj _).2 h1
          · intro hk
            rw [h2 hk, List.take_append_drop]

theorem loop_spec (src : Str) (rs ws : List (Option Nat)) (w : Str) (ok : Bool)
    (h : copyLoop src rs ws = some (w, ok)) : w <+: src ∧ (none ∉ rs → ok = true → w = src) := by
  induction rs generalizing src ws w with
  | nil => cases h
  | cons a rs ih =>
    cases a with
    | none =>
      simp only [copyLoop, Option.some.injEq, Prod.mk.injEq] at h
      obtain ⟨rfl, rfl⟩ := h
      simp
    | some n =>
      simp only [copyLoop] at h
      split at h
      · next h0 =>
        simp only [Option.some.injEq, Prod.mk.injEq] at h
        obtain ⟨rfl, rfl⟩ := h
        refine ⟨List.nil_prefix, fun _ _ => ?_⟩
        have : src.length = 0 := by
          simp only [readCount, fileChunkSize] at h0
          omega
        rw [List.length_eq_zero_iff.1 this]
      · split at h
        · cases h
        · next w0 ws0 h0 =>
          simp only [Option.some.injEq, Prod.mk.injEq] at h
          obtain ⟨rfl, rfl⟩ := h
          refine ⟨((chunk_spec _ _ _ _ _ h0).1).trans (List.take_prefix _ _), fun _ h => by cases h⟩
        · next w0 ws0 h0 =>
          have e := (chunk_spec _ _ _ _ _ h0).2 rfl
          subst e
          split at h
          · cases h
          · next w1 ok1 h1 =>
            simp only [Option.some.injEq, Prod.mk.injEq] at h
            obtain ⟨rfl, rfl⟩ := h
            obtain ⟨h2, h3⟩ := ih _ _ _ h1
            constructor
            · conv => rhs; rw [← List.take_append_drop (readCount n src.length) src]
              exact (List.prefix_append_right_inj _).2 h2
            · intro hr hk
              rw [h3 (fun hm => hr (by simp [hm])) hk, List.take_append_drop]

/-- Proved part: for every content and every pattern of short reads, short writes
and failed writes, a copy to another file that reports success is exact, provided
that no read fails. Missing: failed reads (`read_error_violated`) and copies of a
file to itself (`same_file_violated`), for which the property is false. -/
theorem exact_partial (src : Str) (reads writes : List (Option Nat)) (h : none ∉ reads) :
    Exact false src reads writes := by
  intro dst hd
  exact (loop_spec src reads writes dst true hd).2 h rfl

/-- Whatever happens, the destination has a prefix of the source: bytes are never
repeated, reordered or invented. -/
theorem only_prefix (src : Str) (reads writes : List (Option Nat)) (dst : Str) (ok : Bool)
    (h : copyFile false src reads writes = some (dst, ok)) : dst <+: src :=
  (loop_spec src reads writes dst ok h).1

/-- When no call fails and every write makes progress, the copy ends, with
success: no more calls are needed than the source has bytes, and one more
`read`. -/
theorem copy_ends (src : Str) (reads writes : List (Option Nat)) (hr : none ∉ reads)
    (hw : ∀ w ∈ writes, ∃ n, w = some (n + 1)) (hrl : src.length < reads.length)
    (hwl : src.length ≤ writes.length) : copyFile false src reads writes = some (src, true) := by
  have chunk : ∀ (ws : List (Option Nat)) (buf : Str), (∀ w ∈ ws, ∃ n, w = some (n + 1)) → 0 < buf.length →
      buf.length ≤ ws.length → ∃ k, k ≤ buf.length ∧ copyChunk buf ws = some (buf, ws.drop k, true) := by
    intro ws
    induction ws with
    | nil => intro buf _ h h'; simp only [List.length_nil] at h'; omega
    | cons w ws ih =>
      intro buf hw h h'
      obtain ⟨n, rfl⟩ := hw w (by simp)
      simp only [copyChunk]
      split
      · next he => exact ⟨1, by omega, by simp⟩
      · next he =>
        have hl : (buf.drop (n + 1)).length = buf.length - (n + 1) := by simp
        have hpos : 0 < (buf.drop (n + 1)).length := List.length_pos_iff.2 he
        simp only [List.length_cons] at h'
        obtain ⟨k, hk, e⟩ := ih (buf.drop (n + 1)) (fun w hm => hw w (by simp [hm])) hpos (by omega)
        rw [e]
        refine ⟨k + 1, by omega, ?_⟩
        simp
  have loop : ∀ (rs : List (Option Nat)) (src : Str) (ws : List (Option Nat)), none ∉ rs →
      (∀ w ∈ ws, ∃ n, w = some (n + 1)) → src.length < rs.length → src.length ≤ ws.length →
      copyLoop src rs ws = some (src, true) := by
    intro rs
    induction rs with
    | nil => intro src ws _ _ h; simp at h
    | cons r rs ih =>
      intro src ws hr hw h h'
      cases r with
      | none => simp at hr
      | some n =>
        simp only [copyLoop]
        split
        · next h0 =>
          have : src.length = 0 := by
            simp only [readCount, fileChunkSize] at h0
            omega
          rw [List.length_eq_zero_iff.1 this]
        · next h0 =>
          have hle : readCount n src.length ≤ src.length := Nat.min_le_left _ _
          have htl : (src.take (readCount n src.length)).length = readCount n src.length := by
            rw [List.length_take]; omega
          obtain ⟨k, hk, e⟩ := chunk ws (src.take (readCount n src.length)) hw (by omega) (by omega)
          rw [e]
          simp only [List.length_cons] at h
          have := ih (src.drop (readCount n src.length)) (ws.drop k) (fun hm => hr (by simp [hm]))
            (fun w hm => hw w (List.mem_of_mem_drop hm)) (by rw [List.length_drop]; omega)
            (by rw [List.length_drop, List.length_drop]; omega)
          simp only [this, List.take_append_drop]
  exact loop reads src writes hr hw hrl hwl

/-- The property fails when a read fails: the copy stops there and reports
success. -/
theorem read_error_violated : ∃ src reads writes, ¬ Exact false src reads writes :=
  ⟨b!"abc", [some 2, none], [some 2], fun h => by
    have := h b!"ab" (by decide)
    exact absurd this (by decide)⟩

/-- It fails also when a file is copied to itself (the output directory is the
root directory): every file is emptied and the copy reports success. -/
theorem same_file_violated (src : Str) (h : src ≠ []) (n : Nat) : ¬ Exact true src [some n] [] := by
  intro he
  have := he [] (by simp [copyFile, copyLoop, readCount])
  exact h this.symm

/-- The directories created are the non-empty texts before each separator. -/
theorem parents (path d : Str) : d ∈ parentDirs [] path ↔
    d ≠ [] ∧ ∃ c rest, (c = c!"/" ∨ c = c!"\\") ∧ path = d ++ c :: rest := by
  have key : ∀ (path pre : Str), d ∈ parentDirs pre path ↔
      d ≠ [] ∧ ∃ m c rest, (c = c!"/" ∨ c = c!"\\") ∧ d = pre ++ m ∧ path = m ++ c :: rest := by
    intro path
    induction path with
    | nil => intro pre; simp [parentDirs]
    | cons a path ih =>
      intro pre
      rw [parentDirs, List.mem_append, ih]
      constructor
      · rintro (h | ⟨h1, m, c, rest, h2, h3, h4⟩)
        · split at h
          · next h0 =>
            rw [List.mem_singleton] at h
            subst h
            exact ⟨h0.2, [], a, path, h0.1, by simp, rfl⟩
          · cases h
        · exact ⟨h1, a :: m, c, rest, h2, by simp [h3], by simp [h4]⟩
      · rintro ⟨h1, m, c, rest, h2, h3, h4⟩
        cases m with
        | nil =>
          simp only [List.nil_append, List.cons.injEq] at h4
          obtain ⟨rfl, rfl⟩ := h4
          simp only [List.append_nil] at h3
          subst h3
          rw [if_pos ⟨h2, h1⟩]
          exact Or.inl (by simp)
        | cons b m =>
          simp only [List.cons_append, List.cons.injEq] at h4
          obtain ⟨rfl, rfl⟩ := h4
          exact Or.inr ⟨h1, m, c, rest, h2, by simp [h3], rfl⟩
  rw [key]
  constructor
  · rintro ⟨h1, m, c, rest, h2, h3, h4⟩
    simp only [List.nil_append] at h3
    subst h3
    exact ⟨h1, c, rest, h2, h4⟩
  · rintro ⟨h1, c, rest, h2, h3⟩
    exact ⟨h1, d, c, rest, h2, rfl, h3⟩

example : copyFile false b!"abcde" [some 2, some 9, some 9] [some 1, some 0, some 5, some 3] =
    some (b!"abcde", true) := by decide
example : copyFile false b!"abcde" [some 2, some 9] [some 1, none] = some (b!"a", false) := by decide
example : parentDirs [] b!"/a/b//c" = [b!"/a", b!"/a/b", b!"/a/b/"] := by decide

end Blogc.C59
