import Verif.Model.Httpd

/-!
# C49: request line reading does not depend on packet boundaries
-/

namespace Blogc.C49

open Blogc Blogc.Httpd

/-- Neither CR, LF nor NUL. -/
def inLine (c : Byte) : Bool := !(c == c!"\r" || c == c!"\n" || c == 0)

/-- The data up to the first CR, LF or NUL. -/
def firstLine (s : Str) : Str := s.takeWhile inLine

/-- The data contains the end of the line. -/
def HasEnd (s : Str) : Prop := c!"\r" ∈ s ∨ c!"\n" ∈ s ∨ (0 : Byte) ∈ s

theorem isEnd_iff (c : Byte) : inLine c = true ↔
    ¬ (c = c!"\r" ∨ c = c!"\n" ∨ c = 0) := by
  simp [inLine, not_or]
  constructor
  · rintro ⟨⟨h1, h2⟩, h3⟩; exact ⟨h1, h2, h3⟩
  · rintro ⟨h1, h2, h3⟩; exact ⟨⟨h1, h2⟩, h3⟩

theorem hasEnd_cons (c : Byte) (s : Str) :
    HasEnd (c :: s) ↔ (c = c!"\r" ∨ c = c!"\n" ∨ c = 0) ∨ HasEnd s := by
  simp only [HasEnd, List.mem_cons]
  constructor
  · rintro ((h | h) | (h | h) | (h | h))
    · exact .inl (.inl h.symm)
    · exact .inr (.inl h)
    · exact .inl (.inr (.inl h.symm))
    · exact .inr (.inr (.inl h))
    · exact .inl (.inr (.inr h.symm))
    · exact .inr (.inr (.inr h))
  · rintro ((h | h | h) | h | h | h)
    · exact .inl (.inl h.symm)
    · exact .inr (.inl (.inl h.symm))
    · exact .inr (.inr (.inl h.symm))
    · exact .inl (.inr h)
    · exact .inr (.inl (.inr h))
    · exact .inr (.inr (.inr h))

theorem record_eq (s : Str) : (record s).1 = firstLine s ∧ ((record s).2 = true ↔ HasEnd s) := by
  induction s with
  | nil => simp [record, firstLine, HasEnd]
  | cons c r ih =>
    unfold firstLine at ih ⊢
    rw [record, hasEnd_cons]
    by_cases h : c = c!"\r" ∨ c = c!"\n" ∨ c = 0
    · rw [if_pos h, List.takeWhile_cons_of_neg (fun h' => (isEnd_iff c).1 h' h)]
      simp [h]
    · rw [if_neg h, List.takeWhile_cons_of_pos (by rw [isEnd_iff]; exact h)]
      refine ⟨by rw [ih.1], ?_⟩
      rw [ih.2]
      simp [h]

theorem firstLine_append_of_end (a b : Str) (h : HasEnd a) : firstLine (a ++ b) = firstLine a := by
  induction a with
  | nil => simp [HasEnd] at h
  | cons c r ih =>
    unfold firstLine at ih ⊢
    rw [List.cons_append]
    by_cases hc : c = c!"\r" ∨ c = c!"\n" ∨ c = 0
    · have hn : ¬ inLine c = true := fun h' => (isEnd_iff c).1 h' hc
      rw [List.takeWhile_cons_of_neg hn, List.takeWhile_cons_of_neg hn]
    · have hp := (isEnd_iff c).2 hc
      rw [List.takeWhile_cons_of_pos hp, List.takeWhile_cons_of_pos hp, ih]
      rcases (hasEnd_cons c r).1 h with h | h
      · exact absurd h hc
      · exact h

theorem firstLine_append_of_no_end (a b : Str) (h : ¬ HasEnd a) :
    firstLine (a ++ b) = firstLine a ++ firstLine b := by
  induction a with
  | nil => rfl
  | cons c r ih =>
    rw [hasEnd_cons, not_or] at h
    unfold firstLine at ih ⊢
    have hp := (isEnd_iff c).2 h.1
    rw [List.cons_append, List.takeWhile_cons_of_pos hp, List.takeWhile_cons_of_pos hp, ih h.2]
    rfl

/-- The data of the reads up to and including the first one that does not fill
the buffer. -/
def used : List Str → Str
  | [] => []
  | chunk :: reads => if chunk.length < bufferSize then chunk else chunk ++ used reads

theorem loop_fin (reads : List Str) (rv : Str) : readlineLoop reads true rv = rv := by
  induction reads with
  | nil => rfl
  | cons chunk reads ih => rw [readlineLoop]; simp only [if_true]; split <;> simp [ih]

/-- The line read is the first line of the data of the reads up to the first
short one. -/
theorem readline_used (reads : List Str) : readline reads = firstLine (used reads) := by
  have key : ∀ (reads : List Str) (rv : Str),
      readlineLoop reads false rv = rv ++ firstLine (used reads) := by
    intro reads
    induction reads with
    | nil => intro rv; simp [readlineLoop, used, firstLine]
    | cons chunk reads ih =>
      intro rv
      have hr := record_eq chunk
      rw [readlineLoop]
      simp only [Bool.false_eq_true, if_false]
      rw [used]
      split
      · rw [hr.1]
      · by_cases he : HasEnd chunk
        · rw [hr.2.2 he, loop_fin, hr.1, firstLine_append_of_end _ _ he]
        · have : (record chunk).2 = false := by
            cases h : (record chunk).2 with
            | false => rfl
            | true => exact absurd (hr.2.1 h) he
          rw [this, ih, hr.1, firstLine_append_of_no_end _ _ he]
          simp
  have := key reads []
  simpa [readline] using this

/-- However the request is split, if every read before the one with the end of
the request line fills the buffer, the line read is the data up to the first CR,
LF or NUL. Missing: a short read before the end of the line ends the reading
(`any_split_violated`). -/
theorem any_split_partial (reads before after : List Str) (chunk : Str)
    (hsplit : reads = before ++ chunk :: after) (hfull : ∀ c ∈ before, ¬ c.length < bufferSize)
    (hend : HasEnd chunk) : readline reads = firstLine reads.flatten := by
  rw [readline_used]
  subst hsplit
  have hused : ∃ rest, used (before ++ chunk :: after) = before.flatten ++ chunk ++ rest := by
    clear hend
    induction before with
    | nil =>
      rw [List.nil_append, used]
      split
      · exact ⟨[], by simp⟩
      · exact ⟨used after, by simp⟩
    | cons c before ih =>
      obtain ⟨rest, e⟩ := ih (fun x hx => hfull x (by simp [hx]))
      refine ⟨rest, ?_⟩
      rw [List.cons_append, used, if_neg (hfull c (by simp)), e]
      simp
  obtain ⟨rest, e⟩ := hused
  have hend' : HasEnd (before.flatten ++ chunk) := by
    rcases hend with h | h | h
    · exact .inl (by simp [h])
    · exact .inr (.inl (by simp [h]))
    · exact .inr (.inr (by simp [h]))
  rw [e, firstLine_append_of_end _ _ hend']
  have : (before ++ chunk :: after).flatten = (before.flatten ++ chunk) ++ after.flatten := by simp
  rw [this, firstLine_append_of_end _ _ hend']

/-- In particular, a request that arrives in one packet. -/
theorem single_packet (packet : Str) (after : List Str) (hend : HasEnd packet) :
    readline (packet :: after) = firstLine (packet :: after).flatten :=
  any_split_partial (packet :: after) [] after packet rfl (by simp) hend

/-- A request whose line is split over two packets is truncated. -/
theorem any_split_violated : ∃ reads : List Str, (∀ c ∈ reads, 0 < c.length ∧ c.length ≤ bufferSize) ∧
    readline reads ≠ firstLine reads.flatten :=
  ⟨[b!"GET /index", b!".html HTTP/1.0\r\n\r\n"], by decide, by decide⟩

example : HasEnd b!"GET / HTTP/1.0\r\nHost: x\r\n" ∧
    readline [b!"GET / HTTP/1.0\r\nHost: x\r\n"] = b!"GET / HTTP/1.0" :=
  ⟨.inl (by simp), by decide⟩

end Blogc.C49
