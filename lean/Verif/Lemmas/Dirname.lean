import Verif.Spec.Programs

/-!
# The directory of a path
-/

namespace Blogc.Programs

open Blogc Blogc.Make

theorem getLast_reverse (s : Str) : s.getLast? = s.reverse.head? := by simp

theorem strip_spec (s : Str) : ∃ m, s = stripSlashes s ++ List.replicate m c!"/" ∧
    (stripSlashes s).getLast? ≠ some c!"/" := by
  have key : ∀ r : Str, ∃ m, r = List.replicate m c!"/" ++ r.dropWhile (· == c!"/") ∧
      (r.dropWhile (· == c!"/")).head? ≠ some c!"/" := by
    intro r
    induction r with
    | nil => exact ⟨0, by simp⟩
    | cons a r ih =>
      obtain ⟨m, h1, h2⟩ := ih
      by_cases h : a = c!"/"
      · subst h
        refine ⟨m + 1, ?_, ?_⟩
        · rw [List.dropWhile_cons_of_pos (by simp), List.replicate_succ, List.cons_append, ← h1]
        · rw [List.dropWhile_cons_of_pos (by simp)]; exact h2
      · refine ⟨0, ?_, ?_⟩
        · rw [List.dropWhile_cons_of_neg (by simpa using h)]; rfl
        · rw [List.dropWhile_cons_of_neg (by simpa using h)]; simpa using h
  obtain ⟨m, h1, h2⟩ := key s.reverse
  refine ⟨m, ?_, ?_⟩
  · have := congrArg List.reverse h1
    rw [List.reverse_append, List.reverse_reverse, List.reverse_replicate] at this
    exact this
  · rw [getLast_reverse]
    unfold stripSlashes
    rw [List.reverse_reverse]
    exact h2

theorem strip_append (t : Str) (m : Nat) (h : t.getLast? ≠ some c!"/") :
    stripSlashes (t ++ List.replicate m c!"/") = t := by
  have hh : t.reverse.head? ≠ some c!"/" := by rwa [← getLast_reverse]
  unfold stripSlashes
  rw [List.reverse_append, List.reverse_replicate]
  have : (List.replicate m c!"/" ++ t.reverse).dropWhile (· == c!"/") = t.reverse := by
    induction m with
    | zero =>
      cases hr : t.reverse with
      | nil => rfl
      | cons a r =>
        rw [hr] at hh
        exact List.dropWhile_cons_of_neg (by simpa using hh)
    | succ m ih => rw [List.replicate_succ, List.cons_append, List.dropWhile_cons_of_pos (by simp), ih]
  rw [this, List.reverse_reverse]

theorem drop_spec (s : Str) : ∃ name, s = dropName s ++ name ∧ c!"/" ∉ name ∧
    (dropName s = [] ∨ (dropName s).getLast? = some c!"/") := by
  have key : ∀ r : Str, ∃ n : Str, r = n ++ r.dropWhile (· != c!"/") ∧ c!"/" ∉ n ∧
      (r.dropWhile (· != c!"/") = [] ∨ (r.dropWhile (· != c!"/")).head? = some c!"/") := by
    intro r
    induction r with
    | nil => exact ⟨[], by simp⟩
    | cons a r ih =>
      obtain ⟨n, h1, h2, h3⟩ := ih
      by_cases h : a = c!"/"
      · subst h
        refine ⟨[], ?_, by simp, ?_⟩
        · rw [List.dropWhile_cons_of_neg (by simp)]; rfl
        · rw [List.dropWhile_cons_of_neg (by simp)]; exact Or.inr rfl
      · have hp : (a != c!"/") = true := by simpa using h
        refine ⟨a :: n, ?_, ?_, ?_⟩
        · rw [List.dropWhile_cons_of_pos (p := (· != c!"/")) hp, List.cons_append, ← h1]
        · intro hm
          rcases List.mem_cons.mp hm with e | e
          · exact h e.symm
          · exact h2 e
        · rw [List.dropWhile_cons_of_pos (p := (· != c!"/")) hp]; exact h3
  obtain ⟨n, h1, h2, h3⟩ := key s.reverse
  refine ⟨n.reverse, ?_, by simpa using h2, ?_⟩
  · have := congrArg List.reverse h1
    rw [List.reverse_append, List.reverse_reverse] at this
    exact this
  · unfold dropName
    rw [getLast_reverse, List.reverse_reverse]
    rcases h3 with e | e
    · left; rw [e]; rfl
    · right; exact e

theorem drop_append (u name : Str) (hn : c!"/" ∉ name) (hu : u = [] ∨ u.getLast? = some c!"/") :
    dropName (u ++ name) = u := by
  unfold dropName
  rw [List.reverse_append]
  have key : ∀ n : Str, c!"/" ∉ n → (n ++ u.reverse).dropWhile (· != c!"/") = u.reverse := by
    intro n hn
    induction n with
    | nil =>
      rcases hu with e | e
      · subst e; rfl
      · rw [getLast_reverse] at e
        cases hr : u.reverse with
        | nil => rfl
        | cons a r =>
          rw [hr] at e
          have : a = c!"/" := by simpa using e
          subst this
          exact List.dropWhile_cons_of_neg (by simp)
    | cons a n ih =>
      have ha : a ≠ c!"/" := fun e => hn (by simp [e])
      rw [List.cons_append, List.dropWhile_cons_of_pos (p := (· != c!"/")) (by simpa using ha),
        ih (fun h => hn (List.mem_cons_of_mem _ h))]
  rw [key _ (by simpa using hn), List.reverse_reverse]

theorem last_of_name (u name : Str) (hne : name ≠ []) (hn : c!"/" ∉ name) : (u ++ name).getLast? ≠ some c!"/" := by
  intro h
  rw [List.getLast?_append] at h
  cases hl : name.getLast? with
  | none => exact hne (List.getLast?_eq_none_iff.mp hl)
  | some c =>
    rw [hl] at h
    have : c = c!"/" := by simpa using h
    subst this
    exact hn (List.mem_of_getLast? hl)

theorem last_replicate (d : Str) (k : Nat) : (d ++ List.replicate (k + 1) c!"/").getLast? = some c!"/" := by
  rw [List.replicate_succ', ← List.append_assoc]
  simp

/-- `dirname` finds the directory. -/
theorem dirname_of (s d : Str) (h : InDir s d) : dirname s = d := by
  cases h with
  | inside d name k m hd hl hne hn =>
    have e1 := strip_append (d ++ List.replicate (k + 1) c!"/" ++ name) m (last_of_name _ _ hne hn)
    have e2 := drop_append (d ++ List.replicate (k + 1) c!"/") name hn (Or.inr (last_replicate _ _))
    have e3 := strip_append d (k + 1) hl
    unfold dirname
    simp only [e1, e2, e3]
    rw [if_neg (by simp [hd]), if_neg (by simp [hd]), if_neg (by simp [hd]), if_neg hd]
  | top name k m hne hn =>
    have e1 := strip_append (List.replicate (k + 1) c!"/" ++ name) m (last_of_name _ _ hne hn)
    have e2 := drop_append (List.replicate (k + 1) c!"/") name hn (Or.inr (last_replicate [] _))
    have e3 := strip_append [] (k + 1) (by simp)
    simp only [List.nil_append] at e3
    unfold dirname
    simp only [e1, e2, e3]
    rw [if_neg (by simp [hne]), if_neg (by simp [hne]), if_neg (by simp), if_pos trivial]
  | root k =>
    have e3 := strip_append [] (k + 1) (by simp)
    simp only [List.nil_append] at e3
    unfold dirname
    rw [if_neg (by simp), if_pos e3]
  | here name m hne hn =>
    have e1 := strip_append name m (by simpa using last_of_name [] _ hne hn)
    have e2 := drop_append [] name hn (Or.inl rfl)
    simp only [List.nil_append] at e2
    unfold dirname
    simp only [e1, e2]
    rw [if_neg (by simp [hne]), if_neg hne, if_pos trivial]

/-- Every path is in some directory. -/
theorem inDir_exists (s : Str) (hs : s ≠ []) : ∃ d, InDir s d := by
  obtain ⟨m, h1, h2⟩ := strip_spec s
  obtain ⟨name, h3, h4, h5⟩ := drop_spec (stripSlashes s)
  by_cases ht : stripSlashes s = []
  · rw [ht, List.nil_append] at h1
    cases m with
    | zero => exact absurd h1 hs
    | succ k => exact ⟨_, h1 ▸ InDir.root k⟩
  · have hne : name ≠ [] := by
      rintro rfl
      rw [List.append_nil] at h3
      rcases h5 with e | e
      · rw [e] at h3; exact ht h3
      · rw [← h3] at e; exact h2 e
    obtain ⟨k, h6, h7⟩ := strip_spec (dropName (stripSlashes s))
    rw [h1, h3]
    cases k with
    | zero =>
      have h6' : dropName (stripSlashes s) = stripSlashes (dropName (stripSlashes s)) := by simpa using h6
      rcases h5 with e | e
      · rw [e]; exact ⟨_, InDir.here name m hne h4⟩
      · rw [h6'] at e; exact absurd e h7
    | succ k =>
      rw [h6]
      by_cases hd : stripSlashes (dropName (stripSlashes s)) = []
      · rw [hd]; exact ⟨_, InDir.top name k m hne h4⟩
      · exact ⟨_, InDir.inside _ name k m hd h7 hne h4⟩

theorem inDir_iff (s d : Str) (hs : s ≠ []) : InDir s d ↔ dirname s = d := by
  refine ⟨dirname_of s d, fun h => ?_⟩
  obtain ⟨d', h'⟩ := inDir_exists s hs
  rw [← h, dirname_of s d' h']
  exact h'

theorem inDir_part (s d : Str) (h : InDir s d) (hn : NulFree s) : NulFree d := by
  cases h with
  | inside d name k m =>
    intro b hb
    exact hn b (by simp [hb])
  | top => decide
  | root => decide
  | here => decide

end Blogc.Programs
