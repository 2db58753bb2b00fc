import Verif.Spec.Path

/-!
# Lemmas about paths
-/

namespace Blogc.Path

open Blogc

theorem comps_ne_nil (s : Str) : comps s ≠ [] := by
  cases s with
  | nil => simp [comps]
  | cons c r =>
    rw [comps]
    split
    · simp
    · split <;> simp

theorem comps_append_slash (a b : Str) : comps (a ++ c!"/" :: b) = comps a ++ comps b := by
  induction a with
  | nil => simp [comps]
  | cons c a ih =>
    rw [List.cons_append, comps, ih, comps]
    split
    · simp
    · cases h : comps a with
      | nil => exact absurd h (comps_ne_nil a)
      | cons x t => simp

theorem walk_append (dir xs ys : List Str) : walk dir (xs ++ ys) = walk (walk dir xs) ys := by
  induction xs generalizing dir with
  | nil => rfl
  | cons x r ih =>
    rw [List.cons_append, walk, walk]
    split
    · exact ih _
    · split <;> exact ih _

theorem walk_staysBelow (dir : List Str) : ∀ (xs pre : List Str),
    StaysBelow pre.length xs → ∃ q, walk (pre ++ dir) xs = q ++ dir := by
  intro xs
  induction xs with
  | nil => intro pre _; exact ⟨pre, rfl⟩
  | cons x r ih =>
    intro pre h
    rw [StaysBelow] at h
    rw [walk]
    split
    · rename_i hx; rw [if_pos hx] at h; exact ih pre h
    · rename_i hx
      rw [if_neg hx] at h
      split
      · rename_i hd
        rw [if_pos hd] at h
        cases pre with
        | nil => simp at h
        | cons p pre => exact ih pre (by simpa using h.2)
      · rename_i hd
        rw [if_neg hd] at h
        exact ih (x :: pre) h

theorem inside_of_staysBelow (dir p : Str) (h : StaysBelow 0 (comps p)) :
    Inside dir (dir ++ c!"/" :: p) := by
  unfold Inside norm
  rw [comps_append_slash, walk_append]
  obtain ⟨q, hq⟩ := walk_staysBelow (walk [] (comps dir)) (comps p) [] h
  rw [List.nil_append] at hq
  rw [hq, List.reverse_append]
  exact ⟨_, rfl⟩

theorem staysBelow_of_no_dotdot (xs : List Str) (d : Nat) (h : b!".." ∉ xs) : StaysBelow d xs := by
  induction xs generalizing d with
  | nil => trivial
  | cons x r ih =>
    have hx : x ≠ b!".." := fun e => h (by simp [e])
    have hr : b!".." ∉ r := fun e => h (by simp [e])
    rw [StaysBelow]
    split
    · exact ih _ hr
    · exact ih _ hr

end Blogc.Path
