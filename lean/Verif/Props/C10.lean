import Verif.Lemmas.Sort

/-!
# C10: list sort is safe, stable and correct
-/

namespace Blogc.C10

open Blogc

variable {α : Type u}

theorem slistSort_eq (cmp : Nat → α → α → Int) (l : List α) (fuel : Nat) (hf : l.length ≤ fuel) :
    slistSort cmp fuel l = some (.ok (Sort.passes cmp fuel 0 l [])) := by
  unfold slistSort
  cases l with
  | nil => cases fuel <;> rfl
  | cons x l =>
    have := Sort.sortOuter_eq cmp fuel (x :: l) [] 0 (by simp) hf
    simpa [Sort.rptrOf] using this

/-- Whatever the comparison function answers (`cmp k` is its `k`-th answer, so
it may be stateful and inconsistent), sorting terminates, follows no null
pointer, and returns a permutation of the list. The fuel bounds the number of
loop iterations: any fuel of at least the length of the list is enough. -/
theorem sort_safe (cmp : Nat → α → α → Int) (l : List α) (fuel : Nat) (hf : l.length ≤ fuel) :
    ∃ r, slistSort cmp fuel l = some (.ok r) ∧ r.Perm l := by
  refine ⟨_, slistSort_eq cmp l fuel hf, ?_⟩
  simpa using Sort.passes_perm cmp fuel 0 l []

/-- If the comparison is a total preorder, the result is sorted, and it is
stable: two elements that need not be exchanged keep their relative order. -/
theorem sort_correct (c : α → α → Int)
    (htot : ∀ a b, c a b ≤ 0 ∨ c b a ≤ 0)
    (htr : ∀ a b d, c a b ≤ 0 → c b d ≤ 0 → c a d ≤ 0)
    (l : List α) (fuel : Nat) (hf : l.length ≤ fuel) :
    ∃ r, slistSort (fun _ => c) fuel l = some (.ok r) ∧ r.Perm l ∧
      r.Pairwise (fun a b => c a b ≤ 0) ∧
      ∀ a b, c a b ≤ 0 → [a, b].Sublist l → [a, b].Sublist r := by
  refine ⟨_, slistSort_eq _ l fuel hf, ?_, ?_, ?_⟩
  · simpa using Sort.passes_perm (fun _ => c) fuel 0 l []
  · exact Sort.passes_sorted c htot htr fuel 0 l [] hf List.Pairwise.nil (by simp)
  · intro a b hab h
    exact Sort.passes_stable c fuel 0 l [] a b hab (by simpa using h)

example : slistSort (fun _ (a b : Nat × Nat) => (a.1 : Int) - b.1) 4
    [(3, 0), (1, 1), (3, 2), (1, 3)] = some (.ok [(1, 1), (1, 3), (3, 0), (3, 2)]) := by decide

/-- An always-swapping comparison: still safe, and a permutation. -/
example : slistSort (fun _ (_ _ : Nat) => 1) 3 [1, 2, 3] = some (.ok [3, 2, 1]) := by decide

end Blogc.C10
