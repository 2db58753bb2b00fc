import Verif.Model.Sort
import Mathlib.Data.List.Perm.Basic

namespace Blogc.Sort

open Blogc

variable {α : Type u}

/-- One pass of the inner loop over `x :: l`, where `k` is the number of the
next comparison: the new elements and whether a swap happened. -/
def bubble (cmp : Nat → α → α → Int) (k : Nat) (x : α) : List α → List α × Bool
  | [] => ([x], false)
  | y :: l =>
    if 0 < cmp k x y then
      let r := bubble cmp (k + 1) x l
      (y :: r.1, true)
    else
      let r := bubble cmp (k + 1) y l
      (x :: r.1, r.2)

theorem bubble_perm (cmp : Nat → α → α → Int) (k : Nat) (x : α) (l : List α) :
    (bubble cmp k x l).1.Perm (x :: l) := by
  induction l generalizing k x with
  | nil => exact List.Perm.refl _
  | cons y l ih =>
    simp only [bubble]
    split
    · exact ((ih (k + 1) x).cons y).trans (List.Perm.swap _ _ _)
    · exact (ih (k + 1) y).cons x

theorem bubble_length (cmp : Nat → α → α → Int) (k : Nat) (x : α) (l : List α) :
    (bubble cmp k x l).1.length = l.length + 1 := by
  rw [(bubble_perm cmp k x l).length_eq]; rfl

/-- The right end of the active area as a pointer. -/
def rptrOf (n R : Nat) : Option Nat := if R = n then none else some R

theorem sortInner_eq (cmp : Nat → α → α → Int) (C : List α) (B : List α) :
    ∀ (A : List α) (x : α) (fuel calls : Nat) (sw : Bool), B.length < fuel →
    sortInner cmp (rptrOf (A ++ x :: B ++ C).length (A ++ x :: B).length) fuel A.length
      { data := A ++ x :: B ++ C, calls := calls, swapped := sw }
    = some (.ok (A.length + B.length,
        { data := A ++ (bubble cmp calls x B).1 ++ C, calls := calls + B.length,
          swapped := sw || (bubble cmp calls x B).2 })) := by
  induction B with
  | nil =>
    intro A x fuel calls sw hf
    obtain ⟨f, rfl⟩ : ∃ f, fuel = f + 1 := ⟨fuel - 1, by simp at hf; omega⟩
    simp only [sortInner]
    rw [if_pos]
    · simp [bubble]
    · unfold nextNode rptrOf
      simp only [List.length_append, List.length_cons, List.length_nil]
      split <;> split <;> first | rfl | omega
  | cons y B ih =>
    intro A x fuel calls sw hf
    obtain ⟨f, rfl⟩ : ∃ f, fuel = f + 1 := ⟨fuel - 1, by simp at hf; omega⟩
    simp only [List.length_cons] at hf
    simp only [sortInner]
    have hnext : nextNode (A ++ x :: y :: B ++ C).length A.length = some (A.length + 1) := by
      unfold nextNode
      rw [if_pos]
      simp only [List.length_append, List.length_cons]; omega
    rw [hnext]
    have hne : ¬ some (A.length + 1)
        = rptrOf (A ++ x :: y :: B ++ C).length (A ++ x :: y :: B).length := by
      unfold rptrOf
      split
      · simp
      · simp only [List.length_append, List.length_cons, Option.some.injEq]; omega
    rw [if_neg hne]
    have hg1 : (A ++ x :: y :: B ++ C)[A.length]? = some x := by simp
    have hg2 : (A ++ x :: y :: B ++ C)[A.length + 1]? = some y := by
      rw [List.append_assoc, List.getElem?_append_right (by omega)]
      simp
    simp only [hg1, hg2]
    split
    · rename_i hc
      have hset : ((A ++ x :: y :: B ++ C).set A.length y).set (A.length + 1) x
          = (A ++ [y]) ++ x :: B ++ C := by
        simp
      have := ih (A ++ [y]) x f (calls + 1) true (by omega)
      rw [hset]
      simp only [List.length_append, List.length_cons, List.length_nil] at this ⊢
      simp only [bubble, if_pos hc]
      rw [show A.length + (B.length + 1 + 1) = A.length + (0 + 1) + (B.length + 1) by omega]
      rw [this]
      simp only [Option.some.injEq, Res.ok.injEq, Prod.mk.injEq]
      refine ⟨by omega, ?_⟩
      simp
      omega
    · rename_i hc
      have := ih (A ++ [x]) y f (calls + 1) sw (by omega)
      simp only [List.length_append, List.length_cons, List.length_nil, List.append_assoc,
        List.cons_append, List.nil_append] at this ⊢
      simp only [bubble, if_neg hc]
      rw [Nat.zero_add] at this
      rw [this]
      simp only [Option.some.injEq, Res.ok.injEq, Prod.mk.injEq]
      refine ⟨by omega, ?_⟩
      simp
      omega


/-- The whole sort on an active area `x :: B` and a finished area `C`. -/
def passes (cmp : Nat → α → α → Int) : Nat → Nat → List α → List α → List α
  | 0, _, P, C => P ++ C
  | _ + 1, _, [], C => C
  | fuel + 1, calls, x :: B, C =>
    let r := bubble cmp calls x B
    if r.2 then passes cmp fuel (calls + B.length) r.1.dropLast (r.1.drop B.length ++ C)
    else r.1 ++ C

theorem bubble_swapped_ne (cmp : Nat → α → α → Int) (k : Nat) (x : α) (l : List α)
    (h : (bubble cmp k x l).2 = true) : l ≠ [] := by
  cases l with
  | nil => simp [bubble] at h
  | cons => simp

theorem sortOuter_eq (cmp : Nat → α → α → Int) :
    ∀ (fuel : Nat) (P C : List α) (calls : Nat), P ≠ [] → P.length ≤ fuel →
    sortOuter cmp fuel (rptrOf (P ++ C).length P.length) (P ++ C) calls
      = some (.ok (passes cmp fuel calls P C)) := by
  intro fuel
  induction fuel with
  | zero =>
    intro P C calls hP hl
    cases P with
    | nil => exact absurd rfl hP
    | cons => simp at hl
  | succ fuel ih =>
    intro P C calls hP hl
    cases P with
    | nil => exact absurd rfl hP
    | cons x B =>
      have hinner := sortInner_eq cmp C B [] x (fuel + 1) calls false
        (by simp only [List.length_cons] at hl; omega)
      simp only [List.nil_append, List.length_nil, Nat.zero_add, Bool.false_or] at hinner
      simp only [sortOuter, hinner]
      cases hsw : (bubble cmp calls x B).2 with
      | false => simp [passes, hsw]
      | true =>
        simp only [if_true, passes, hsw]
        have hlen := bubble_length cmp calls x B
        have hB := bubble_swapped_ne cmp calls x B hsw
        generalize (bubble cmp calls x B).1 = r at hlen
        have hBl : 0 < B.length := List.length_pos_iff.2 hB
        have hdl : r.dropLast.length = B.length := by simp [hlen]
        have hsplit : r.dropLast ++ r.drop B.length = r := by
          rw [List.dropLast_eq_take, hlen, Nat.add_sub_cancel, List.take_append_drop]
        have := ih r.dropLast (r.drop B.length ++ C) (calls + B.length)
          (by intro he; rw [he] at hdl; simp at hdl; omega)
          (by rw [hdl]; simp only [List.length_cons] at hl; omega)
        rw [← List.append_assoc, hsplit] at this
        rw [← this]
        congr 1
        rw [hdl, rptrOf, if_neg]
        simp only [List.length_append, hlen]
        omega

theorem passes_perm (cmp : Nat → α → α → Int) :
    ∀ (fuel calls : Nat) (P C : List α), (passes cmp fuel calls P C).Perm (P ++ C) := by
  intro fuel
  induction fuel with
  | zero => intro calls P C; exact List.Perm.refl _
  | succ fuel ih =>
    intro calls P C
    cases P with
    | nil => exact List.Perm.refl _
    | cons x B =>
      simp only [passes]
      have hp := bubble_perm cmp calls x B
      split
      · refine (ih _ _ _).trans ?_
        have hlen := bubble_length cmp calls x B
        rw [← List.append_assoc, List.dropLast_eq_take, hlen, Nat.add_sub_cancel,
          List.take_append_drop]
        exact hp.append_right C
      · exact hp.append_right C

/-! ### Consistent comparisons -/

section Order

variable (c : α → α → Int)

/-- `a` may come before `b`. -/
def Le (a b : α) : Prop := c a b ≤ 0

theorem bubble_stable (k : Nat) (x : α) (l : List α) (a b : α) (hab : Le c a b)
    (h : [a, b].Sublist (x :: l)) : [a, b].Sublist (bubble (fun _ => c) k x l).1 := by
  induction l generalizing k x with
  | nil => have := h.length_le; simp at this
  | cons y l ih =>
    simp only [bubble]
    split
    · rename_i hc
      have hp := bubble_perm (fun _ => c) (k + 1) x l
      rcases List.sublist_cons_iff.1 h with h | ⟨r, hr, h⟩
      · rcases List.sublist_cons_iff.1 h with h | ⟨r, hr, h⟩
        · exact (ih (k + 1) x (h.cons x)).cons y
        · simp only [List.cons.injEq] at hr
          obtain ⟨rfl, rfl⟩ := hr
          refine List.Sublist.cons_cons a (List.singleton_sublist.2 ?_)
          exact hp.mem_iff.2 (List.mem_cons_of_mem _ (List.singleton_sublist.1 h))
      · simp only [List.cons.injEq] at hr
        obtain ⟨rfl, rfl⟩ := hr
        rcases List.mem_cons.1 (List.singleton_sublist.1 h) with rfl | hb
        · exact absurd hab (by unfold Le; omega)
        · exact (ih (k + 1) a (List.Sublist.cons_cons a (List.singleton_sublist.2 hb))).cons y
    · have hp := bubble_perm (fun _ => c) (k + 1) y l
      rcases List.sublist_cons_iff.1 h with h | ⟨r, hr, h⟩
      · exact (ih (k + 1) y h).cons x
      · simp only [List.cons.injEq] at hr
        obtain ⟨rfl, rfl⟩ := hr
        exact List.Sublist.cons_cons a
          (List.singleton_sublist.2 (hp.mem_iff.2 (List.singleton_sublist.1 h)))

theorem bubble_noswap (hA : ∀ a b, 0 < c a b ∨ Le c a b) (k : Nat) (x : α) (l : List α)
    (h : (bubble (fun _ => c) k x l).2 = false) :
    (bubble (fun _ => c) k x l).1 = x :: l ∧ (x :: l).IsChain (Le c) := by
  induction l generalizing k x with
  | nil => simp [bubble]
  | cons y l ih =>
    simp only [bubble] at h ⊢
    by_cases hc : 0 < c x y
    · simp [hc] at h
    · simp only [hc, if_false] at h ⊢
      obtain ⟨h1, h2⟩ := ih (k + 1) y h
      refine ⟨by rw [h1], ?_⟩
      rw [List.isChain_cons_cons]
      exact ⟨(hA x y).resolve_left hc, h2⟩

/-- The last element after a pass is an upper bound. -/
theorem bubble_last (htot : ∀ a b, Le c a b ∨ Le c b a)
    (htr : ∀ a b d, Le c a b → Le c b d → Le c a d) (k : Nat) (x : α) (l : List α) :
    ∃ Q m, (bubble (fun _ => c) k x l).1 = Q ++ [m] ∧ (∀ q ∈ Q, Le c q m) ∧ Le c x m := by
  have hrefl : ∀ a, Le c a a := fun a => (htot a a).elim id id
  induction l generalizing k x with
  | nil => exact ⟨[], x, rfl, by simp, hrefl x⟩
  | cons y l ih =>
    simp only [bubble]
    by_cases hc : 0 < c x y
    · simp only [hc, if_true]
      obtain ⟨Q, m, he, hQ, hx⟩ := ih (k + 1) x
      refine ⟨y :: Q, m, by rw [he]; rfl, ?_, hx⟩
      intro q hq
      rcases List.mem_cons.1 hq with rfl | hq
      · have hyx : Le c q x := (htot q x).elim id (fun h => absurd h (by unfold Le; omega))
        exact htr _ _ _ hyx hx
      · exact hQ q hq
    · simp only [hc, if_false]
      obtain ⟨Q, m, he, hQ, hy⟩ := ih (k + 1) y
      have hxm : Le c x m := htr _ _ _ (show c x y ≤ 0 by omega) hy
      refine ⟨x :: Q, m, by rw [he]; rfl, ?_, hxm⟩
      intro q hq
      rcases List.mem_cons.1 hq with rfl | hq
      · exact hxm
      · exact hQ q hq

theorem pairwise_of_chain (htr : ∀ a b d, Le c a b → Le c b d → Le c a d) (l : List α)
    (h : l.IsChain (Le c)) : l.Pairwise (Le c) := by
  induction l with
  | nil => exact List.Pairwise.nil
  | cons x l ih =>
    cases l with
    | nil => simp
    | cons y l =>
      rw [List.isChain_cons_cons] at h
      have hp := ih h.2
      rw [List.pairwise_cons]
      refine ⟨?_, hp⟩
      intro z hz
      rcases List.mem_cons.1 hz with rfl | hz
      · exact h.1
      · exact htr _ _ _ h.1 ((List.pairwise_cons.1 hp).1 z hz)

theorem passes_sorted (htot : ∀ a b, Le c a b ∨ Le c b a)
    (htr : ∀ a b d, Le c a b → Le c b d → Le c a d) :
    ∀ (fuel calls : Nat) (P C : List α), P.length ≤ fuel → C.Pairwise (Le c) →
      (∀ p ∈ P, ∀ q ∈ C, Le c p q) →
      (passes (fun _ => c) fuel calls P C).Pairwise (Le c) := by
  intro fuel
  have hA : ∀ a b, 0 < c a b ∨ Le c a b := by intro a b; unfold Le; omega
  induction fuel with
  | zero =>
    intro calls P C hl hC hPC
    have : P = [] := List.length_eq_zero_iff.1 (by omega)
    subst this
    exact hC
  | succ fuel ih =>
    intro calls P C hl hC hPC
    cases P with
    | nil => exact hC
    | cons x B =>
      simp only [passes]
      have hp := bubble_perm (fun _ => c) calls x B
      cases hsw : (bubble (fun _ => c) calls x B).2 with
      | false =>
        simp only [Bool.false_eq_true, if_false]
        obtain ⟨h1, h2⟩ := bubble_noswap c hA calls x B hsw
        rw [h1, List.pairwise_append]
        exact ⟨pairwise_of_chain c htr _ h2, hC, hPC⟩
      | true =>
        simp only [if_true]
        obtain ⟨Q, m, he, hQ, _⟩ := bubble_last c htot htr calls x B
        have hlen := bubble_length (fun _ => c) calls x B
        rw [he] at hlen hp ⊢
        have hQl : Q.length = B.length := by simpa using hlen
        rw [List.dropLast_concat, ← hQl, List.drop_left]
        simp only [List.length_cons] at hl
        refine ih _ _ _ (by omega) ?_ ?_
        · rw [List.singleton_append, List.pairwise_cons]
          refine ⟨fun q hq => hPC m (hp.mem_iff.1 (by simp)) q hq, hC⟩
        · intro q hq d hd
          rcases List.mem_append.1 hd with hd | hd
          · simp only [List.mem_singleton] at hd
            subst hd
            exact hQ q hq
          · exact hPC q (hp.mem_iff.1 (by simp [hq])) d hd

theorem sublist_append_pair {a b : α} {P C : List α} (h : [a, b].Sublist (P ++ C)) :
    [a, b].Sublist P ∨ (a ∈ P ∧ b ∈ C) ∨ [a, b].Sublist C := by
  obtain ⟨l₁, l₂, he, h1, h2⟩ := List.sublist_append_iff.1 h
  match l₁, he with
  | [], he => right; right; simpa [he] using h2
  | [x], he =>
    simp only [List.cons_append, List.nil_append, List.cons.injEq] at he
    obtain ⟨rfl, rfl⟩ := he
    exact Or.inr (Or.inl ⟨List.singleton_sublist.1 h1, List.singleton_sublist.1 h2⟩)
  | x :: y :: l, he =>
    simp only [List.cons_append, List.cons.injEq] at he
    obtain ⟨rfl, rfl, he⟩ := he
    rw [eq_comm, List.append_eq_nil_iff] at he
    rw [he.1] at h1
    exact Or.inl h1

theorem passes_stable :
    ∀ (fuel calls : Nat) (P C : List α) (a b : α), Le c a b → [a, b].Sublist (P ++ C) →
      [a, b].Sublist (passes (fun _ => c) fuel calls P C) := by
  intro fuel
  induction fuel with
  | zero => intro calls P C a b _ h; exact h
  | succ fuel ih =>
    intro calls P C a b hab h
    cases P with
    | nil => exact h
    | cons x B =>
      simp only [passes]
      have hp := bubble_perm (fun _ => c) calls x B
      have hlen := bubble_length (fun _ => c) calls x B
      have key : [a, b].Sublist ((bubble (fun _ => c) calls x B).1 ++ C) := by
        rcases sublist_append_pair h with h | ⟨ha, hb⟩ | h
        · exact (bubble_stable c calls x B a b hab h).trans (List.sublist_append_left _ _)
        · have h1 : [a].Sublist (bubble (fun _ => c) calls x B).1 :=
            List.singleton_sublist.2 (hp.mem_iff.2 ha)
          exact h1.append (List.singleton_sublist.2 hb)
        · exact h.trans (List.sublist_append_right _ _)
      split
      · refine ih _ _ _ a b hab ?_
        rw [← List.append_assoc, List.dropLast_eq_take, hlen, Nat.add_sub_cancel,
          List.take_append_drop]
        exact key
      · exact key

end Order

end Blogc.Sort

namespace Blogc.Sort

variable {α : Type u} {β : Type v}

/-- The comparison matters only on the elements of the list. -/
theorem bubble_map (g : α → β) (cmp : Nat → β → β → Int) (c : α → α → Int) (k : Nat) (x : α)
    (l : List α) (h : ∀ j, ∀ a ∈ x :: l, ∀ b ∈ x :: l, 0 < cmp j (g a) (g b) ↔ 0 < c a b) :
    bubble cmp k (g x) (l.map g) =
      ((bubble (fun _ => c) k x l).1.map g, (bubble (fun _ => c) k x l).2) := by
  induction l generalizing k x with
  | nil => rfl
  | cons y l ih =>
    have hxy := h k x (by simp) y (by simp)
    have ih1 := ih (k + 1) x (fun j a ha b hb => h j a (by
      rcases List.mem_cons.1 ha with rfl | ha <;> simp [*]) b (by
      rcases List.mem_cons.1 hb with rfl | hb <;> simp [*]))
    have ih2 := ih (k + 1) y (fun j a ha b hb => h j a (by simp only [List.mem_cons] at ha ⊢; tauto) b (by
      simp only [List.mem_cons] at hb ⊢; tauto))
    simp only [List.map_cons, bubble, ih1, ih2]
    by_cases hc : 0 < c x y
    · rw [if_pos (hxy.2 hc), if_pos hc]; rfl
    · rw [if_neg (fun hh => hc (hxy.1 hh)), if_neg hc]; rfl

theorem passes_map (g : α → β) (cmp : Nat → β → β → Int) (c : α → α → Int) :
    ∀ (fuel calls : Nat) (P C : List α),
      (∀ j, ∀ a ∈ P, ∀ b ∈ P, 0 < cmp j (g a) (g b) ↔ 0 < c a b) →
      passes cmp fuel calls (P.map g) (C.map g) = (passes (fun _ => c) fuel calls P C).map g := by
  intro fuel
  induction fuel with
  | zero => intro calls P C _; simp [passes]
  | succ fuel ih =>
    intro calls P C h
    cases P with
    | nil => rfl
    | cons x B =>
      simp only [List.map_cons, passes, bubble_map g cmp c calls x B h, List.length_map]
      have hp := bubble_perm (fun _ => c) calls x B
      cases hb : (bubble (fun _ => c) calls x B).2 with
      | true =>
        simp only [if_true]
        rw [← List.map_dropLast, ← List.map_drop, ← List.map_append]
        apply ih
        intro j a ha b hb'
        exact h j a (hp.subset (List.dropLast_subset _ ha)) b (hp.subset (List.dropLast_subset _ hb'))
      | false => simp

theorem bubble_filter (c : α → α → Int) (p : α → Bool)
    (hp : ∀ a b, p a = true → p b = true → ¬ 0 < c a b) (k : Nat) (x : α) (l : List α) :
    (bubble (fun _ => c) k x l).1.filter p = (x :: l).filter p := by
  induction l generalizing k x with
  | nil => rfl
  | cons y l ih =>
    simp only [bubble]
    split
    · rename_i hc
      simp only [List.filter_cons, ih]
      cases hx : p x with
      | false => simp
      | true =>
        cases hy : p y with
        | false => simp
        | true => exact absurd hc (hp x y hx hy)
    · simp only [List.filter_cons, ih]

theorem passes_filter (c : α → α → Int) (p : α → Bool)
    (hp : ∀ a b, p a = true → p b = true → ¬ 0 < c a b) :
    ∀ (fuel calls : Nat) (P C : List α),
      (passes (fun _ => c) fuel calls P C).filter p = (P ++ C).filter p := by
  intro fuel
  induction fuel with
  | zero => intro calls P C; rfl
  | succ fuel ih =>
    intro calls P C
    cases P with
    | nil => rfl
    | cons x B =>
      simp only [passes]
      have hl : (bubble (fun _ => c) calls x B).1.length = B.length + 1 := bubble_length _ _ _ _
      have hf := bubble_filter c p hp calls x B
      split
      · rw [ih, ← List.append_assoc]
        have : (bubble (fun _ => c) calls x B).1.dropLast ++ (bubble (fun _ => c) calls x B).1.drop B.length =
            (bubble (fun _ => c) calls x B).1 := by
          rw [List.dropLast_eq_take, hl, Nat.add_sub_cancel, List.take_append_drop]
        rw [this, List.filter_append, hf, List.filter_append]
      · rw [List.filter_append, hf, List.filter_append]

end Blogc.Sort
