import Verif.Model.Config
import Verif.Lemmas.Trie

/-!
# C15: the configuration parser is total and memory safe
-/

namespace Blogc.Trie

theorem mem_free_of_released {α : Type u} (t : Trie α) (key : Str) (d : α) :
    ∀ x ∈ (insert t key d).2, x ∈ free t := by
  induction t generalizing key with
  | nil => simp [insert]
  | node b dat nx ch ihn ihc =>
    intro x hx
    simp only [insert] at hx
    simp only [free, List.mem_append]
    split at hx
    · cases key with
      | nil => exact Or.inl (Or.inl hx)
      | cons c r => exact Or.inr (ihc r x hx)
    · exact Or.inl (Or.inr (ihn key x hx))

end Blogc.Trie

namespace Blogc.C15

open Blogc Blogc.Config

/-- `section` points to a live map. -/
def InMap (st : St) : Prop := ∃ i t, st.deref = some (i, .map t)

/-- `section` points to a live list. -/
def InList (st : St) : Prop := ∃ i l, st.deref = some (i, .list l)

/-- What each state relies on. -/
def StateInv (len : Nat) (st : St) : Prop :=
  match st.state with
  | .key => InMap st
  | .valueStart => st.current < len → InMap st ∧ st.key.isSome ∧ st.value.isSome
  | .value | .valueQuote => InMap st ∧ st.key.isSome ∧ st.value.isSome
  | .listStart | .list | .listQuote => InList st ∧ st.value.isSome
  | _ => True

/-- The loop invariant. -/
structure Inv (len : Nat) (st : St) : Prop where
  root : ∀ x ∈ st.root.free, x < st.heap.length
  freed : ∀ x ∈ st.freed, x < st.heap.length
  sect : ∀ i, st.sect = some i → i < st.heap.length ∧ i ∉ st.freed
  esc : st.escaped = true → st.value.isSome
  state : StateInv len st

/-- Bound on the number of iterations left. -/
def measure (len : Nat) (st : St) : Nat :=
  2 * (len - st.current) + (if st.state = .start ∨ st.state = .valueStart then 1 else 0)

/-- A step keeps the invariant, makes progress and is defined. -/
def Good (len : Nat) (m : Nat) : Step St Result → Prop
  | .next s => Inv len s ∧ measure len s < m
  | .done _ => True
  | .ub => False

theorem good_adv {len : Nat} {st0 st : St} (hlt : st0.current < len) (h0 : st0.current ≤ st.current)
    (h : Inv len { st with current := st.current + 1 }) : Good len (measure len st0) (adv st) := by
  refine ⟨h, ?_⟩
  unfold measure
  simp only
  split <;> split <;> omega

theorem deref_isSome {len : Nat} {st : St} (h : Inv len st) {i : Nat} (hs : st.sect = some i) :
    ∃ s, st.deref = some (i, s) := by
  obtain ⟨h1, h2⟩ := h.sect i hs
  refine ⟨st.heap[i], ?_⟩
  simp [St.deref, hs, h2, h1]

theorem deref_lt {st : St} {i : Nat} {s : Sec} (h : st.deref = some (i, s)) :
    st.sect = some i ∧ i ∉ st.freed ∧ i < st.heap.length := by
  unfold St.deref at h
  cases hs : st.sect with
  | none => simp [hs] at h
  | some j =>
    simp only [hs] at h
    split at h
    · simp at h
    · rename_i hf
      simp only [Option.map_eq_some_iff, Prod.mk.injEq] at h
      obtain ⟨a, ha, rfl, rfl⟩ := h
      refine ⟨rfl, hf, ?_⟩
      exact (List.getElem?_eq_some_iff.1 ha).1

theorem insertValue_some {st : St} {v : Str} (hm : InMap st) (hk : st.key.isSome) :
    ∃ i s, st.insertValue v = some { st with heap := st.heap.set i s, key := none } := by
  obtain ⟨i, t, hd⟩ := hm
  obtain ⟨k, hk⟩ := Option.isSome_iff_exists.1 hk
  exact ⟨i, _, by simp [St.insertValue, hd, hk]; rfl⟩

theorem appendItem_some {st : St} {v : Str} (hm : InList st) :
    ∃ i s, st.appendItem v = some { st with heap := st.heap.set i s } := by
  obtain ⟨i, t, hd⟩ := hm
  exact ⟨i, _, by simp [St.appendItem, hd]; rfl⟩

theorem inv_base {len : Nat} {st st' : St} (h : Inv len st)
    (hh : st'.heap.length = st.heap.length) (hr : st'.root = st.root) (hf : st'.freed = st.freed)
    (hs : st'.sect = st.sect) (he : st'.escaped = true → st'.value.isSome)
    (hst : StateInv len st') : Inv len st' := by
  refine ⟨?_, ?_, ?_, he, hst⟩
  · rw [hh, hr]; exact h.root
  · rw [hh, hf]; exact h.freed
  · rw [hh, hf, hs]; exact h.sect

theorem step_good (src : Str) (lists : List Str) (st : St) (h : Inv src.length st) :
    Good src.length (measure src.length st) (step src lists st) := by
  unfold step
  split
  · trivial
  rename_i c hc
  have hlt : st.current < src.length := (List.getElem?_eq_some_iff.1 hc).1
  have hstate := h.state
  split
  · -- escaped character
    rename_i hesc
    obtain ⟨v, hv⟩ := Option.isSome_iff_exists.1 (h.esc hesc)
    simp only [St.push, hv, Option.map_some, advO]
    refine good_adv hlt (Nat.le_refl _) (inv_base h rfl rfl rfl rfl (by simp) ?_)
    unfold StateInv at hstate ⊢
    cases hs : st.state <;> simp only [hs] at hstate ⊢ <;> first
      | trivial
      | exact hstate
      | exact ⟨hstate.1, rfl⟩
      | exact ⟨hstate.1, hstate.2.1, rfl⟩
      | exact fun _ => ⟨(hstate hlt).1, (hstate hlt).2.1, rfl⟩
  split
  · -- backslash
    rename_i hesc hbs
    simp only [Bool.and_eq_true] at hbs
    refine good_adv hlt (Nat.le_refl _) (inv_base h rfl rfl rfl rfl (fun _ => hbs.1) ?_)
    unfold StateInv at hstate ⊢
    cases hs : st.state <;> simp only [hs] at hstate ⊢ <;> first
      | trivial
      | exact hstate
      | exact fun _ => hstate hlt
  rename_i hesc hbs
  have hne : st.escaped = true → False := by simp_all
  unfold dispatch
  simp only
  split
  · -- start
    rename_i hs
    split
    · have hge : st.current ≤ skipComment src st.current := by unfold skipComment; omega
      exact good_adv hlt (by simpa using hge)
        (inv_base h rfl rfl rfl rfl (fun e => (hne e).elim) (by simp [StateInv, hs]))
    split
    · exact good_adv hlt (Nat.le_refl _) (inv_base h rfl rfl rfl rfl (fun e => (hne e).elim)
        (by simp [StateInv, hs]))
    split
    · exact good_adv hlt (Nat.le_refl _) (inv_base h rfl rfl rfl rfl (fun e => (hne e).elim)
        (by simp [StateInv]))
    split
    · trivial
    · rename_i i hsec
      obtain ⟨s, hd⟩ := deref_isSome h hsec
      cases s with
      | map t =>
        simp only [hd]
        refine ⟨inv_base h rfl rfl rfl rfl (fun e => (hne e).elim) ⟨i, t, hd⟩, ?_⟩
        simp [measure, hs]
      | list l =>
        simp only [hd]
        refine ⟨inv_base h rfl rfl rfl rfl (fun e => (hne e).elim) ⟨⟨i, l, hd⟩, rfl⟩, ?_⟩
        simp [measure, hs]
  · -- sectionStart
    exact good_adv hlt (Nat.le_refl _) (inv_base h rfl rfl rfl rfl (fun e => (hne e).elim)
        (by simp [StateInv]))
  · -- section
    rename_i hs
    split
    · refine good_adv hlt (Nat.le_refl _) ?_
      refine ⟨?_, ?_, ?_, fun e => (hne e).elim, by simp [StateInv, endSection]⟩
      · intro x hx
        simp only [endSection, List.length_append, List.length_singleton] at hx ⊢
        have hp := (Trie.insert_ledger st.root (cstr (slice src st.start st.current))
          st.heap.length).mem_iff (a := x)
        have := hp.1 (List.mem_append_right _ hx)
        rcases List.mem_cons.1 this with rfl | this
        · omega
        · have := h.root x this; omega
      · intro x hx
        simp only [endSection, List.length_append, List.length_singleton, List.mem_append] at hx ⊢
        rcases hx with hx | hx
        · have := h.freed x hx; omega
        · have := h.root x (Trie.mem_free_of_released _ _ _ x hx); omega
      · intro i hi
        simp only [endSection, Option.some.injEq] at hi
        subst hi
        simp only [endSection, List.length_append, List.length_singleton, List.mem_append, not_or]
        refine ⟨by omega, fun hx => ?_, fun hx => ?_⟩
        · have := h.freed _ hx; omega
        · have := h.root _ (Trie.mem_free_of_released _ _ _ _ hx); omega
    split
    · exact good_adv hlt (Nat.le_refl _) (inv_base h rfl rfl rfl rfl (fun e => (hne e).elim)
        (by simp [StateInv, hs]))
    · trivial
  · -- key
    rename_i hs
    simp only [StateInv, hs] at hstate
    split
    · split
      · rename_i hl
        obtain ⟨i, s, e⟩ := insertValue_some (v := [])
          (st := { st with key := some (cstr (slice src st.start st.current)), state := .valueStart })
          hstate rfl
        rw [e]
        have hl' : st.current + 1 = src.length := by simpa using hl
        refine good_adv hlt (Nat.le_refl _) (inv_base h (by simp) rfl rfl rfl
          (fun e => (hne e).elim) ?_)
        simp only [StateInv]
        intro; omega
      · refine good_adv hlt (Nat.le_refl _) (inv_base h rfl rfl rfl rfl
          (fun e => (hne e).elim) ?_)
        simp only [StateInv]
        exact fun _ => ⟨hstate, rfl, rfl⟩
    split
    · exact good_adv hlt (Nat.le_refl _) (inv_base h rfl rfl rfl rfl (fun e => (hne e).elim)
        (by simp only [StateInv, hs]; exact hstate))
    · trivial
  · -- valueStart
    rename_i hs
    simp only [StateInv, hs] at hstate
    have hstate := hstate hlt
    split
    · exact good_adv hlt (Nat.le_refl _) (inv_base h rfl rfl rfl rfl (fun e => (hne e).elim)
        (by simp only [StateInv, hs]; exact fun _ => hstate))
    split
    · exact good_adv hlt (Nat.le_refl _) (inv_base h rfl rfl rfl rfl (fun e => (hne e).elim)
        (by simp only [StateInv]; exact hstate))
    split
    · refine ⟨inv_base h rfl rfl rfl rfl (fun e => (hne e).elim)
        (by simp only [StateInv]; exact hstate), ?_⟩
      simp [measure, hs]
    · obtain ⟨v, hv⟩ := Option.isSome_iff_exists.1 hstate.2.2
      simp only [St.push, hv, Option.map_some, advO]
      exact good_adv hlt (Nat.le_refl _) (inv_base h rfl rfl rfl rfl (fun e => (hne e).elim)
        (by simp only [StateInv]; exact ⟨hstate.1, hstate.2.1, rfl⟩))
  · -- valueQuote
    rename_i hs
    simp only [StateInv, hs] at hstate
    obtain ⟨v, hv⟩ := Option.isSome_iff_exists.1 hstate.2.2
    split
    · simp only [hv]
      obtain ⟨i, s, e⟩ := insertValue_some (v := cstr v) hstate.1 hstate.2.1
      rw [e]
      exact good_adv hlt (Nat.le_refl _) (inv_base h (by simp) rfl rfl rfl
        (fun e => (hne e).elim) (by simp [StateInv]))
    · simp only [St.push, hv, Option.map_some, advO]
      exact good_adv hlt (Nat.le_refl _) (inv_base h rfl rfl rfl rfl (fun e => (hne e).elim)
        (by simp only [StateInv, hs]; exact ⟨hstate.1, hstate.2.1, rfl⟩))
  · -- valuePostQuoted
    rename_i hs
    split
    · exact good_adv hlt (Nat.le_refl _) (inv_base h rfl rfl rfl rfl (fun e => (hne e).elim)
        (by simp [StateInv, hs]))
    split
    · exact good_adv hlt (Nat.le_refl _) (inv_base h rfl rfl rfl rfl (fun e => (hne e).elim)
        (by simp [StateInv]))
    · trivial
  · -- value
    rename_i hs
    simp only [StateInv, hs] at hstate
    obtain ⟨v, hv⟩ := Option.isSome_iff_exists.1 hstate.2.2
    split
    · obtain ⟨v', e⟩ : ∃ v', lastPush st c = some { st with value := some v' } := by
        unfold lastPush
        split
        · exact ⟨v, by rw [← hv]⟩
        · exact ⟨v ++ [c], by simp [St.push, hv]⟩
      obtain ⟨i, s, e'⟩ := insertValue_some (st := { st with value := some v' })
        (v := rstrip (cstr v')) hstate.1 hstate.2.1
      simp only [endValue, e, e', Option.bind_eq_bind, Option.bind_some, advO]
      exact good_adv hlt (Nat.le_refl _) (inv_base h (by simp) rfl rfl rfl
        (fun e => (hne e).elim) (by simp [StateInv]))
    · simp only [St.push, hv, Option.map_some, advO]
      exact good_adv hlt (Nat.le_refl _) (inv_base h rfl rfl rfl rfl (fun e => (hne e).elim)
        (by simp only [StateInv, hs]; exact ⟨hstate.1, hstate.2.1, rfl⟩))
  · -- listStart
    rename_i hs
    simp only [StateInv, hs] at hstate
    obtain ⟨v, hv⟩ := Option.isSome_iff_exists.1 hstate.2
    split
    · exact good_adv hlt (Nat.le_refl _) (inv_base h rfl rfl rfl rfl (fun e => (hne e).elim)
        (by simp only [StateInv, hs]; exact hstate))
    split
    · exact good_adv hlt (Nat.le_refl _) (inv_base h rfl rfl rfl rfl (fun e => (hne e).elim)
        (by simp only [StateInv]; exact hstate))
    · simp only [St.push, hv, Option.map_some, advO]
      exact good_adv hlt (Nat.le_refl _) (inv_base h rfl rfl rfl rfl (fun e => (hne e).elim)
        (by simp only [StateInv]; exact ⟨hstate.1, rfl⟩))
  · -- listQuote
    rename_i hs
    simp only [StateInv, hs] at hstate
    obtain ⟨v, hv⟩ := Option.isSome_iff_exists.1 hstate.2
    split
    · simp only [hv]
      obtain ⟨i, s, e⟩ := appendItem_some (v := cstr v) hstate.1
      rw [e]
      exact good_adv hlt (Nat.le_refl _) (inv_base h (by simp) rfl rfl rfl
        (fun e => (hne e).elim) (by simp [StateInv]))
    · simp only [St.push, hv, Option.map_some, advO]
      exact good_adv hlt (Nat.le_refl _) (inv_base h rfl rfl rfl rfl (fun e => (hne e).elim)
        (by simp only [StateInv, hs]; exact ⟨hstate.1, rfl⟩))
  · -- listPostQuoted
    rename_i hs
    split
    · exact good_adv hlt (Nat.le_refl _) (inv_base h rfl rfl rfl rfl (fun e => (hne e).elim)
        (by simp [StateInv, hs]))
    split
    · exact good_adv hlt (Nat.le_refl _) (inv_base h rfl rfl rfl rfl (fun e => (hne e).elim)
        (by simp [StateInv]))
    · trivial
  · -- list
    rename_i hs
    simp only [StateInv, hs] at hstate
    obtain ⟨v, hv⟩ := Option.isSome_iff_exists.1 hstate.2
    split
    · obtain ⟨v', e⟩ : ∃ v', lastPush st c = some { st with value := some v' } := by
        unfold lastPush
        split
        · exact ⟨v, by rw [← hv]⟩
        · exact ⟨v ++ [c], by simp [St.push, hv]⟩
      obtain ⟨i, s, e'⟩ := appendItem_some (st := { st with value := some v' })
        (v := strip (cstr v')) hstate.1
      simp only [endItem, e, e', Option.bind_eq_bind, Option.bind_some, advO]
      exact good_adv hlt (Nat.le_refl _) (inv_base h (by simp) rfl rfl rfl
        (fun e => (hne e).elim) (by simp [StateInv]))
    · simp only [St.push, hv, Option.map_some, advO]
      exact good_adv hlt (Nat.le_refl _) (inv_base h rfl rfl rfl rfl (fun e => (hne e).elim)
        (by simp only [StateInv, hs]; exact ⟨hstate.1, rfl⟩))

theorem init_inv (len : Nat) : Inv len St.init :=
  ⟨by simp [St.init, Trie.free], by simp [St.init], by simp [St.init], by simp [St.init],
    by simp [StateInv, St.init]⟩

/-- On every input the parser terminates within the fuel of the model without
undefined behaviour, and returns a configuration or an error. -/
theorem parse_total (src : Str) (lists : List Str) :
    ∃ r : Result, parse src lists = some (.ok r) := by
  have hstep : ∀ s s', Inv src.length s → step src lists s = .next s' →
      Inv src.length s' ∧ measure src.length s' < measure src.length s := by
    intro s s' hi hn
    have := step_good src lists s hi
    rw [hn] at this
    exact this
  obtain ⟨r, hr⟩ := runM_terminates (step := step src lists) (Inv src.length) (measure src.length)
    hstep (2 * src.length + 2) St.init (init_inv _) (by simp [measure, St.init])
  obtain ⟨a, rfl, -⟩ := runM_safe (step := step src lists) (Inv src.length) (fun _ => True)
    (fun s s' hi hn => (hstep s s' hi hn).1)
    (fun s hi hub => by
      have := step_good src lists s hi
      rw [hub] at this
      exact this)
    (fun _ _ _ _ => trivial) _ _ r (init_inv _) hr
  exact ⟨a, hr⟩

/-- Giving the loop more iterations does not change the result. -/
theorem parse_fuel (src : Str) (lists : List Str) (n : Nat) (hn : 2 * src.length + 2 ≤ n) :
    runM (step src lists) n St.init = parse src lists := by
  obtain ⟨r, hr⟩ := parse_total src lists
  rw [hr]
  exact runM_mono hr n hn

end Blogc.C15
