import Verif.Model.Strings

namespace Blogc

namespace BcString

theorem memcpy_eq (mem : List (Option Byte)) (i : Nat) (bs : Str)
    (h : i + bs.length ≤ mem.length) :
    memcpy mem i bs = .ok (mem.take i ++ bs.map some ++ mem.drop (i + bs.length)) := by
  induction bs generalizing mem i with
  | nil => simp [memcpy]
  | cons b bs ih =>
    simp only [List.length_cons] at h
    have hi : i < mem.length := by omega
    simp only [memcpy, store, hi, if_true, Res.bind_ok]
    rw [ih _ _ (by simp; omega)]
    congr 1
    apply List.ext_getElem?
    intro j
    simp only [List.getElem?_append, List.length_append, List.length_take, List.length_map,
      List.length_set, List.getElem?_map, List.getElem?_drop, List.getElem?_take,
      List.length_cons, List.getElem?_set]
    have e1 : min (i + 1) mem.length = i + 1 := by omega
    have e2 : min i mem.length = i := by omega
    rw [e1, e2]
    by_cases h1 : j < i
    · simp [h1, show j < i + 1 by omega, show j < i + 1 + bs.length by omega,
        show j < i + (bs.length + 1) by omega, show ¬ i = j by omega]
    · by_cases h2 : j = i
      · subst h2
        simp [hi, show j < j + 1 + bs.length by omega, show j < j + (bs.length + 1) by omega]
      · obtain ⟨k, rfl⟩ : ∃ k, j = i + 1 + k := ⟨j - i - 1, by omega⟩
        have e3 : i + 1 + k - (i + 1) = k := by omega
        have e4 : i + 1 + k - i = k + 1 := by omega
        by_cases h3 : k < bs.length
        · simp [e3, e4, h3, show i + 1 + k < i + 1 + bs.length by omega,
            show i + 1 + k < i + (bs.length + 1) by omega,
            show ¬ i + 1 + k < i by omega, show ¬ i + 1 + k < i + 1 by omega]
        · simp [show ¬ i + 1 + k < i + 1 + bs.length by omega,
            show ¬ i + 1 + k < i + (bs.length + 1) by omega]
          have : ¬ i = i + 1 + bs.length + (i + 1 + k - (i + 1 + bs.length)) := by omega
          simp [this]
          congr 1
          omega

theorem grow_length (mem : List (Option Byte)) (n : Nat) : n + 1 ≤ (grow mem n).length := by
  unfold grow
  split
  · have : n + 1 < ((n + 1) / chunkSize + 1) * chunkSize := by
      simp only [chunkSize]; omega
    simp only [realloc, List.length_append, List.length_take, List.length_replicate]
    omega
  · omega

theorem grow_take (mem : List (Option Byte)) (n k : Nat) (hk : k ≤ mem.length) :
    (grow mem n).take k = mem.take k := by
  unfold grow
  split
  · rename_i hgt
    have : n + 1 < ((n + 1) / chunkSize + 1) * chunkSize := by
      simp only [chunkSize]; omega
    simp only [realloc]
    rw [List.take_append_of_le_length (by simp only [List.length_take]; omega), List.take_take]
    congr 1
    omega
  · rfl

/-- The representation invariant: `s` holds exactly the bytes `bs` and a
terminator. -/
def Holds (s : BcString) (bs : Str) : Prop :=
  s.len = bs.length ∧ s.len + 1 ≤ s.mem.length ∧ s.mem.take (s.len + 1) = (bs ++ [0]).map some

theorem appendLen_raw (s : BcString) (bs t : Str) (hl : s.len = bs.length)
    (hm : s.len ≤ s.mem.length) (ht : s.mem.take s.len = bs.map some) :
    ∃ s', s.appendLen t = .ok s' ∧ Holds s' (bs ++ t) := by
  simp only [appendLen]
  have hg := grow_length s.mem (s.len + t.length)
  have hgt := grow_take s.mem (s.len + t.length) s.len hm
  generalize grow s.mem (s.len + t.length) = m at hg hgt
  simp only [memcpy_eq m s.len t (by omega), Res.bind_ok]
  have hlen : (m.take s.len ++ t.map some ++ m.drop (s.len + t.length)).length = m.length := by
    simp only [List.length_append, List.length_take, List.length_map, List.length_drop]; omega
  have hlt : s.len + t.length <
      (m.take s.len ++ t.map some ++ m.drop (s.len + t.length)).length := by omega
  simp only [store, hlt, if_true, Res.bind_ok, Res.pure_eq]
  refine ⟨_, rfl, ?_, ?_, ?_⟩
  · simp [hl]
  · simp only [List.length_set]; omega
  · rw [hgt, ht]
    have e : (bs.map some ++ t.map some : List (Option Byte)).length = s.len + t.length := by
      simp [hl]
    apply List.ext_getElem?
    intro j
    simp only [List.getElem?_take, List.getElem?_set, List.map_append, List.map_cons, List.map_nil]
    by_cases h1 : j < s.len + t.length
    · rw [if_pos (by omega), if_neg (by omega)]
      rw [List.getElem?_append_left (l₂ := List.drop _ m) (by omega),
        List.getElem?_append_left (l₂ := [some 0]) (by omega)]
    · by_cases h2 : j = s.len + t.length
      · subst h2
        rw [if_pos (by omega), if_pos rfl]
        rw [if_pos (by rw [List.length_append, e, List.length_drop]; omega)]
        rw [List.getElem?_append_right (l₂ := [some 0]) (by omega)]
        simp [e]
      · rw [if_neg (by omega)]
        symm
        rw [List.getElem?_eq_none_iff]
        simp; omega

theorem appendLen_holds (s : BcString) (bs t : Str) (h : Holds s bs) :
    ∃ s', s.appendLen t = .ok s' ∧ Holds s' (bs ++ t) := by
  obtain ⟨h1, h2, h3⟩ := h
  refine appendLen_raw s bs t h1 (by omega) ?_
  have := congrArg (List.take s.len) h3
  rw [List.take_take] at this
  rw [show min s.len (s.len + 1) = s.len by omega] at this
  rw [this, h1]
  simp

theorem appendC_eq (s : BcString) (c : Byte) : s.appendC c = s.appendLen [c] := by
  simp only [appendC, appendLen, memcpy, List.length_singleton]
  cases store (grow s.mem (s.len + 1)) s.len c <;> rfl

theorem new_holds : ∃ s, new = .ok s ∧ Holds s [] :=
  appendLen_raw { mem := [], len := 0 } [] [] rfl (by simp) rfl

end BcString

end Blogc
