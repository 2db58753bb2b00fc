import Verif.Model.Render
import Verif.Lemmas.Trie
import Verif.Lemmas.Numbers
import Verif.Spec.Numeral
import Mathlib.Data.List.Induction

/-!
# Lemmas on variables
-/

namespace Blogc.Render

open Blogc Blogc.Spec

theorem isDigit_iff (c : Byte) : isDigit c = true ↔ Digit c := by
  simp [isDigit, Digit]

theorem readDigits_digits (s : Str) (acc : Nat) (h : ∀ c ∈ s, Digit c) :
    readDigits acc s = (s.foldl (fun n c => 10 * n + (c.toNat - 48)) acc, []) := by
  induction s generalizing acc with
  | nil => rfl
  | cons c s ih =>
    rw [readDigits, if_pos ((isDigit_iff c).mpr (h c List.mem_cons_self)),
      ih _ fun x hx => h x (List.mem_cons_of_mem _ hx), Nat.mul_comm acc 10]
    rfl

theorem digit_plain {c : Byte} (h : Digit c) : isSpace c = false ∧ (c == c!"-") = false ∧ (c == c!"+") = false := by
  have : ∀ n : Fin 256, Digit (UInt8.ofFin n) → isSpace (UInt8.ofFin n) = false ∧
      (UInt8.ofFin n == c!"-") = false ∧ (UInt8.ofFin n == c!"+") = false := by
    unfold Digit; decide +kernel
  exact this c.toFin h

theorem strtol_digits {s : Str} (h : Digits s) :
    strtol s = (min (2 ^ 63 - 1) (numeral s : Int), []) := by
  obtain ⟨hne, hd⟩ := h
  cases s with
  | nil => exact absurd rfl hne
  | cons c r =>
    have hc := hd c List.mem_cons_self
    obtain ⟨h1, h2, h3⟩ := digit_plain hc
    have hl : lstrip (c :: r) = c :: r := by simp [lstrip, h1]
    have hn : readNumber (c :: r) = some (false, numeral (c :: r), []) := by
      simp only [readNumber, hl, h2, h3]
      simp only [(isDigit_iff c).mpr hc, readDigits_digits _ _ hd]
      rfl
    simp [strtol, hn]

/-- The walk from the right stops at the character before the digits. -/
theorem walk_digits (pre : Str) (x : Byte) (ds post : Str) (hx : ¬ Digit x) (h : ∀ c ∈ ds, Digit c) :
    walk (pre ++ x :: (ds ++ post)) (pre.length + ds.length) = pre.length := by
  induction ds using List.reverseRecOn generalizing post with
  | nil => 
    cases hp : pre.length with
    | zero => rfl
    | succ n =>
      simp only [List.length_nil, Nat.add_zero, walk]
      have : (pre ++ x :: ([] ++ post))[n + 1]? = some x := by
        rw [List.getElem?_append_right (by omega), ← hp]; simp
      rw [this]
      simp only
      rw [if_neg (fun hd => hx ((isDigit_iff x).mp hd))]
  | append_singleton ds d ih =>
    have e : pre.length + (ds ++ [d]).length = (pre.length + ds.length) + 1 := by simp; omega
    rw [e, walk]
    have : (pre ++ x :: ((ds ++ [d]) ++ post))[pre.length + ds.length + 1]? = some d := by
      rw [List.getElem?_append_right (by omega),
        show pre.length + ds.length + 1 - pre.length = ds.length + 1 by omega, List.getElem?_cons_succ,
        List.append_assoc, List.getElem?_append_right (Nat.le_refl _)]
      simp
    rw [this]
    simp only
    rw [if_pos ((isDigit_iff d).mpr (h d (by simp)))]
    have := ih (d :: post) fun c hc => h c (List.mem_append_left _ hc)
    rw [List.append_assoc]
    exact this

theorem walk_lt (var : Str) (i : Nat) : walk var i ≤ i := by
  induction i with
  | zero => exact Nat.le_refl _
  | succ i ih =>
    rw [walk]
    split
    · split
      · omega
      · exact Nat.le_refl _
    · exact Nat.le_refl _

/-- A size is split off at the last underscore. -/
theorem splitSize_digits (name ds : Str) (h : Digits ds) :
    splitSize (name ++ c!"_" :: ds) = .ok (name, min (2 ^ 63 - 1) (numeral ds : Int)) := by
  have hlen : (name ++ c!"_" :: ds).length = name.length + ds.length + 1 := by simp; omega
  have hw := walk_digits name c!"_" ds [] (by unfold Digit; decide) h.2
  rw [List.append_nil] at hw
  have hd : 0 < ds.length := List.length_pos_iff.mpr h.1
  rw [splitSize, if_neg (by omega)]
  simp only [hlen, Nat.add_sub_cancel, hw]
  rw [if_pos]
  · rw [List.take_left]
    have : (name ++ c!"_" :: ds).drop (name.length + 1) = ds := by simp
    rw [this, strtol_digits h]
  · exact ⟨by simp, by omega⟩

end Blogc.Render
