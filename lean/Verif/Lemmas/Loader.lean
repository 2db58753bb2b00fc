import Verif.Model.Loader
import Verif.Spec.Entries
import Verif.Lemmas.Trie
import Verif.Props.C02
import Verif.Props.C10

/-!
# Lemmas about the loader
-/

namespace Blogc.Loader

open Blogc Blogc.Spec.Entries

theorem first_occurrence {c : Byte} {a b x y : Str} (ha : c ∉ a) (hb : c ∉ b)
    (h : a ++ c :: x = b ++ c :: y) : a = b ∧ x = y := by
  induction a generalizing b with
  | nil =>
    cases b with
    | nil => simpa using h
    | cons d b =>
      simp only [List.nil_append, List.cons_append, List.cons.injEq] at h
      simp [← h.1] at hb
  | cons d a ih =>
    cases b with
    | nil =>
      simp only [List.nil_append, List.cons_append, List.cons.injEq] at h
      simp [h.1] at ha
    | cons e b =>
      simp only [List.cons_append, List.cons.injEq] at h
      simp only [List.mem_cons, not_or] at ha hb
      obtain ⟨h1, h2⟩ := ih ha.2 hb.2 h.2
      exact ⟨by rw [h.1, h1], h2⟩

theorem first_split {b : Byte} {q : Str} (h : b ∈ q) : ∃ q1 q2, q = q1 ++ b :: q2 ∧ b ∉ q1 := by
  induction q with
  | nil => simp at h
  | cons d q ih =>
    by_cases hd : d = b
    · subst hd; exact ⟨[], q, rfl, by simp⟩
    · have : b ∈ q := by
        rcases List.mem_cons.1 h with h | h
        · exact absurd h.symm hd
        · exact h
      obtain ⟨q1, q2, rfl, h1⟩ := ih this
      exact ⟨d :: q1, q2, rfl, by simp [h1, Ne.symm hd]⟩

theorem mem_splitAcc (c : Byte) (rest : Str) : ∀ (cur : Str) (n : Nat) (p : Str), c ∉ cur →
    (p ∈ C02.splitAcc c 0 rest cur n ↔ c ∉ p ∧ ∃ pre post, cur ++ rest = pre ++ p ++ post ∧
      (pre = [] ∨ ∃ q, pre = q ++ [c]) ∧ (post = [] ∨ ∃ q, post = c :: q)) := by
  induction rest with
  | nil =>
    intro cur n p hc
    simp only [C02.splitAcc, List.mem_singleton, List.append_nil]
    constructor
    · rintro rfl
      exact ⟨hc, [], [], by simp, Or.inl rfl, Or.inl rfl⟩
    · rintro ⟨-, pre, post, h, h1, h2⟩
      rcases h1 with rfl | ⟨q, rfl⟩
      · rcases h2 with rfl | ⟨q, rfl⟩
        · simpa using h.symm
        · exact absurd (by rw [h]; simp) hc
      · exact absurd (by rw [h]; simp) hc
  | cons b rest ih =>
    intro cur n p hc
    simp only [C02.splitAcc, true_or, and_true]
    by_cases hb : b = c
    · subst hb
      rw [if_pos rfl, List.mem_cons, ih [] (n + 1) p (by simp)]
      constructor
      · rintro (rfl | ⟨hp, pre, post, h, h1, h2⟩)
        · exact ⟨hc, [], b :: rest, by simp, Or.inl rfl, Or.inr ⟨rest, rfl⟩⟩
        · refine ⟨hp, cur ++ b :: pre, post, ?_, Or.inr ?_, h2⟩
          · simp only [List.nil_append] at h
            rw [h]; simp
          · rcases h1 with rfl | ⟨q, rfl⟩
            · exact ⟨cur, rfl⟩
            · exact ⟨cur ++ b :: q, by simp⟩
      · rintro ⟨hp, pre, post, h, h1, h2⟩
        rcases h1 with rfl | ⟨q, rfl⟩
        · left
          rcases h2 with rfl | ⟨q, rfl⟩
          · simp only [List.nil_append, List.append_nil] at h
            exact absurd (by rw [← h]; simp) hp
          · exact (first_occurrence hc hp h).1.symm
        · right
          refine ⟨hp, ?_⟩
          simp only [List.append_assoc, List.singleton_append] at h
          -- cur ++ b :: rest = q ++ b :: (p ++ post)
          by_cases hq : b ∈ q
          · obtain ⟨q1, q2, rfl, hq1⟩ := first_split hq
            simp only [List.append_assoc, List.cons_append] at h
            obtain ⟨rfl, h'⟩ := first_occurrence hc hq1 h
            exact ⟨q2 ++ [b], post, by simp [h'], Or.inr ⟨q2, rfl⟩, h2⟩
          · obtain ⟨rfl, h'⟩ := first_occurrence hc hq h
            exact ⟨[], post, by simp [h'], Or.inl rfl, h2⟩
    · rw [if_neg hb, ih (cur ++ [b]) n p (by simp [hc, Ne.symm hb])]
      simp

theorem mem_split (c : Byte) (s p : Str) (hp : p ≠ []) :
    p ∈ split s c 0 ↔ c ∉ p ∧ ∃ pre post, s = pre ++ p ++ post ∧
      (pre = [] ∨ ∃ q, pre = q ++ [c]) ∧ (post = [] ∨ ∃ q, post = c :: q) := by
  by_cases h : s = []
  · subst h
    simp [split, hp]
  · rw [C02.split_eq s c 0 h, mem_splitAcc c s [] 0 p (by simp)]
    simp

end Blogc.Loader

namespace Blogc.Loader

open Blogc Blogc.Spec.Entries

theorem lookup_set (t : Vars) (k k' v : Str) (hk : NulFree k) (hk' : NulFree k') :
    (set t k v).lookup k' = if k' = k then some v else t.lookup k' :=
  Trie.lookup_insert t k k' v hk hk'

theorem pageLoop_all (tag : Option Str) (a b : Nat) (l : List Vars) (c : Nat) :
    pageLoop tag false a b l c = (l.filter (tagOk tag), c) := by
  induction l generalizing c with
  | nil => rfl
  | cons s l ih =>
    simp only [pageLoop, ih]
    cases h : tagOk tag s <;> simp [h]

theorem pageLoop_paged (tag : Option Str) (a b : Nat) (hab : a ≤ b) (l : List Vars) (c : Nat) :
    pageLoop tag true a b l c =
      (((l.filter (tagOk tag)).take (b - c)).drop (a - c), c + (l.filter (tagOk tag)).length) := by
  induction l generalizing c with
  | nil => simp [pageLoop]
  | cons s l ih =>
    simp only [pageLoop]
    cases h : tagOk tag s with
    | false =>
      rw [List.filter_cons_of_neg (by simp [h])]
      simpa [h] using ih c
    | true =>
      rw [List.filter_cons_of_pos h]
      simp only [Bool.not_true, Bool.false_eq_true, if_false, if_true, ih]
      by_cases h1 : c < a
      · rw [if_pos (Or.inl h1)]
        obtain ⟨x, hx⟩ : ∃ x, b - c = x + 1 := ⟨b - c - 1, by omega⟩
        obtain ⟨y, hy⟩ : ∃ y, a - c = y + 1 := ⟨a - c - 1, by omega⟩
        have e1 : b - (c + 1) = x := by omega
        have e2 : a - (c + 1) = y := by omega
        rw [hx, hy, e1, e2]
        simp only [List.take_succ_cons, List.drop_succ_cons, List.length_cons]
        congr 1
        omega
      · by_cases h2 : c ≥ b
        · rw [if_pos (Or.inr h2)]
          have e1 : b - c = 0 := by omega
          have e2 : b - (c + 1) = 0 := by omega
          rw [e1, e2]
          simp
          omega
        · rw [if_neg (by omega)]
          obtain ⟨x, hx⟩ : ∃ x, b - c = x + 1 := ⟨b - c - 1, by omega⟩
          have e1 : b - (c + 1) = x := by omega
          have e2 : a - c = 0 := by omega
          have e3 : a - (c + 1) = 0 := by omega
          rw [hx, e1, e2, e3]
          simp only [List.take_succ_cons, List.drop_zero, List.length_cons]
          congr 1
          omega

/-- The names set from the first and last entries. -/
def edgeNames : List Str := [b!"DATE_FIRST", b!"FILENAME_FIRST", b!"DATE_LAST", b!"FILENAME_LAST"]

theorem edgeNames_nulFree : ∀ n ∈ edgeNames, NulFree n := by decide

theorem lookup_copyVar (conf s : Vars) (src dst k : Str) (hd : NulFree dst) (hk : NulFree k)
    (h : k ≠ dst) : (copyVar conf s src dst).lookup k = conf.lookup k := by
  unfold copyVar
  split
  · rw [lookup_set _ _ _ _ hd hk, if_neg h]
  · rfl

theorem lookup_firstLast (first : Bool) (l : List Vars) (conf : Vars) (k : Str) (hk : NulFree k)
    (h : k ∉ edgeNames) : (firstLast first l conf).lookup k = conf.lookup k := by
  simp only [edgeNames, List.mem_cons, List.not_mem_nil, or_false, not_or] at h
  obtain ⟨h1, h2, h3, h4⟩ := h
  induction l generalizing first conf with
  | nil => rfl
  | cons s l ih =>
    simp only [firstLast]
    rw [ih]
    have n1 : NulFree b!"DATE_FIRST" := by decide
    have n2 : NulFree b!"FILENAME_FIRST" := by decide
    have n3 : NulFree b!"DATE_LAST" := by decide
    have n4 : NulFree b!"FILENAME_LAST" := by decide
    have a1 : ∀ c : Vars, (copyVar (copyVar c s b!"DATE" b!"DATE_LAST") s b!"FILENAME" b!"FILENAME_LAST").lookup k =
        c.lookup k := by
      intro c
      rw [lookup_copyVar _ _ _ _ _ n4 hk h4, lookup_copyVar _ _ _ _ _ n3 hk h3]
    have a2 : ∀ c : Vars, (copyVar (copyVar c s b!"DATE" b!"DATE_FIRST") s b!"FILENAME" b!"FILENAME_FIRST").lookup k =
        c.lookup k := by
      intro c
      rw [lookup_copyVar _ _ _ _ _ n2 hk h2, lookup_copyVar _ _ _ _ _ n1 hk h1]
    cases l.isEmpty <;> cases first <;> simp [a1, a2]

/-- Loading depends on the global table through a few variables only. -/
theorem fromFiles_congr (env : Env) (conf conf' : Vars) (l : List Str)
    (h1 : conf'.lookup b!"FILTER_SORT" = conf.lookup b!"FILTER_SORT")
    (h2 : conf'.lookup b!"TOCTREE_MAXDEPTH" = conf.lookup b!"TOCTREE_MAXDEPTH")
    (h3 : conf'.lookup b!"FILTER_REVERSE" = conf.lookup b!"FILTER_REVERSE") :
    (fromFiles env conf l = .ok none ∧ fromFiles env conf' l = .ok none) ∨
    (fromFiles env conf l = .ub ∧ fromFiles env conf' l = .ub) ∨
    ∃ srcs, fromFiles env conf l = (select conf srcs).map some ∧
      fromFiles env conf' l = (select conf' srcs).map some := by
  unfold fromFiles
  rw [h1, h2, h3]
  simp only
  split
  · left; exact ⟨rfl, rfl⟩
  · split
    · left; exact ⟨rfl, rfl⟩
    · cases order _ _ _ with
      | ub => right; left; exact ⟨rfl, rfl⟩
      | ok srcs =>
        right; right
        refine ⟨srcs, ?_, ?_⟩
        · simp only [Res.bind_ok]
          cases select conf srcs <;> rfl
        · simp only [Res.bind_ok]
          cases select conf' srcs <;> rfl

end Blogc.Loader
