import Verif.Model.SysInfo
import Verif.Props.C08

/-!
# C63: repeated system information queries agree
-/

namespace Blogc.C63

open Blogc.Spec Blogc.SysInfo

/-- `/docker/` occurs in a text. -/
def Mentions (s : Str) : Prop := ∃ a b, s = a ++ b!"/docker/" ++ b

theorem contains_iff (sub s : Str) : contains sub s = true ↔ ∃ a b, s = a ++ sub ++ b := by
  induction s with
  | nil =>
    simp only [contains, List.isEmpty_iff]
    constructor
    · rintro rfl; exact ⟨[], [], rfl⟩
    · rintro ⟨a, b, h⟩
      have := congrArg List.length h
      simp only [List.length_append, List.length_nil] at this
      exact List.eq_nil_of_length_eq_zero (by omega)
  | cons c s ih =>
    simp only [contains, Bool.or_eq_true, ih, List.isPrefixOf_iff_prefix]
    constructor
    · rintro (⟨t, h⟩ | ⟨a, b, h⟩)
      · exact ⟨[], t, by simp [h]⟩
      · exact ⟨c :: a, b, by simp [h]⟩
    · rintro ⟨a, b, h⟩
      cases a with
      | nil => exact .inl ⟨b, by simp [h]⟩
      | cons x a =>
        injection h with h1 h2
        exact .inr ⟨a, b, h2⟩

/-- Once evaluated, the answer is the stored one. -/
theorem evaluated_same (fs : List (Option Str)) (b : Bool) :
    ∀ x ∈ queries fs ⟨true, b⟩, x = b := by
  induction fs with
  | nil => intro x hx; cases hx
  | cons f fs ih =>
    intro x hx
    simp only [queries, getInsideDocker, if_true, List.mem_cons] at hx
    rcases hx with h | h
    · exact h
    · exact ih x h

/-- All queries of a run agree, unless the first one finds `/docker/` in the
file. The full statement (without that condition) is false, see
`agree_violated`. -/
theorem agree_partial (f : Option Str) (fs : List (Option Str))
    (h : ∀ s, f = some s → ¬ Mentions (cstr s)) :
    ∀ x ∈ queries (f :: fs) .init, x = false := by
  intro x hx
  cases f with
  | none =>
    simp only [queries, getInsideDocker, Statics.init, List.mem_cons] at hx
    rcases hx with h | h
    · exact h
    · exact evaluated_same fs false x h
  | some s =>
    have hc : contains b!"/docker/" (cstr s) = false := by
      cases hb : contains b!"/docker/" (cstr s) with
      | false => rfl
      | true => exact absurd ((contains_iff _ _).1 hb) (h s rfl)
    simp only [queries, getInsideDocker, Statics.init, hc, List.mem_cons] at hx
    rcases hx with h | h
    · exact h
    · exact evaluated_same fs false x h

/-- In a container the first query answers yes and every later one answers no. -/
theorem agree_violated (s : Str) (h : Mentions (cstr s)) (n : Nat) :
    queries (List.replicate (n + 1) (some s)) .init = true :: List.replicate n false := by
  have hc := (contains_iff _ _).2 h
  have later : ∀ n, queries (List.replicate n (some s)) ⟨true, false⟩ = List.replicate n false := by
    intro n
    induction n with
    | zero => rfl
    | succ n ih => simp only [List.replicate_succ, queries, getInsideDocker, if_true, ih]
  rw [List.replicate_succ]
  simp only [queries, getInsideDocker, Statics.init, hc]
  exact congrArg (true :: ·) (later n)

/-- The two answers differ, for a concrete file. -/
theorem differ_violated : ∃ fs, ∃ x ∈ queries fs .init, ∃ y ∈ queries fs .init, x ≠ y :=
  ⟨[some b!"1:cpu:/docker/abc\n", some b!"1:cpu:/docker/abc\n"], true, by decide, false, by decide,
    by decide⟩

/-- The key of the template variable. -/
def name : Str := b!"BLOGC_SYSINFO_INSIDE_DOCKER"

theorem inject_insert (H : List (Str × Str)) (hH : CKeys H) :
    (((Trie.inserts H).1.insert name b!"1").1).lookup name = some b!"1" := by
  have e : ((Trie.inserts H).1.insert name b!"1").1 = (Trie.inserts (H ++ [(name, b!"1")])).1 := by
    simp [Trie.inserts, List.foldl_append]
  rw [e, C07.lookup_inserts]
  · simp [lastValue]
  · intro kv hkv
    rcases List.mem_append.1 hkv with h | h
    · exact hH kv h
    · simp only [List.mem_singleton] at h
      subst h
      show NulFree name
      decide
  · decide

/-- Once the variable has a value, evaluation leaves it alone. -/
theorem present_same (fs : List (Option Str)) (g : Trie Str) (st : Statics) (v : Str)
    (h : g.lookup name = some v) : ∀ x ∈ evaluations fs g st, x = some v := by
  induction fs with
  | nil => intro x hx; cases hx
  | cons f fs ih =>
    intro x hx
    have e : evalInsideDocker f g st = (g, st) := by
      unfold evalInsideDocker
      have h' : g.lookup b!"BLOGC_SYSINFO_INSIDE_DOCKER" = some v := h
      rw [h']
    simp only [evaluations, e, List.mem_cons] at hx
    rcases hx with hx | hx
    · rw [hx]; exact h
    · exact ih x hx

/-- An absent variable stays absent once the answer is no. -/
theorem absent_same (fs : List (Option Str)) (g : Trie Str)
    (h : g.lookup name = none) : ∀ x ∈ evaluations fs g ⟨true, false⟩, x = none := by
  induction fs with
  | nil => intro x hx; cases hx
  | cons f fs ih =>
    intro x hx
    have h' : g.lookup b!"BLOGC_SYSINFO_INSIDE_DOCKER" = none := h
    have e : evalInsideDocker f g ⟨true, false⟩ = (g, ⟨true, false⟩) := by
      unfold evalInsideDocker injectInsideDocker getInsideDocker
      simp [h']
    simp only [evaluations, e, List.mem_cons] at hx
    rcases hx with hx | hx
    · rw [hx]; exact h
    · exact ih x hx

/-- The template variable is not affected: whatever the file holds at each
evaluation, and whatever the variables defined before, all the uses of
`BLOGC_SYSINFO_INSIDE_DOCKER` in one run see the same value. -/
theorem variable_agrees (H : List (Str × Str)) (hH : CKeys H) (fs : List (Option Str)) :
    ∀ x ∈ evaluations fs (Trie.inserts H).1 .init,
    ∀ y ∈ evaluations fs (Trie.inserts H).1 .init, x = y := by
  cases fs with
  | nil => intro x hx; cases hx
  | cons f fs =>
    suffices h : ∃ v, ∀ x ∈ evaluations (f :: fs) (Trie.inserts H).1 .init, x = v by
      obtain ⟨v, h⟩ := h
      intro x hx y hy
      rw [h x hx, h y hy]
    cases hl : (Trie.inserts H).1.lookup name with
    | some v => exact ⟨some v, present_same (f :: fs) _ _ v hl⟩
    | none =>
      have hl' : (Trie.inserts H).1.lookup b!"BLOGC_SYSINFO_INSIDE_DOCKER" = none := hl
      have key : ∀ b st', getInsideDocker f .init = (b, st') → st' = ⟨true, false⟩ := by
        intro b st' h
        cases f with
        | none =>
          simp only [getInsideDocker, Statics.init] at h
          exact (Prod.mk.inj h).2.symm
        | some s =>
          simp only [getInsideDocker, Statics.init] at h
          exact (Prod.mk.inj h).2.symm
      cases hq : getInsideDocker f .init with
      | mk b st' =>
        have := key b st' hq
        subst this
        cases b with
        | true =>
          have e : evalInsideDocker f (Trie.inserts H).1 .init =
              (((Trie.inserts H).1.insert name b!"1").1, ⟨true, false⟩) := by
            unfold evalInsideDocker injectInsideDocker
            rw [hl', hq]
            rfl
          refine ⟨some b!"1", fun x hx => ?_⟩
          simp only [evaluations, e, List.mem_cons] at hx
          rcases hx with hx | hx
          · rw [hx]; exact inject_insert H hH
          · exact present_same fs _ _ _ (inject_insert H hH) x hx
        | false =>
          have e : evalInsideDocker f (Trie.inserts H).1 .init = ((Trie.inserts H).1, ⟨true, false⟩) := by
            unfold evalInsideDocker injectInsideDocker
            rw [hl', hq]
          refine ⟨none, fun x hx => ?_⟩
          simp only [evaluations, e, List.mem_cons] at hx
          rcases hx with hx | hx
          · rw [hx]; exact hl
          · exact absent_same fs _ hl x hx

/-! Non-vacuity. -/

example : ¬ Mentions (cstr b!"0::/\n") := by
  intro h
  exact absurd ((contains_iff _ _).2 h) (by decide)

example : Mentions (cstr b!"1:cpu:/docker/abc\n") := (contains_iff _ _).1 (by decide)

example : evaluations [some b!"1:cpu:/docker/abc\n", none, some b!""] (Trie.inserts [(b!"A", b!"b")]).1 .init
    = [some b!"1", some b!"1", some b!"1"] := by decide +kernel

end Blogc.C63
