import Verif.Model.Render
import Verif.Spec.Order

/-!
# C28: conditionals compare as documented
-/

namespace Blogc.C28

open Blogc Blogc.Template Blogc.Render Blogc.Spec

theorem before_cons (c : Byte) (a b : Str) : Before (c :: a) (c :: b) ↔ Before a b := by
  constructor
  · rintro (⟨x, r, h⟩ | ⟨p, x, y, r, s, h1, h2, h3⟩)
    · left; injection h with _ h; exact ⟨x, r, h⟩
    · right
      cases p with
      | nil =>
        injection h1 with h1; injection h2 with h2
        rw [← h1, ← h2] at h3; exact absurd h3 (by simp)
      | cons q p =>
        injection h1 with _ h1; injection h2 with _ h2
        exact ⟨p, x, y, r, s, h1, h2, h3⟩
  · rintro (⟨x, r, h⟩ | ⟨p, x, y, r, s, h1, h2, h3⟩)
    · left; exact ⟨x, r, by rw [h]; rfl⟩
    · right; exact ⟨c :: p, x, y, r, s, by rw [h1]; rfl, by rw [h2]; rfl, h3⟩

theorem before_diff {c d : Byte} (h : c ≠ d) (a b : Str) : Before (c :: a) (d :: b) ↔ c < d := by
  constructor
  · rintro (⟨x, r, e⟩ | ⟨p, x, y, r, s, h1, h2, h3⟩)
    · injection e with e; exact absurd e.symm h
    · cases p with
      | nil => injection h1 with h1; injection h2 with h2; rw [h1, h2]; exact h3
      | cons q p =>
        injection h1 with h1; injection h2 with h2
        exact absurd (h1.trans h2.symm) h
  · intro hlt; right; exact ⟨[], c, d, a, b, rfl, rfl, hlt⟩

theorem before_nil (a : Str) : ¬ Before a [] := by
  rintro (⟨x, r, h⟩ | ⟨p, x, y, r, s, h1, h2, h3⟩)
  · simp at h
  · simp at h2

theorem nil_before (c : Byte) (b : Str) : Before [] (c :: b) := Or.inl ⟨c, b, rfl⟩

/-- The result of `strcmp` in terms of the order of strings. -/
theorem strcmp_spec (a b : Str) :
    (strcmp a b = .lt ↔ Before a b) ∧ (strcmp a b = .gt ↔ Before b a) ∧ (strcmp a b = .eq ↔ a = b) := by
  induction a generalizing b with
  | nil =>
    cases b with
    | nil => simp [strcmp, before_nil]
    | cons d b => simp [strcmp, before_nil, nil_before]
  | cons c a ih =>
    cases b with
    | nil => simp [strcmp, before_nil, nil_before]
    | cons d b =>
      rw [strcmp]
      by_cases h1 : c < d
      · have hne : c ≠ d := by rintro rfl; exact absurd h1 (by simp)
        have h2 : ¬ d < c := by grind
        rw [if_pos h1, before_diff hne, before_diff hne.symm]
        simp [h1, h2, hne]
      · by_cases h2 : d < c
        · have hne : c ≠ d := by rintro rfl; exact absurd h2 (by simp)
          rw [if_neg h1, if_pos h2, before_diff hne, before_diff hne.symm]
          simp [h1, h2, hne]
        · have e : c = d := by grind
          subst e
          rw [if_neg h1, if_neg h2, before_cons, before_cons]
          simp [ih b]

/-- Exactly one of `<`, `==` and `>` holds. -/
theorem trichotomy (a b : Str) :
    (Before a b ∧ ¬ Before b a ∧ a ≠ b) ∨ (¬ Before a b ∧ Before b a ∧ a ≠ b) ∨
      (¬ Before a b ∧ ¬ Before b a ∧ a = b) := by
  obtain ⟨h1, h2, h3⟩ := strcmp_spec a b
  rw [← h1, ← h2, Ne, ← h3]
  cases strcmp a b <;> simp

/-- The operators that a template can have. -/
def operators : List Str := [b!"<", b!">", b!"<=", b!">=", b!"==", b!"!="]

/-- A comparison of two defined values is true exactly when it should be. -/
theorem compares (op : Str) (hop : op ∈ operators) (a b : Str) :
    compared (operator op) (some a) (some b) = true ↔ Compares op a b := by
  obtain ⟨h1, h2, h3⟩ := strcmp_spec a b
  simp only [compared, Compares]
  rw [← h1, ← h2, Ne, ← h3]
  simp only [operators, List.mem_cons, List.not_mem_nil, or_false] at hop
  rcases hop with rfl | rfl | rfl | rfl | rfl | rfl <;> cases strcmp a b <;> decide

/-- `<=`, `>=` and `!=` are the complements of `>`, `<` and `==`. -/
theorem complements (a b : Str) :
    (Compares b!"<=" a b ↔ ¬ Compares b!">" a b) ∧ (Compares b!">=" a b ↔ ¬ Compares b!"<" a b) ∧
      (Compares b!"!=" a b ↔ ¬ Compares b!"==" a b) := by
  rcases trichotomy a b with ⟨h1, h2, h3⟩ | ⟨h1, h2, h3⟩ | ⟨h1, h2, h3⟩ <;> simp [Compares, h1, h2] <;> exact h3

/-- A comparison with an undefined value is false, whatever the operator. -/
theorem undefined_false (op : Op) (a : Option Str) : compared op none a = false ∧ compared op a none = false := by
  cases a <;> exact ⟨rfl, rfl⟩

/-- The condition of `{% if NAME op "text" %}` holds exactly when `NAME` has a value that compares
with the text as the operator says. -/
theorem if_text {G L : Type} (E : Evaluator G L) (st : Render.St G L) (name op s : Str) (hop : op ∈ operators)
    (g : G) (a : Option Str) (ha : E.value st.global st.local st.item name = .ok (g, a)) :
    ∃ b, condition E st ⟨.if_, operator op, some name, some (b!"\"" ++ s ++ b!"\"")⟩ = .ok (g, b) ∧
      (b = true ↔ ∃ v, a = some v ∧ Compares op v s) := by
  have hne : operator op ≠ .none := by
    simp only [operators, List.mem_cons, List.not_mem_nil, or_false] at hop
    rcases hop with rfl | rfl | rfl | rfl | rfl | rfl <;> decide
  have hq : quoted (b!"\"" ++ s ++ b!"\"") = some s := by
    rw [quoted, if_pos]
    · simp
    · refine ⟨by simp, rfl, ?_⟩
      rw [List.getLast?_append]; rfl
  refine ⟨compared (operator op) a (some s), ?_, ?_⟩
  · simp only [condition, valueOf, ha, Res.bind, if_neg hne, operand, hq]
  · cases a with
    | none => simp [compared]
    | some v => rw [compares op hop]; simp

/-- The condition of `{% if NAME op OTHER %}` holds exactly when both have values that compare as
the operator says. -/
theorem if_variable {G L : Type} (E : Evaluator G L) (st : Render.St G L) (name op other : Str)
    (hop : op ∈ operators) (hq : quoted other = none)
    (g g' : G) (a b : Option Str) (ha : E.value st.global st.local st.item name = .ok (g, a))
    (hb : E.value g st.local st.item other = .ok (g', b)) :
    ∃ r, condition E st ⟨.if_, operator op, some name, some other⟩ = .ok (g', r) ∧
      (r = true ↔ ∃ v w, a = some v ∧ b = some w ∧ Compares op v w) := by
  have hne : operator op ≠ .none := by
    simp only [operators, List.mem_cons, List.not_mem_nil, or_false] at hop
    rcases hop with rfl | rfl | rfl | rfl | rfl | rfl <;> decide
  refine ⟨compared (operator op) a b, ?_, ?_⟩
  · simp only [condition, valueOf, ha, Res.bind, if_neg hne, operand, hq]
    rw [show E.value g (Render.St.local { st with global := g }) (Render.St.item { st with global := g }) other =
      .ok (g', b) from hb]
  · cases a with
    | none => simp [compared]
    | some v =>
      cases b with
      | none => simp [compared]
      | some w => rw [compares op hop]; simp

/-- Prefixes, bytes above 127, equal strings. -/
example : compared (operator b!"<") (some b!"ab") (some b!"abc") = true ∧
    compared (operator b!">=") (some [200]) (some b!"z") = true ∧
    compared (operator b!"!=") (some b!"a") (some b!"a") = false := by decide

example : b!"<=" ∈ operators := by decide

end Blogc.C28
