import Verif.Lemmas.Run

/-!
# Two loops over one list

The renderer has two kinds of jumps backwards, one for the listing and one for the iterator, and
they can interleave in any way. Each loop has a start, given by the number of nodes from there to
the end, and a number of rounds left. The loop is counted if it started at or before the current
position. Whichever loop started first is the outer one.
-/

namespace Blogc.Render

/-- A loop: its start and its rounds; `rounds = 0` if it is not active. -/
structure Loop where
  start : Nat
  rounds : Nat

/-- Active and started at or before `t`. -/
def Loop.counted (t : Nat) (a : Loop) : Prop := 0 < a.rounds ∧ t ≤ a.start

instance (t : Nat) (a : Loop) : Decidable (a.counted t) := inferInstanceAs (Decidable (_ ∧ _))

/-- The measure. -/
abbrev M := Nat × Nat × Nat × Nat × Nat

def nested (t : Nat) (a b : Loop) : M := (2 * a.start, a.rounds, 2 * b.start, b.rounds, t)
def single (t : Nat) (a : Loop) : M := (2 * a.start, a.rounds, 2 * t + 1, 0, 0)
def free (t : Nat) : M := (2 * t + 1, 0, 0, 0, 0)

def measure (t : Nat) (a b : Loop) : M :=
  if a.counted t then
    if b.counted t then
      if b.start ≤ a.start then nested t a b else nested t b a
    else single t a
  else if b.counted t then single t b else free t

/-- The lexicographic order. -/
def Less (x y : M) : Prop :=
  x.1 < y.1 ∨ x.1 = y.1 ∧ (x.2.1 < y.2.1 ∨ x.2.1 = y.2.1 ∧ (x.2.2.1 < y.2.2.1 ∨ x.2.2.1 = y.2.2.1 ∧
    (x.2.2.2.1 < y.2.2.2.1 ∨ x.2.2.2.1 = y.2.2.2.1 ∧ x.2.2.2.2 < y.2.2.2.2)))

theorem less_wf : WellFounded Less := by
  refine Subrelation.wf (r := (Prod.lex Nat.lt_wfRel (Prod.lex Nat.lt_wfRel (Prod.lex Nat.lt_wfRel
    (Prod.lex Nat.lt_wfRel Nat.lt_wfRel)))).rel) ?_ (WellFoundedRelation.wf)
  rintro ⟨x1, x2, x3, x4, x5⟩ ⟨y1, y2, y3, y4, y5⟩ h
  simp only [Less] at h
  rcases h with h | ⟨rfl, h | ⟨rfl, h | ⟨rfl, h | ⟨rfl, h⟩⟩⟩⟩
  · exact Prod.Lex.left _ _ h
  · exact Prod.Lex.right _ (Prod.Lex.left _ _ h)
  · exact Prod.Lex.right _ (Prod.Lex.right _ (Prod.Lex.left _ _ h))
  · exact Prod.Lex.right _ (Prod.Lex.right _ (Prod.Lex.right _ (Prod.Lex.left _ _ h)))
  · exact Prod.Lex.right _ (Prod.Lex.right _ (Prod.Lex.right _ (Prod.Lex.right _ h)))

/-- The loops do not start at the same node. -/
def Apart (a b : Loop) : Prop := 0 < a.rounds → 0 < b.rounds → a.start ≠ b.start

theorem Apart.symm {a b : Loop} (h : Apart a b) : Apart b a := fun hb ha e => h ha hb e.symm

theorem measure_symm {t : Nat} {a b : Loop} (h : Apart a b) : measure t a b = measure t b a := by
  by_cases ha : a.counted t <;> by_cases hb : b.counted t <;> simp only [measure, ha, hb, if_true, if_false]
  have hne : a.start ≠ b.start := h ha.1 hb.1
  by_cases hle : b.start ≤ a.start
  · rw [if_pos hle, if_neg (by omega)]
  · rw [if_neg hle, if_pos (by omega)]

theorem measure_spec (t : Nat) (a b : Loop) :
    (a.counted t ∧ b.counted t ∧ b.start ≤ a.start ∧ measure t a b = nested t a b) ∨
    (a.counted t ∧ b.counted t ∧ a.start < b.start ∧ measure t a b = nested t b a) ∨
    (a.counted t ∧ ¬ b.counted t ∧ measure t a b = single t a) ∨
    (¬ a.counted t ∧ b.counted t ∧ measure t a b = single t b) ∨
    (¬ a.counted t ∧ ¬ b.counted t ∧ measure t a b = free t) := by
  by_cases ha : a.counted t <;> by_cases hb : b.counted t <;> simp only [measure, ha, hb, if_true, if_false]
  · by_cases hle : b.start ≤ a.start
    · left; simp [hle]
    · right; left; simp [hle]; omega
  all_goals simp

theorem move {t t' : Nat} (a b : Loop) (ht : t' < t) : Less (measure t' a b) (measure t a b) := by
  rcases measure_spec t' a b with h' | h' | h' | h' | h' <;> rcases measure_spec t a b with h | h | h | h | h <;>
    simp only [h, h'] <;> simp only [Less, nested, single, free, Loop.counted, true_and] at h h' ⊢ <;> omega

theorem jump {t : Nat} (a b : Loop) (hap : Apart a b) (hr : 1 < a.rounds) :
    Less (measure a.start ⟨a.start, a.rounds - 1⟩ b) (measure t a b) := by
  have hne : 0 < b.rounds → a.start ≠ b.start := hap (by omega)
  rcases measure_spec a.start ⟨a.start, a.rounds - 1⟩ b with h' | h' | h' | h' | h' <;>
    rcases measure_spec t a b with h | h | h | h | h <;>
    simp only [h, h'] <;> simp only [Less, nested, single, free, Loop.counted, true_and] at h h' ⊢ <;> omega

theorem finish {t t' : Nat} (s : Nat) (a b : Loop) (ht : t' < t) (hap : Apart a b) :
    Less (measure t' ⟨s, 0⟩ b) (measure t a b) := by
  unfold Apart at hap
  rcases measure_spec t' ⟨s, 0⟩ b with h' | h' | h' | h' | h' <;>
    rcases measure_spec t a b with h | h | h | h | h <;>
    simp only [h, h'] <;> simp only [Less, nested, single, free, Loop.counted, true_and] at h h' ⊢ <;> omega

theorem begin {t t' : Nat} (k : Nat) (a b : Loop) (ht : t' < t) (ha : a.rounds = 0)
    (hb : 0 < b.rounds → b.start ≠ t) : Less (measure t' ⟨t, k⟩ b) (measure t a b) := by
  rcases measure_spec t' ⟨t, k⟩ b with h' | h' | h' | h' | h' <;>
    rcases measure_spec t a b with h | h | h | h | h <;>
    simp only [h, h'] <;> simp only [Less, nested, single, free, Loop.counted, true_and] at h h' ⊢ <;> omega

end Blogc.Render

namespace Blogc

/-- A loop whose steps decrease a well-founded relation ends. -/
theorem runL_wf {σ ρ : Type u} {step : σ → Run (σ ⊕ ρ)} {A : Prop} {I : σ → Prop} {r : σ → σ → Prop}
    {P : ρ → Prop} (wf : WellFounded r)
    (hstep : ∀ s, I s → Run.Fine A (Sum.elim (fun s' => I s' ∧ r s' s) P) (step s)) :
    ∀ s, I s → ∃ n, Run.Fine A P (runL step n s) := by
  intro s
  induction s using wf.induction with
  | h s ih =>
    intro hI
    have := hstep s hI
    cases hs : step s with
    | ub => rw [hs] at this; exact ⟨1, by rw [runL, hs]; exact this⟩
    | out => rw [hs] at this; exact absurd this id
    | ok x =>
      rw [hs] at this
      cases x with
      | inl s' =>
        obtain ⟨n, hn⟩ := ih s' this.2 this.1
        exact ⟨n + 1, by rw [runL, hs]; exact hn⟩
      | inr v => exact ⟨1, by rw [runL, hs]; exact this⟩

end Blogc
