import Verif.Props.C56

/-!
# C55: blogc-make reports failure of any requested rule
-/

namespace Blogc.C55

open Blogc Blogc.Make

/-- The request `r`, number `i`, names a rule of the table, and running this rule
succeeds. -/
def Succeeds (names : List Str) (run : Nat → Str → Option (Trie Str) → Int) (i : Nat) (r : Str) : Prop :=
  ∃ name args, ruleParts r = some (name, args) ∧ name ∈ names ∧ run i name args = 0

/-- The property: status 0 only if every requested rule exists and succeeded. -/
def Reported (names : List Str) (run : Nat → Str → Option (Trie Str) → Int) (rules : List Str) : Prop :=
  executor names run rules = some 0 → ∀ i r, rules[i]? = some r → Succeeds names run i r

/-- The property fails: an unknown rule is forgotten when another rule follows. -/
theorem reported_violated : ∃ run rules, ¬ Reported ruleNames run rules := by
  refine ⟨fun _ _ _ => 0, [b!"cleam", b!"all"], ?_⟩
  intro h
  obtain ⟨name, args, h1, h2, -⟩ := h (by decide) 0 b!"cleam" rfl
  have h3 := C56.rule_plain b!"cleam" (by decide)
  rw [h3] at h1
  simp only [Option.some.injEq, Prod.mk.injEq] at h1
  rw [← h1.1] at h2
  revert h2
  decide

theorem ruleParts_some (r : Str) : ∃ p, ruleParts r = some p := by
  unfold ruleParts
  cases h : strchr c!":" r with
  | none => exact ⟨_, rfl⟩
  | some p =>
    obtain ⟨name, rest⟩ := p
    have := C56.parseArgs_total (c!":" :: rest)
    obtain ⟨a, ha⟩ := Option.isSome_iff_exists.1 this
    exact ⟨(name, a), by simp [ha]⟩

/-- The executor always ends with a status. -/
theorem executor_total (names : List Str) (run : Nat → Str → Option (Trie Str) → Int) (rules : List Str) :
    (executor names run rules).isSome = true := by
  unfold executor
  generalize (0 : Nat) = i
  generalize (0 : Int) = rv
  induction rules generalizing i rv with
  | nil => rfl
  | cons r l ih =>
    rw [executorLoop]
    obtain ⟨⟨name, args⟩, h⟩ := ruleParts_some r
    rw [h]
    simp only
    split
    · split
      · rfl
      · exact ih _ _
    · exact ih _ _

/-- What is known after status 0, for the requests from number `i` on. -/
theorem loop_zero (names : List Str) (run : Nat → Str → Option (Trie Str) → Int) (rules : List Str) :
    ∀ (i : Nat) (rv : Int), executorLoop names run i rv rules = some 0 →
      (∀ j r, rules[j]? = some r → ∃ name args, ruleParts r = some (name, args) ∧
        (name ∈ names → run (i + j) name args = 0)) ∧
      (∀ r, rules.getLast? = some r → ∃ name args, ruleParts r = some (name, args) ∧ name ∈ names) := by
  induction rules with
  | nil => intro i rv h; simp
  | cons r l ih =>
    intro i rv h
    rw [executorLoop] at h
    obtain ⟨⟨name, args⟩, hp⟩ := ruleParts_some r
    rw [hp] at h
    simp only at h
    have key : ∀ rv', executorLoop names run (i + 1) rv' l = some 0 → (name ∈ names → run i name args = 0) →
        (l = [] → name ∈ names) →
        (∀ j r', (r :: l)[j]? = some r' → ∃ name args, ruleParts r' = some (name, args) ∧
          (name ∈ names → run (i + j) name args = 0)) ∧
        (∀ r', (r :: l).getLast? = some r' → ∃ name args, ruleParts r' = some (name, args) ∧ name ∈ names) := by
      intro rv' h1 h2 h3
      obtain ⟨a, b⟩ := ih (i + 1) rv' h1
      constructor
      · intro j r' hj
        cases j with
        | zero =>
          simp only [List.getElem?_cons_zero, Option.some.injEq] at hj
          subst hj
          exact ⟨name, args, hp, h2⟩
        | succ j =>
          obtain ⟨n', a', h4, h5⟩ := a j r' (by simpa using hj)
          exact ⟨n', a', h4, by rw [show i + (j + 1) = i + 1 + j by omega]; exact h5⟩
      · intro r' hr'
        cases l with
        | nil =>
          simp only [List.getLast?_singleton, Option.some.injEq] at hr'
          subst hr'
          exact ⟨name, args, hp, h3 rfl⟩
        | cons q l =>
          rw [List.getLast?_cons_cons] at hr'
          exact b r' hr'
    split at h
    · rename_i hmem
      split at h
      · rename_i hne
        simp only [Option.some.injEq] at h
        exact absurd h hne
      · rename_i hz
        exact key 0 h (fun _ => not_imp_comm.1 (fun h' => h') hz) (fun _ => hmem)
    · rename_i hmem
      refine key 1 h (fun hm => absurd hm hmem) ?_
      intro hl
      subst hl
      simp [executorLoop] at h

/-- Proved part: after status 0, every requested rule that exists was successful,
and the last one exists. Missing: unknown rules before the last one, see
`reported_violated`. -/
theorem reported_partial (names : List Str) (run : Nat → Str → Option (Trie Str) → Int) (rules : List Str)
    (h : executor names run rules = some 0) :
    (∀ i r, rules[i]? = some r → ∃ name args, ruleParts r = some (name, args) ∧
      (name ∈ names → run i name args = 0)) ∧
    (∀ r, rules.getLast? = some r → ∃ name args, ruleParts r = some (name, args) ∧ name ∈ names) := by
  have := loop_zero names run rules 0 0 h
  simpa using this

/-- Proved part: when all requested rules exist, the status is 0 exactly if all
of them succeed; and otherwise it is the status of the first that fails. -/
theorem known_rules_partial (names : List Str) (run : Nat → Str → Option (Trie Str) → Int) (rules : List Str)
    (hk : ∀ r ∈ rules, ∃ name args, ruleParts r = some (name, args) ∧ name ∈ names) :
    (executor names run rules = some 0 ∧ ∀ i r, rules[i]? = some r → Succeeds names run i r) ∨
    (∃ i r name args, rules[i]? = some r ∧ ruleParts r = some (name, args) ∧ run i name args ≠ 0 ∧
      executor names run rules = some (run i name args) ∧
      ∀ j r', j < i → rules[j]? = some r' → Succeeds names run j r') := by
  have key : ∀ (rules : List Str) (i : Nat),
      (∀ r ∈ rules, ∃ name args, ruleParts r = some (name, args) ∧ name ∈ names) →
      (executorLoop names run i 0 rules = some 0 ∧ ∀ j r, rules[j]? = some r → Succeeds names run (i + j) r) ∨
      (∃ j r name args, rules[j]? = some r ∧ ruleParts r = some (name, args) ∧ run (i + j) name args ≠ 0 ∧
        executorLoop names run i 0 rules = some (run (i + j) name args) ∧
        ∀ j' r', j' < j → rules[j']? = some r' → Succeeds names run (i + j') r') := by
    intro rules
    induction rules with
    | nil => intro i _; exact Or.inl ⟨rfl, by simp⟩
    | cons r l ih =>
      intro i hk
      obtain ⟨name, args, h1, h2⟩ := hk r (by simp)
      by_cases hz : run i name args = 0
      · have hs : Succeeds names run i r := ⟨name, args, h1, h2, hz⟩
        have he : executorLoop names run i 0 (r :: l) = executorLoop names run (i + 1) 0 l := by
          simp [executorLoop, h1, h2, hz]
        rw [he]
        rcases ih (i + 1) (fun r' h' => hk r' (by simp [h'])) with ⟨a, b⟩ | ⟨j, r', n', a', h3, h4, h5, h6, h7⟩
        · left
          refine ⟨a, fun j r' hj => ?_⟩
          cases j with
          | zero => simp only [List.getElem?_cons_zero, Option.some.injEq] at hj; exact hj ▸ hs
          | succ j =>
            have := b j r' (by simpa using hj)
            rwa [show i + (j + 1) = i + 1 + j by omega]
        · right
          refine ⟨j + 1, r', n', a', by simpa using h3, h4, ?_, ?_, ?_⟩
          · rwa [show i + (j + 1) = i + 1 + j by omega]
          · rwa [show i + (j + 1) = i + 1 + j by omega]
          · intro j' r'' hlt hj
            cases j' with
            | zero => simp only [List.getElem?_cons_zero, Option.some.injEq] at hj; exact hj ▸ hs
            | succ j' =>
              have := h7 j' r'' (by omega) (by simpa using hj)
              rwa [show i + (j' + 1) = i + 1 + j' by omega]
      · right
        refine ⟨0, r, name, args, rfl, h1, hz, ?_, fun j' _ h' => absurd h' (by omega)⟩
        simp [executorLoop, h1, h2, hz]
  have := key rules 0 hk
  simpa [executor] using this

/-- The rule `all` runs the build rules of the table, in order, until one fails;
its status is 0 exactly if all of them ran and succeeded. -/
theorem all_rule (run : Str → Int) (rules : List Str) :
    ((allLoop run rules).2 = 0 ↔ ∀ r ∈ rules, run r = 0) ∧
    (allLoop run rules).1 <+: rules ∧
    ((allLoop run rules).2 = 0 → (allLoop run rules).1 = rules) := by
  induction rules with
  | nil => simp [allLoop]
  | cons r l ih =>
    obtain ⟨h1, h2, h3⟩ := ih
    by_cases hz : run r = 0
    · simp only [allLoop, hz, ne_eq, not_true_eq_false, if_false]
      refine ⟨by simp [h1, hz], by simpa using h2, fun h => by rw [h3 h]⟩
    · simp only [allLoop, hz, ne_eq, not_false_eq_true, if_true]
      refine ⟨by simp [hz], by simp, fun h => h.elim⟩

/-! ## Samples -/

example : executor ruleNames (fun _ _ _ => 0) [b!"clean", b!"all:x=y"] = some 0 := by decide
example : executor ruleNames (fun i _ _ => if i = 1 then 3 else 0) [b!"clean", b!"all", b!"posts"] = some 3 := by
  decide
example : executor ruleNames (fun _ _ _ => 0) [b!"all", b!"cleam"] = some 1 := by decide

end Blogc.C55
