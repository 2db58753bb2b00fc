import Verif.Model.MakeRules
import Verif.Props.C07

/-!
# C56: rule arguments are parsed as written
-/

namespace Blogc.C56

open Blogc Blogc.Make Blogc.Spec

/-- `k1=v1,k2=v2,...` -/
def written : List (Str × Str) → Str
  | [] => []
  | [kv] => kv.1 ++ c!"=" :: kv.2
  | kv :: l => kv.1 ++ c!"=" :: kv.2 ++ c!"," :: written l

/-- The arguments have no delimiters. -/
def Plain (l : List (Str × Str)) : Prop := ∀ kv ∈ l, c!"=" ∉ kv.1 ∧ c!"," ∉ kv.2

theorem strchr_none (c : Byte) (s : Str) (h : c ∉ s) : strchr c s = none := by
  induction s with
  | nil => rfl
  | cons x r ih =>
    simp only [List.mem_cons, not_or] at h
    rw [strchr, if_neg (Ne.symm h.1), ih h.2]; rfl

theorem strchr_append (c : Byte) (s r : Str) (h : c ∉ s) : strchr c (s ++ c :: r) = some (s, r) := by
  induction s with
  | nil => simp [strchr]
  | cons x s ih =>
    simp only [List.mem_cons, not_or] at h
    rw [List.cons_append, strchr, if_neg (Ne.symm h.1), ih h.2]; rfl

theorem strchr_length (c : Byte) (s a r : Str) (h : strchr c s = some (a, r)) : r.length < s.length := by
  induction s generalizing a with
  | nil => simp [strchr] at h
  | cons x s ih =>
    rw [strchr] at h
    split at h
    · simp only [Option.some.injEq, Prod.mk.injEq] at h
      simp [← h.2]
    · cases h' : strchr c s with
      | none => rw [h'] at h; simp at h
      | some p =>
        rw [h'] at h
        simp only [Option.map_some, Option.some.injEq, Prod.mk.injEq] at h
        have := ih p.1 (by rw [h', ← h.2])
        simp only [List.length_cons]
        omega

theorem parseArgsLoop_total (fuel : Nat) : ∀ (rv : Trie Str) (s : Str), s.length < fuel →
    (parseArgsLoop fuel rv s).isSome = true := by
  induction fuel with
  | zero => intro _ s h; omega
  | succ f ih =>
    intro rv s h
    rw [parseArgsLoop]
    cases h1 : strchr c!"=" s with
    | none => rfl
    | some p =>
      obtain ⟨k, r⟩ := p
      have l1 := strchr_length _ _ _ _ h1
      simp only
      cases h2 : strchr c!"," r with
      | none => rfl
      | some q =>
        obtain ⟨v, r'⟩ := q
        have l2 := strchr_length _ _ _ _ h2
        exact ih _ _ (by omega)

/-- Parsing always ends. -/
theorem parseArgs_total (s : Str) : (parseArgs s).isSome = true := by
  unfold parseArgs
  cases s with
  | nil => rfl
  | cons c s =>
    simp only
    split
    · rfl
    · exact parseArgsLoop_total _ _ _ (by omega)

theorem inserts_eq (rv : Trie Str) (l : List (Str × Str)) (x : List Str) :
    (l.foldl (fun st kv => let r := Trie.insert st.1 kv.1 kv.2; (r.1, st.2 ++ r.2)) (rv, x)).1 =
      l.foldl (fun t kv => set t kv.1 kv.2) rv := by
  induction l generalizing rv x with
  | nil => rfl
  | cons kv l ih => simp only [List.foldl_cons]; rw [ih]; rfl

theorem loop_written (l : List (Str × Str)) (h : Plain l) (hne : l ≠ []) : ∀ (fuel : Nat) (rv : Trie Str),
    (written l).length < fuel →
    parseArgsLoop fuel rv (written l) = some (some (l.foldl (fun t kv => set t kv.1 kv.2) rv)) := by
  induction l with
  | nil => exact absurd rfl hne
  | cons kv l ih =>
    intro fuel rv hf
    obtain ⟨h1, h2⟩ := h kv (by simp)
    cases fuel with
    | zero => omega
    | succ fuel =>
      rw [parseArgsLoop]
      cases l with
      | nil =>
        simp only [written, strchr_append _ _ _ h1, strchr_none _ _ h2, List.foldl_cons, List.foldl_nil]
      | cons kv' l =>
        have e : written (kv :: kv' :: l) = kv.1 ++ c!"=" :: (kv.2 ++ c!"," :: written (kv' :: l)) := by
          rw [written]; simp
          simp
        rw [e] at hf ⊢
        simp only [strchr_append _ _ _ h1, strchr_append _ _ _ h2]
        rw [ih (fun kv h' => h kv (by simp [h'])) (by simp)]
        · rfl
        · simp only [List.length_append, List.length_cons] at hf
          omega

/-- The property: the arguments written after the rule's name are the map of
these arguments; a later value of the same key wins. -/
theorem parsed (l : List (Str × Str)) (h : Plain l) (hne : l ≠ []) (hk : CKeys l) :
    ∃ t, parseArgs (c!":" :: written l) = some (some t) ∧
      ∀ k, NulFree k → t.lookup k = lastValue l k := by
  refine ⟨(Trie.inserts l).1, ?_, fun k hkf => C07.lookup_inserts l hk k hkf⟩
  unfold parseArgs
  simp only [ne_eq, not_true_eq_false, if_false]
  rw [loop_written l h hne _ _ (by omega)]
  unfold Trie.inserts
  rw [inserts_eq]

/-- The same for a rule given on the command line: its name is what is before
the first colon. -/
theorem rule_parsed (name : Str) (hn : c!":" ∉ name) (l : List (Str × Str)) (h : Plain l) (hne : l ≠ [])
    (hk : CKeys l) :
    ∃ t, ruleParts (name ++ c!":" :: written l) = some (name, some t) ∧
      ∀ k, NulFree k → t.lookup k = lastValue l k := by
  obtain ⟨t, h1, h2⟩ := parsed l h hne hk
  refine ⟨t, ?_, h2⟩
  unfold ruleParts
  rw [strchr_append _ _ _ hn]
  simp only [h1, Option.map_some]

/-- A rule without arguments. -/
theorem rule_plain (name : Str) (hn : c!":" ∉ name) : ruleParts name = some (name, none) := by
  unfold ruleParts
  rw [strchr_none _ _ hn]

/-- Something that is not an argument is reported, not guessed at: the rule then
runs without arguments. -/
theorem junk_rejected (l : List (Str × Str)) (h : Plain l) (junk : Str) (hj : c!"=" ∉ junk) :
    parseArgs (c!":" :: ((l.map fun kv => kv.1 ++ c!"=" :: kv.2 ++ [c!","]).flatten ++ junk)) = some none := by
  unfold parseArgs
  simp only [ne_eq, not_true_eq_false, if_false]
  have key : ∀ (l : List (Str × Str)), Plain l → ∀ (fuel : Nat) (rv : Trie Str),
      ((l.map fun kv => kv.1 ++ c!"=" :: kv.2 ++ [c!","]).flatten ++ junk).length < fuel →
      parseArgsLoop fuel rv ((l.map fun kv => kv.1 ++ c!"=" :: kv.2 ++ [c!","]).flatten ++ junk) = some none := by
    intro l
    induction l with
    | nil =>
      intro _ fuel rv hf
      cases fuel with
      | zero => omega
      | succ f =>
        rw [parseArgsLoop]
        simp only [List.map_nil, List.flatten_nil, List.nil_append, strchr_none _ _ hj]
    | cons kv l ih =>
      intro h fuel rv hf
      obtain ⟨h1, h2⟩ := h kv (by simp)
      cases fuel with
      | zero => omega
      | succ f =>
        rw [parseArgsLoop]
        have e : ((kv :: l).map fun kv => kv.1 ++ c!"=" :: kv.2 ++ [c!","]).flatten ++ junk =
            kv.1 ++ c!"=" :: (kv.2 ++ c!"," :: ((l.map fun kv => kv.1 ++ c!"=" :: kv.2 ++ [c!","]).flatten ++ junk)) := by
          simp
        rw [e] at hf ⊢
        simp only [strchr_append _ _ _ h1, strchr_append _ _ _ h2]
        apply ih (fun kv h' => h kv (by simp [h']))
        simp only [List.length_append, List.length_cons] at hf ⊢
        omega
  exact key l h _ _ (by omega)

/-! ## Samples -/

def sample : List (Str × Str) := [(b!"host", b!"0.0.0.0"), (b!"port", b!""), (b!"x", b!"a=b")]

example : written sample = b!"host=0.0.0.0,port=,x=a=b" := by decide
example : Plain sample ∧ CKeys sample := by
  constructor
  · intro kv h
    simp only [sample, List.mem_cons, List.not_mem_nil, or_false] at h
    rcases h with rfl | rfl | rfl <;> decide
  · intro kv h
    simp only [sample, List.mem_cons, List.not_mem_nil, or_false] at h
    rcases h with rfl | rfl | rfl <;> decide
example : (match ruleParts b!"runserver:host=0.0.0.0,port=,x=a=b" with
    | some (n, some t) => (n, t.lookup b!"host", t.lookup b!"port", t.lookup b!"x", t.lookup b!"y")
    | _ => default) = (b!"runserver", some b!"0.0.0.0", some b!"", some b!"a=b", none) := by decide
example : (match ruleParts b!"runserver:host=0.0.0.0,port" with
    | some (_, none) => true
    | _ => false) = true := by decide

end Blogc.C56
