import Verif.Lemmas.MakeMemoryRun

/-!
# Lemmas about what a whole run of blogc-make has in use
-/

namespace Blogc.MakeMem

open Blogc Blogc.Spec.MakeAccount

/-- The numbers of rules and of names only grow. -/
theorem argumentCount_le (e : Bool) : ∀ (args : List Str) (p : Bool) (n m : Nat),
    n ≤ (argumentCount e p n m args).1 ∧ m ≤ (argumentCount e p n m args).2
  | [], p, n, m => by cases p <;> simp [argumentCount]
  | _ :: rest, true, n, m => by
    have := argumentCount_le e rest false n (m + 1)
    rw [argumentCount]
    omega
  | a :: rest, false, n, m => by
    have h1 := argumentCount_le e rest false n m
    have h2 := argumentCount_le e rest false n (m + 1)
    have h3 := argumentCount_le e rest true n m
    have h4 := argumentCount_le e rest false (n + 1) m
    rw [argumentCount]
    split
    · split
      · exact ⟨Nat.le_refl _, Nat.le_refl _⟩
      · split
        · exact ⟨Nat.le_refl _, Nat.le_refl _⟩
        · split
          · exact h1
          · split
            · exact h1
            · split
              · split
                · omega
                · exact h3
              · split
                · exact h1
                · exact ⟨Nat.le_refl _, Nat.le_refl _⟩
    · omega

/-- What the arguments leave in use. -/
def kept (n n' m m' : Nat) : List Thing := numbered .rule n (n' - n) ++ numbered .blogcfile m (m' - m)

theorem kept_same (n m : Nat) : kept n n m m = [] := by simp [kept, numbered]

theorem mem_kept {n n' m m' : Nat} {x : Thing} :
    x ∈ kept n n' m m' ↔ (∃ i, n ≤ i ∧ i < n' ∧ .rule i = x) ∨ ∃ i, m ≤ i ∧ i < m' ∧ .blogcfile i = x := by
  rw [kept, List.mem_append, mem_numbered, mem_numbered]
  constructor
  · rintro (⟨i, h1, h2, h3⟩ | ⟨i, h1, h2, h3⟩)
    · exact .inl ⟨i, h1, by omega, h3⟩
    · exact .inr ⟨i, h1, by omega, h3⟩
  · rintro (⟨i, h1, h2, h3⟩ | ⟨i, h1, h2, h3⟩)
    · exact .inl ⟨i, h1, by omega, h3⟩
    · exact .inr ⟨i, h1, by omega, h3⟩

theorem kept_rule {n n' m m' : Nat} (h : n + 1 ≤ n') (l : InUse) :
    plus (plus l [.rule n]) (kept (n + 1) n' m m') = plus l (kept n n' m m') := by
  rw [plus_plus]
  refine plus_congr fun x => ?_
  rw [List.mem_append, List.mem_singleton, mem_kept, mem_kept]
  constructor
  · rintro (rfl | ⟨i, h1, h2, h3⟩ | h)
    · exact .inl ⟨n, by omega, by omega, rfl⟩
    · exact .inl ⟨i, by omega, h2, h3⟩
    · exact .inr h
  · rintro (⟨i, h1, h2, h3⟩ | h)
    · by_cases hi : i = n
      · exact .inl (by rw [← h3, hi])
      · exact .inr (.inl ⟨i, by omega, h2, h3⟩)
    · exact .inr (.inr h)

theorem kept_file {n n' m m' : Nat} (h : m + 1 ≤ m') (l : InUse) :
    plus (plus l [.blogcfile m]) (kept n n' (m + 1) m') = plus l (kept n n' m m') := by
  rw [plus_plus]
  refine plus_congr fun x => ?_
  rw [List.mem_append, List.mem_singleton, mem_kept, mem_kept]
  constructor
  · rintro (rfl | h | ⟨i, h1, h2, h3⟩)
    · exact .inr ⟨m, by omega, by omega, rfl⟩
    · exact .inl h
    · exact .inr ⟨i, by omega, h2, h3⟩
  · rintro (h | ⟨i, h1, h2, h3⟩)
    · exact .inr (.inl h)
    · by_cases hi : i = m
      · exact .inl (by rw [← h3, hi])
      · exact .inr (.inr ⟨i, by omega, h2, h3⟩)

theorem argumentEvents_ok (e : Bool) : ∀ (args : List Str) (p : Bool) (n m : Nat) (l : InUse),
    (∀ i, n ≤ i → l (.rule i) = false) → (∀ i, m ≤ i → l (.blogcfile i) = false) →
    inUse (argumentEvents e p n m args) l
      = some (plus l (kept n (argumentCount e p n m args).1 m (argumentCount e p n m args).2))
  | [], p, n, m, l, _, _ => by
    cases p <;> simp only [argumentEvents, argumentCount, kept_same, plus_nil] <;> rfl
  | _ :: rest, true, n, m, l, h1, h2 => by
    have hle := (argumentCount_le e rest false n (m + 1)).2
    rw [argumentEvents, argumentCount, ← kept_file hle]
    refine then_ok (a := [.acquire (.blogcfile m)]) (b := argumentEvents e false n (m + 1) rest)
      (acquire_one (h2 m (Nat.le_refl m))) (argumentEvents_ok e rest false n (m + 1) _ ?_ ?_)
    · exact fun i hi => plus_false.mpr ⟨h1 i hi, by simp⟩
    · exact fun i hi => plus_false.mpr ⟨h2 i (by omega), by simp; omega⟩
  | a :: rest, false, n, m, l, h1, h2 => by
    have r0 : inUse ([] : List Event) l = some (plus l (kept n n m m)) := by
      rw [kept_same, plus_nil]
      rfl
    have r1 := argumentEvents_ok e rest false n m l h1 h2
    have r2 := argumentEvents_ok e rest true n m l h1 h2
    have r3 : inUse (.acquire (.blogcfile m) :: argumentEvents e false n (m + 1) rest) l
        = some (plus l (kept n (argumentCount e false n (m + 1) rest).1 m (argumentCount e false n (m + 1) rest).2)) := by
      rw [← kept_file (argumentCount_le e rest false n (m + 1)).2]
      refine then_ok (a := [.acquire (.blogcfile m)]) (b := argumentEvents e false n (m + 1) rest)
        (acquire_one (h2 m (Nat.le_refl m))) (argumentEvents_ok e rest false n (m + 1) _ ?_ ?_)
      · exact fun i hi => plus_false.mpr ⟨h1 i hi, by simp⟩
      · exact fun i hi => plus_false.mpr ⟨h2 i (by omega), by simp; omega⟩
    have r4 : inUse (.acquire (.rule n) :: argumentEvents e false (n + 1) m rest) l
        = some (plus l (kept n (argumentCount e false (n + 1) m rest).1 m (argumentCount e false (n + 1) m rest).2)) := by
      rw [← kept_rule (argumentCount_le e rest false (n + 1) m).1]
      refine then_ok (a := [.acquire (.rule n)]) (b := argumentEvents e false (n + 1) m rest)
        (acquire_one (h1 n (Nat.le_refl n))) (argumentEvents_ok e rest false (n + 1) m _ ?_ ?_)
      · exact fun i hi => plus_false.mpr ⟨h1 i (by omega), by simp; omega⟩
      · exact fun i hi => plus_false.mpr ⟨h2 i hi, by simp⟩
    rw [argumentEvents, argumentCount]
    by_cases c1 : a.head? = some c!"-"
    · rw [if_pos c1, if_pos c1]
      cases a.tail with
      | nil => exact r0
      | cons c attached =>
        simp only
        by_cases c2 : c = c!"h" ∨ c = c!"v"
        · rw [if_pos c2, if_pos c2]; exact r0
        · rw [if_neg c2, if_neg c2]
          by_cases c3 : c = c!"D"
          · rw [if_pos c3, if_pos c3]; exact r1
          · rw [if_neg c3, if_neg c3]
            by_cases c4 : c = c!"V"
            · rw [if_pos c4, if_pos c4]; exact r1
            · rw [if_neg c4, if_neg c4]
              by_cases c5 : c = c!"f"
              · rw [if_pos c5, if_pos c5]
                by_cases c6 : attached ≠ []
                · rw [if_pos c6, if_pos c6]; exact r3
                · rw [if_neg c6, if_neg c6]; exact r2
              · rw [if_neg c5, if_neg c5]
                by_cases c7 : e = true ∧ c = c!"m"
                · rw [if_pos c7, if_pos c7]; exact r1
                · rw [if_neg c7, if_neg c7]; exact r0
    · rw [if_neg c1, if_neg c1]; exact r4

/-- The rules that are kept are those that are run. -/
theorem argumentCount_rules (e : Bool) : ∀ (args : List Str) (p : Bool) (o0 o : MakeMain.Opts) (m : Nat),
    MakeMain.argLoop e p args o0 = .ok o → (argumentCount e p o0.rules.length m args).1 = o.rules.length
  | [], p, o0, o, m, h => by
    cases p <;> simp only [MakeMain.argLoop, Except.ok.injEq] at h <;> simp [argumentCount, h]
  | v :: rest, true, o0, o, m, h => argumentCount_rules e rest false { o0 with blogcfile := some v } o (m + 1) h
  | a :: rest, false, o0, o, m, h => by
    rw [MakeMain.argLoop] at h
    rw [argumentCount]
    by_cases c1 : a.head? = some c!"-"
    · rw [if_pos c1] at h ⊢
      cases ht : a.tail with
      | nil => rw [ht] at h; cases h
      | cons c attached =>
        rw [ht] at h
        simp only at h ⊢
        by_cases c2 : c = c!"h" ∨ c = c!"v"
        · rw [if_pos c2] at h; cases h
        · rw [if_neg c2] at h ⊢
          by_cases c3 : c = c!"D"
          · rw [if_pos c3] at h ⊢; exact argumentCount_rules e rest false { o0 with dev := true } o m h
          · rw [if_neg c3] at h ⊢
            by_cases c4 : c = c!"V"
            · rw [if_pos c4] at h ⊢; exact argumentCount_rules e rest false { o0 with verbose := true } o m h
            · rw [if_neg c4] at h ⊢
              by_cases c5 : c = c!"f"
              · rw [if_pos c5] at h ⊢
                by_cases c6 : attached ≠ []
                · rw [if_pos c6] at h ⊢
                  exact argumentCount_rules e rest false { o0 with blogcfile := some attached } o (m + 1) h
                · rw [if_neg c6] at h ⊢; exact argumentCount_rules e rest true o0 o m h
              · rw [if_neg c5] at h ⊢
                by_cases c7 : e = true ∧ c = c!"m"
                · rw [if_pos c7] at h ⊢; exact argumentCount_rules e rest false o0 o m h
                · rw [if_neg c7] at h; cases h
    · rw [if_neg c1] at h ⊢
      have := argumentCount_rules e rest false { o0 with rules := o0.rules ++ [a] } o m h
      simpa using this

/-- The names of settings files that are not freed. -/
def lost (m : Nat) : List Thing := numbered .blogcfile 0 (m - 1)

theorem freeArguments_ok {l : InUse} (n m : Nat) (h1 : ∀ i, l (.rule i) = false) (h2 : ∀ i, l (.blogcfile i) = false) :
    inUse (freeArguments n m) (plus l (kept 0 n 0 m)) = some (plus l (lost m)) := by
  have s1 : inUse (freeContexts .rule 0 n) (plus l (kept 0 n 0 m)) = some (plus l (numbered .blogcfile 0 m)) := by
    rw [freeContexts_eq]
    refine releases_ok _ ?_ fun x hx => ?_
    · refine List.nodup_append.mpr ⟨nodup_numbered (fun a b e => Thing.rule.inj e) _ _,
        nodup_numbered (fun a b e => Thing.blogcfile.inj e) _ _, ?_⟩
      rintro a ha b hb rfl
      obtain ⟨i, _, _, rfl⟩ := mem_numbered.mp ha
      obtain ⟨j, _, _, h3⟩ := mem_numbered.mp hb
      cases h3
    · obtain ⟨i, _, _, rfl⟩ := mem_numbered.mp hx
      exact h1 i
  refine then_ok s1 ?_
  cases m with
  | zero => rfl
  | succ m =>
    have e : numbered .blogcfile 0 (m + 1) = numbered .blogcfile 0 m ++ [.blogcfile m] := by
      rw [numbered_add]
      simp [numbered]
    rw [e, ← plus_plus]
    refine release_one (plus_false.mpr ⟨h2 m, fun hm => ?_⟩)
    obtain ⟨i, _, h4, h5⟩ := mem_numbered.mp hm
    cases h5
    omega

theorem rulesOf_length (rules : List Str) : (rulesOf rules).length = if rules = [] then 1 else rules.length := by
  unfold rulesOf
  split <;> rfl

/-- The context at the end of a run. -/
def endCtx (w : World) (rules : List Str) (s : Shape) : Now × Bool := executorEnd w.runs ⟨0, s⟩ 0 (rulesOf rules)

/-- The rules that were run and keep their arguments. -/
def argsLeft (w : World) (rules : List Str) : List Thing :=
  match w.load.shape with
  | none => []
  | some s => if w.notMake then [] else (executed w.runs ⟨0, s⟩ 0 (rulesOf rules)).map .args

/-- What is in use when a run ends. -/
def remains (w : World) (rules : List Str) (m : Nat) : List Thing :=
  match w.load.shape with
  | none => lost m
  | some s =>
    if w.notMake then lost m
    else if (endCtx w rules s).2 then
      argsLeft w rules ++ kept 0 (rulesOf rules).length 0 m ++ outer ++ inner (endCtx w rules s).1.g (endCtx w rules s).1.s
    else argsLeft w rules ++ lost m

theorem kept_below (n m : Nat) : Below 6 (plus nothing (kept 0 n 0 m)) := by
  refine Below.plus (fun _ _ => rfl) fun x hx => ?_
  rcases mem_kept.mp hx with ⟨i, _, _, rfl⟩ | ⟨i, _, _, rfl⟩ <;> simp [lvl]

theorem kept_other {n m : Nat} {x : Thing} (h1 : ∀ i, x ≠ .rule i) (h2 : ∀ i, x ≠ .blogcfile i) :
    plus nothing (kept 0 n 0 m) x = false := by
  refine plus_false.mpr ⟨rfl, fun hx => ?_⟩
  rcases mem_kept.mp hx with ⟨i, _, _, rfl⟩ | ⟨i, _, _, rfl⟩
  · exact h1 i rfl
  · exact h2 i rfl

/-- What is in use when the settings were read. -/
def begun : Option Shape → InUse → InUse
  | none, l => plus l [.err]
  | some s, l => plus l (outer ++ inner 0 s)

theorem withArguments_ok (w : World) (rules : List Str) (m : Nat) :
    inUse (withArguments w rules m) (plus nothing (kept 0 rules.length 0 m)) = some (plus nothing (remains w rules m)) := by
  unfold withArguments
  have s1 : inUse (if rules = [] then [.acquire (.rule 0)] else []) (plus nothing (kept 0 rules.length 0 m))
      = some (plus nothing (kept 0 (rulesOf rules).length 0 m)) := by
    rw [rulesOf_length]
    split
    · next h =>
      subst h
      rw [acquire_one (plus_false.mpr ⟨rfl, fun hx => ?_⟩), ← kept_rule (n := 0) (n' := 1) (Nat.le_refl 1)]
      · rw [swap_plus]
        exact congrArg some (plus_congr fun x => by rw [mem_kept, mem_kept]; simp; omega)
      · rcases mem_kept.mp hx with ⟨i, _, h2, h3⟩ | ⟨i, _, _, h3⟩
        · simp at h2
        · cases h3
    · rfl
  generalize hL : (rulesOf rules).length = n at s1
  have s2 : Neutral (useName m) (plus nothing (kept 0 n 0 m)) := by
    cases m with
    | zero => rfl
    | succ m => exact neutral_use (plus_true.mpr (.inr (mem_kept.mpr (.inr ⟨m, by omega, by omega, rfl⟩)))) rfl
  have s3 : inUse (ctxNew .err 0 w.blogc w.runserver none w.load) (plus nothing (kept 0 n 0 m))
      = some (begun w.load.shape (plus nothing (kept 0 n 0 m))) := by
    cases hs : w.load.shape with
    | none =>
      exact ctxNew_fails ⟨.inl rfl, (kept_below n m).mono (by decide), kept_other (by simp) (by simp),
        kept_other (by simp) (by simp), kept_other (by simp) (by simp)⟩ _ _ _ hs
    | some s =>
      obtain ⟨keys, e⟩ : ∃ keys, w.load = .good keys s := by
        generalize w.load = load at hs
        cases load <;> simp [Load.shape] at hs
        exact ⟨_, by rw [hs]⟩
      rw [e]
      exact ctxNew_first (kept_below n m) _ _ keys s .err
  refine then_ok (then_ok (then_ok s1 s2) s3) ?_
  unfold remains
  cases hs : w.load.shape with
  | none =>
    simp only
    refine then_ok (a := [.use .err]) (neutral_use (plus_true.mpr (.inr (by simp))) rfl) ?_
    have s3 := freeArguments_ok (l := plus nothing [.err]) n m (fun i => plus_false.mpr ⟨rfl, by simp⟩)
      (fun i => plus_false.mpr ⟨rfl, by simp⟩)
    rw [swap_plus] at s3
    refine then_ok s3 ?_
    rw [swap_plus]
    refine release_one (plus_false.mpr ⟨rfl, fun hx => ?_⟩)
    obtain ⟨i, _, _, h3⟩ := mem_numbered.mp hx
    cases h3
  | some s =>
    simp only
    have hset : plus (plus nothing (kept 0 n 0 m)) (outer ++ inner 0 s) (.settings 0) = true :=
      plus_true.mpr (.inr (by simp [inner]))
    refine then_ok (a := [.use (.settings 0)]) (neutral_use hset rfl) ?_
    have hctx (xs : List Thing) (c : Now) (h5 : ∀ x ∈ xs, lvl x = 6) :
        ∀ x ∈ outer ++ inner c.g c.s, plus nothing xs x = false := by
      intro x hx
      refine plus_false.mpr ⟨rfl, fun hm => ?_⟩
      have := h5 x hm
      rcases List.mem_append.mp hx with ho | hi
      · have := outer_lvl ho; omega
      · have := inner_lvl hi; omega
    have hlost : ∀ x ∈ lost m, lvl x = 6 := by
      intro x hx
      obtain ⟨i, _, _, rfl⟩ := mem_numbered.mp hx
      rfl
    have hfree (xs : List Thing) (c : Now) (hargs : ∀ x ∈ xs, ∃ i, x = .args i) :
        inUse (freeArguments n m ++ freeCtx c.g c.s)
          (plus (plus nothing (xs ++ kept 0 n 0 m)) (outer ++ inner c.g c.s)) = some (plus nothing (xs ++ lost m)) := by
      have hno (x : Thing) (h1 : lvl x = 6) (h2 : ∀ i, x ≠ .args i) :
          plus (plus nothing xs) (outer ++ inner c.g c.s) x = false := by
        refine plus_false.mpr ⟨plus_false.mpr ⟨rfl, fun hm => ?_⟩, fun hx => ?_⟩
        · obtain ⟨i, hi⟩ := hargs x hm
          exact h2 i hi
        · rcases List.mem_append.mp hx with ho | hi
          · have := outer_lvl ho; omega
          · have := inner_lvl hi; omega
      have s3 := freeArguments_ok (l := plus (plus nothing xs) (outer ++ inner c.g c.s)) n m
        (fun i => hno _ rfl (by simp)) (fun i => hno _ rfl (by simp))
      rw [swap_plus, plus_plus nothing xs (kept 0 n 0 m), swap_plus (plus nothing xs), plus_plus nothing xs (lost m)] at s3
      refine then_ok s3 (freeCtx_ok (hctx _ c fun x hx => ?_))
      rcases List.mem_append.mp hx with h | h
      · obtain ⟨i, rfl⟩ := hargs x h
        rfl
      · exact hlost x h
    cases hm : w.notMake with
    | true => exact hfree [] ⟨0, s⟩ (by simp)
    | false =>
      simp only [Bool.false_eq_true, if_false]
      have hF : Frame (plus (plus nothing (kept 0 n 0 m)) outer) :=
        ⟨((kept_below n m).mono (by decide)).plus fun x hx => Nat.le_of_eq (outer_lvl hx).symm,
          fun x hx => plus_true.mpr (.inr hx)⟩
      have s3 := executor_ok w.runs (rulesOf rules) hF ⟨0, s⟩ 0
        (fun j _ => plus_false.mpr ⟨kept_other (by simp) (by simp), fun hx => by have := outer_lvl hx; simp [lvl] at this⟩)
        (fun j _ hj => plus_true.mpr (.inl (plus_true.mpr (.inr (mem_kept.mpr (.inl ⟨j, by omega, by omega, rfl⟩))))))
      rw [plus_plus] at s3
      have ea : argsLeft w rules = (executed w.runs ⟨0, s⟩ 0 (rulesOf rules)).map .args := by simp [argsLeft, hs, hm]
      rw [← ea] at s3
      have hargs : ∀ x ∈ argsLeft w rules, ∃ i, x = .args i := by
        rw [ea]
        intro x hx
        obtain ⟨i, _, rfl⟩ := List.mem_map.mp hx
        exact ⟨i, rfl⟩
      generalize hc : executorEnd w.runs ⟨0, s⟩ 0 (rulesOf rules) = r at s3
      have hr : endCtx w rules s = r := hc
      rw [hr, hL]
      obtain ⟨c, k⟩ := r
      have e2 : plus (plus (plus (plus nothing (kept 0 n 0 m)) outer) (argsLeft w rules)) (inner c.g c.s)
          = plus (plus nothing (argsLeft w rules ++ kept 0 n 0 m)) (outer ++ inner c.g c.s) := by
        rw [plus_plus, plus_plus, plus_plus, plus_plus]
        exact plus_congr fun x => by simp only [List.mem_append]; grind
      rw [e2] at s3
      refine then_ok s3 ?_
      cases k with
      | true =>
        simp only [if_true]
        rw [plus_plus, ← List.append_assoc]
        rfl
      | false =>
        simp only [Bool.false_eq_true, if_false]
        exact hfree _ c hargs

/-- What is in use when a whole run ends. -/
def leftOver (w : World) (args : List Str) : List Thing :=
  match MakeMain.argLoop w.embedded false args {} with
  | .error _ => lost (argumentCount w.embedded false 0 0 args).2
  | .ok o => remains w o.rules (argumentCount w.embedded false 0 0 args).2

theorem main_ok (w : World) (args : List Str) :
    inUse (mainEvents w args) nothing = some (plus nothing (leftOver w args)) := by
  have s1 := argumentEvents_ok w.embedded args false 0 0 nothing (fun _ _ => rfl) fun _ _ => rfl
  refine then_ok s1 ?_
  unfold leftOver
  cases ho : MakeMain.argLoop w.embedded false args {} with
  | error st => exact freeArguments_ok _ _ (fun _ => rfl) fun _ => rfl
  | ok o =>
    have := argumentCount_rules w.embedded args false {} o 0 ho
    simp only [List.length_nil] at this
    rw [this]
    exact withArguments_ok w o.rules _

end Blogc.MakeMem
