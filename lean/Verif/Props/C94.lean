import Verif.Model.MakeMain
import Verif.Model.Main
import Verif.Spec.MakeArgs
import Verif.Props.C55

/-!
# C94: blogc-make runs the rules it is asked for, with the settings it is given
-/

namespace Blogc.C94

open Blogc Blogc.MakeMain Blogc.MakeArgs

/-! ## The loop over the arguments -/

/-- The variables after an item. -/
def after (o : Opts) : Item → Opts
  | .dev => { o with dev := true }
  | .verbose => { o with verbose := true }
  | .file _ p => { o with blogcfile := some p }
  | .rule r => { o with rules := o.rules ++ [r] }

theorem loop_option (e : Bool) (c : Byte) (attached : Str) (rest : List Str) (o : Opts) :
    argLoop e false ((c!"-" :: c :: attached) :: rest) o =
      if c = c!"h" ∨ c = c!"v" then .error 0
      else if c = c!"D" then argLoop e false rest { o with dev := true }
      else if c = c!"V" then argLoop e false rest { o with verbose := true }
      else if c = c!"f" then
        if attached ≠ [] then argLoop e false rest { o with blogcfile := some attached }
        else argLoop e true rest o
      else if e ∧ c = c!"m" then argLoop e false rest o
      else .error 1 := by
  rw [argLoop, if_pos (by rfl)]
  rfl

theorem loop_item (e : Bool) (i : Item) (hi : i.Ok) (rest : List Str) (o : Opts) :
    argLoop e false (i.args ++ rest) o = argLoop e false rest (after o i) := by
  cases i with
  | dev => exact (loop_option e c!"D" [] rest o).trans rfl
  | verbose => exact (loop_option e c!"V" [] rest o).trans rfl
  | file j p =>
    cases j with
    | false =>
      refine (loop_option e c!"f" [] (p :: rest) o).trans ?_
      show argLoop e true (p :: rest) o = _
      rw [argLoop]
      rfl
    | true =>
      have hp : p ≠ [] := hi rfl
      refine (loop_option e c!"f" p rest o).trans ?_
      show (if p ≠ [] then _ else _) = _
      rw [if_pos hp]
      rfl
  | rule r =>
    show argLoop e false (r :: rest) o = _
    rw [argLoop, if_neg hi]
    rfl

theorem loop_items (e : Bool) (items : List Item) (hi : ∀ i ∈ items, i.Ok) (rest : List Str) (o : Opts) :
    argLoop e false (args items ++ rest) o = argLoop e false rest (items.foldl after o) := by
  induction items generalizing o with
  | nil => rfl
  | cons i items ih =>
    have h : args (i :: items) = i.args ++ args items := by simp [args]
    rw [h, List.append_assoc, loop_item e i (hi i (by simp)), ih (fun j hj => hi j (by simp [hj]))]
    rfl

theorem after_all (items : List Item) (o : Opts) :
    items.foldl after o =
      { rules := o.rules ++ items.filterMap Item.rule?
        verbose := o.verbose || decide (Item.verbose ∈ items)
        dev := o.dev || decide (Item.dev ∈ items)
        blogcfile := ((items.filterMap Item.file?).getLast?).or o.blogcfile } := by
  induction items generalizing o with
  | nil => simp
  | cons i items ih =>
    rw [List.foldl_cons, ih]
    cases i with
    | dev => simp [after, Item.rule?, Item.file?]; rfl
    | verbose => simp [after, Item.rule?, Item.file?]; rfl
    | rule r => simp [after, Item.rule?, Item.file?]
    | file j p =>
      have h : (Item.file j p :: items).filterMap Item.file? = p :: items.filterMap Item.file? := rfl
      rw [h, List.getLast?_cons]
      cases (items.filterMap Item.file?).getLast? <;> simp [after, Item.rule?] <;> rfl

/-! ## The property -/

/-- Whatever the order of options and rules on the command line: the settings are
those of the last file given (or of `blogcfile`), the options `-D` and `-V` hold if
they stand anywhere, and the requested rules are executed in the order given (or
else the rule `all`). Nothing is executed when the settings cannot be loaded, or
when they ask for make(1) and it is not there. -/
theorem plan_partial (e : Bool) (env : Env) (items : List Item) (hi : ∀ i ∈ items, i.Ok) :
    (env.load (file items) = none → plan e env (args items) = .exit 1) ∧
    (∀ fromMake, env.load (file items) = some fromMake →
      plan e env (args items) =
        if strToBool fromMake = true ∧ env.makeflags = false then .exit 1
        else .execute (file items) (decide (Item.dev ∈ items)) (decide (Item.verbose ∈ items)) (rules items)) := by
  have h := loop_items e items hi [] {}
  rw [List.append_nil, argLoop, after_all] at h
  have hr : (if items.filterMap Item.rule? = [] then [b!"all"] else items.filterMap Item.rule?) = rules items := by
    unfold rules
    cases items.filterMap Item.rule? <;> rfl
  have hp : plan e env (args items) =
      match env.load (file items) with
      | none => .exit 1
      | some fromMake =>
        if strToBool fromMake && !env.makeflags then .exit 1
        else .execute (file items) (decide (Item.dev ∈ items)) (decide (Item.verbose ∈ items)) (rules items) := by
    unfold plan
    rw [h]
    simp only [List.nil_append, Option.or_none, Bool.false_or, hr]
    rfl
  constructor
  · intro hl
    rw [hp, hl]
  · intro v hl
    rw [hp, hl]
    simp only [Bool.and_eq_true, Bool.not_eq_true']

/-- The options `-h` and `-v` end the program with status 0, and an unknown option
with status 1, before any rule is executed and whatever follows. -/
theorem stops (env : Env) (items : List Item) (hi : ∀ i ∈ items, i.Ok) (c : Byte) (more : Str)
    (rest : List Str) (hc : c ≠ c!"D" ∧ c ≠ c!"V" ∧ c ≠ c!"f") :
    plan false env (args items ++ (c!"-" :: c :: more) :: rest) =
      .exit (if c = c!"h" ∨ c = c!"v" then 0 else 1) := by
  unfold plan
  rw [loop_items false items hi, loop_option, if_neg hc.1, if_neg hc.2.1, if_neg hc.2.2,
    if_neg (show ¬ (false = true ∧ c = c!"m") by simp)]
  by_cases h : c = c!"h" ∨ c = c!"v"
  · rw [if_pos h, if_pos h]
  · rw [if_neg h, if_neg h]

/-- The rules are those of the manual. -/
theorem rule_names (name : Str) : name ∈ Make.ruleNames ↔ name ∈ manualRules :=
  ((by decide +kernel : List.Perm Make.ruleNames manualRules)).mem_iff

/-- The exit status when all requested rules exist: 0 if all of them succeed, and
else that of the first one that fails; those before it succeeded. -/
theorem status_partial (e : Bool) (env : Env)
    (run : (file : Str) → (dev verbose : Bool) → (i : Nat) → (name : Str) → Option (Trie Str) → Int)
    (items : List Item) (hi : ∀ i ∈ items, i.Ok) (fromMake : Option Str)
    (hl : env.load (file items) = some fromMake) (hm : strToBool fromMake = false ∨ env.makeflags = true)
    (hk : ∀ r ∈ rules items, ∃ name args, Make.ruleParts r = some (name, args) ∧ name ∈ manualRules) :
    let go := run (file items) (decide (Item.dev ∈ items)) (decide (Item.verbose ∈ items))
    (main e env run (args items) = some 0 ∧
      ∀ i r, (rules items)[i]? = some r → C55.Succeeds manualRules go i r) ∨
    (∃ i r name args, (rules items)[i]? = some r ∧ Make.ruleParts r = some (name, args) ∧ go i name args ≠ 0 ∧
      main e env run (MakeArgs.args items) = some (go i name args) ∧
      ∀ j r', j < i → (rules items)[j]? = some r' → C55.Succeeds manualRules go j r') := by
  intro go
  have h := (plan_partial e env items hi).2 fromMake hl
  rw [if_neg (by rcases hm with h | h <;> simp [h])] at h
  have h2 : main e env run (args items) = Make.executor Make.ruleNames go (rules items) := by
    unfold main
    rw [h]
  rw [h2]
  have hs : ∀ i r, C55.Succeeds Make.ruleNames go i r → C55.Succeeds manualRules go i r := by
    rintro i r ⟨name, args, h1, h2, h3⟩
    exact ⟨name, args, h1, (rule_names name).1 h2, h3⟩
  rcases C55.known_rules_partial Make.ruleNames go (rules items) (fun r hr => by
      obtain ⟨name, args, h1, h2⟩ := hk r hr
      exact ⟨name, args, h1, (rule_names name).2 h2⟩) with ⟨k1, k2⟩ | ⟨i, r, name, args, k1, k2, k3, k4, k5⟩
  · exact .inl ⟨k1, fun i r h => hs i r (k2 i r h)⟩
  · exact .inr ⟨i, r, name, args, k1, k2, k3, k4, fun j r' hj h => hs j r' (k5 j r' hj h)⟩

/-- `blogc -m` is blogc-make: with any arguments that do not begin with `-m`. -/
theorem embedded_partial (env : Env) (rest : List Str) (h : ∀ a ∈ rest, ¬ b!"-m" <+: a) :
    (∀ o, Main.argLoop true none (b!"-m" :: rest) o = .ok (.error .make)) ∧
    plan true env (b!"-m" :: rest) = plan false env rest := by
  constructor
  · intro o
    rfl
  · have key : ∀ (rest : List Str), (∀ a ∈ rest, ¬ b!"-m" <+: a) → ∀ (p : Bool) (o : Opts),
        argLoop true p rest o = argLoop false p rest o := by
      intro rest
      induction rest with
      | nil => intro _ p o; cases p <;> rfl
      | cons a rest ih =>
        intro h p o
        have ih := ih (fun b hb => h b (by simp [hb]))
        cases p with
        | true => rw [argLoop, argLoop, ih]
        | false =>
          cases a with
          | nil => rw [argLoop, argLoop, if_neg (by simp), if_neg (by simp), ih]
          | cons a0 a =>
            by_cases h0 : a0 = c!"-"
            · subst h0
              cases a with
              | nil => rfl
              | cons c more =>
                have hm : c ≠ c!"m" := by
                  rintro rfl
                  exact h _ (List.mem_cons_self ..) ⟨more, rfl⟩
                rw [loop_option, loop_option, ih, ih, ih, ih, if_neg (show ¬ (true = true ∧ c = c!"m") by simp [hm]),
                  if_neg (show ¬ (false = true ∧ c = c!"m") by simp)]
            · rw [argLoop, argLoop, if_neg (by simp [h0]), if_neg (by simp [h0]), ih]
    have h1 : argLoop true false (b!"-m" :: rest) {} = argLoop false false rest {} := by
      rw [← key rest h]
      exact loop_option true c!"m" [] rest {}
    unfold plan
    rw [h1]

/-- A missing file name is not reported: the file `blogcfile` is taken. -/
theorem missing_file_violated (env : Env) :
    plan false env [b!"clean", b!"-f"] = plan false env [b!"-f", b!"blogcfile", b!"clean"] := rfl

/-! ## Samples -/

def sample : List Item := [.rule b!"clean", .dev, .file true b!"a", .rule b!"all:x=1", .file false b!"-b"]

example : ∀ i ∈ sample, i.Ok := by decide
example : args sample = [b!"clean", b!"-D", b!"-fa", b!"all:x=1", b!"-f", b!"-b"] := by decide
example : file sample = b!"-b" ∧ rules sample = [b!"clean", b!"all:x=1"] := by decide
example : plan false ⟨fun _ => some none, false⟩ (args sample) =
    .execute b!"-b" true false [b!"clean", b!"all:x=1"] := by decide
example : ∀ r ∈ rules [Item.rule b!"clean"], ∃ name args,
    Make.ruleParts r = some (name, args) ∧ name ∈ manualRules := by
  intro r hr
  rw [List.mem_singleton.1 hr]
  exact ⟨_, _, C56.rule_plain b!"clean" (by decide), by decide⟩

end Blogc.C94
