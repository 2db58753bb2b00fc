import Verif.Model.MakeRules

/-!
# C52: out-of-date outputs are rebuilt, and only those
-/

namespace Blogc.C52

open Blogc Blogc.Make

/-- The modification time, in nanoseconds since the epoch. -/
def mtime (f : FileCtx) : Int := f.sec * 1000000000 + f.nsec

/-- The nanoseconds of a file time are less than a second. -/
def TimeOk (f : FileCtx) : Prop := 0 ≤ f.nsec ∧ f.nsec < 1000000000

/-- The output is out of date with respect to its inputs: it is missing, or an
input is missing or was modified later. -/
def OutOfDate (inputs : List (Option FileCtx)) (output : FileCtx) : Prop :=
  output.readable = false ∨
  ∃ i ∈ inputs, ∀ f, i = some f → f.readable = false ∨ mtime output < mtime f

/-- The files that an output is made from: the settings, the template and the
listing entry when they are used, and the sources. -/
def inputsOf (settings template listingEntry : Option FileCtx) (sources : List (Option FileCtx)) :
    List (Option FileCtx) :=
  (settings.toList ++ template.toList ++ listingEntry.toList).map some ++ sources

/-- The times of all these files make sense. -/
def Times (inputs : List (Option FileCtx)) : Prop := ∀ f, some f ∈ inputs → TimeOk f

theorem one_eq (f : Option FileCtx) : one f = f.toList.map some := by
  cases f <;> rfl

theorem anyNewer_iff (o : FileCtx) (l : List (Option FileCtx)) :
    anyNewer o l = true ↔ ∃ i ∈ l, inputNewer i o = true := by
  induction l with
  | nil => simp [anyNewer]
  | cons s l ih =>
    rw [anyNewer]
    cases h : inputNewer s o <;> simp [h, ih]

theorem inputNewer_iff (i : Option FileCtx) (o : FileCtx) (ho : TimeOk o) (hi : ∀ f, i = some f → TimeOk f) :
    inputNewer i o = true ↔ ∀ f, i = some f → f.readable = false ∨ mtime o < mtime f := by
  cases i with
  | none => simp [inputNewer]
  | some f =>
    have hf := hi f rfl
    unfold TimeOk at hf ho
    simp only [inputNewer, Option.some.injEq, forall_eq', mtime]
    cases hr : f.readable with
    | false => simp
    | true =>
      by_cases hs : f.sec = o.sec
      · simp only [Bool.not_true, Bool.false_eq_true, if_false, hs, if_true, decide_eq_true_eq,
          Bool.true_eq_false, false_or]
        omega
      · simp only [Bool.not_true, Bool.false_eq_true, if_false, hs, decide_eq_true_eq,
          Bool.true_eq_false, false_or]
        omega

theorem relevant_all (l : List (Option FileCtx)) : relevant false l = l := by
  induction l with
  | nil => rfl
  | cons s l ih => simp [relevant, ih]

theorem relevant_first (l : List (Option FileCtx)) : relevant true l = l.take 1 := by
  cases l <;> simp [relevant]

/-- The property, for one output: it is rebuilt if and only if it is out of
date. -/
theorem rebuilt_iff (sources : List (Option FileCtx)) (settings listingEntry template : Option FileCtx)
    (o : FileCtx) (onlyFirst : Bool) (ho : TimeOk o)
    (ht : Times (inputsOf settings template listingEntry (if onlyFirst then sources.take 1 else sources))) :
    needRebuild sources settings listingEntry template (some o) onlyFirst = true ↔
      OutOfDate (inputsOf settings template listingEntry (if onlyFirst then sources.take 1 else sources)) o := by
  have hin : one settings ++ one template ++ one listingEntry ++ relevant onlyFirst sources =
      inputsOf settings template listingEntry (if onlyFirst then sources.take 1 else sources) := by
    simp only [one_eq, inputsOf, List.map_append]
    cases onlyFirst
    · rw [relevant_all]; rfl
    · rw [relevant_first]; rfl
  unfold needRebuild OutOfDate
  cases hr : o.readable with
  | false => simp [hr]
  | true =>
    simp only [hr, Bool.not_true, Bool.false_eq_true, if_false, Bool.true_eq_false, false_or]
    rw [hin, anyNewer_iff]
    constructor
    · rintro ⟨i, hi, h⟩
      exact ⟨i, hi, (inputNewer_iff i o ho (fun f hf => ht f (hf ▸ hi))).1 h⟩
    · rintro ⟨i, hi, h⟩
      exact ⟨i, hi, (inputNewer_iff i o ho (fun f hf => ht f (hf ▸ hi))).2 h⟩

/-! ## Whole rules -/

open Classical in
/-- What a rule does with its outputs: it builds, in order, exactly the outputs
that satisfy `P`; or, when building one of them fails, it stops there and reports
the failure. -/
def Builds (P : FileCtx → Prop) (exec : FileCtx → Int) (outputs : List (Option FileCtx))
    (r : List FileCtx × Int) : Prop :=
  let wanted := (outputs.filterMap id).filter (fun o => decide (P o))
  (r.2 = 0 ∧ r.1 = wanted ∧ ∀ o ∈ wanted, exec o = 0) ∨
  (∃ pre o post, wanted = pre ++ o :: post ∧ r.1 = pre ++ [o] ∧ (∀ p ∈ pre, exec p = 0) ∧
    exec o ≠ 0 ∧ r.2 = exec o)

theorem buildLoop_builds (need : FileCtx → Bool) (P : FileCtx → Prop) (exec : FileCtx → Int)
    (outputs : List (Option FileCtx)) (h : ∀ o, some o ∈ outputs → (need o = true ↔ P o)) :
    Builds P exec outputs (buildLoop need exec outputs) := by
  classical
  induction outputs with
  | nil => exact Or.inl ⟨rfl, rfl, by simp⟩
  | cons o l ih =>
    have ih := ih (fun o ho => h o (by simp [ho]))
    cases o with
    | none => simpa [Builds, buildLoop] using ih
    | some o =>
      have ho := h o (by simp)
      by_cases hn : need o = true
      · have hp := ho.1 hn
        by_cases he : exec o = 0
        · have hb : buildLoop need exec (some o :: l) =
              (o :: (buildLoop need exec l).1, (buildLoop need exec l).2) := by
            simp [buildLoop, hn, he]
          rw [hb]
          rcases ih with ⟨h1, h2, h3⟩ | ⟨pre, q, post, h1, h2, h3, h4, h5⟩
          · left
            refine ⟨h1, ?_, ?_⟩
            · simp [hp, h2]
            · simp only [List.filterMap_cons_some (f := id) (a := some o) (l := l) (b := o) rfl,
                List.filter_cons, hp, decide_true, if_true]
              intro q hq
              rcases List.mem_cons.1 hq with rfl | hq
              · exact he
              · exact h3 q hq
          · right
            refine ⟨o :: pre, q, post, ?_, by simp [h2], ?_, h4, h5⟩
            · simp only [List.filterMap_cons_some (f := id) (a := some o) (l := l) (b := o) rfl,
                List.filter_cons, hp, decide_true, if_true, h1, List.cons_append]
            · intro p hp'
              rcases List.mem_cons.1 hp' with rfl | hp'
              · exact he
              · exact h3 p hp'
        · right
          refine ⟨[], o, (l.filterMap id).filter (fun o => decide (P o)), ?_, ?_, by simp, he, ?_⟩
          · simp [hp]
          · simp [buildLoop, hn, he]
          · simp [buildLoop, hn, he]
      · have hp : ¬ P o := fun hp => hn (ho.2 hp)
        have hb : buildLoop need exec (some o :: l) = buildLoop need exec l := by
          simp [buildLoop, hn]
        rw [hb]
        simpa [Builds, hp] using ih

/-- The times of the outputs make sense. -/
def OutTimes (outputs : List (Option FileCtx)) : Prop := ∀ o, some o ∈ outputs → TimeOk o

/-- The property, for the rules `index`, `pagination`, `pagination_tags` and
`tags`: their pages are made from the settings, the main template, the listing
entry (if there is one) and all posts. -/
theorem listing_rule (c : Inputs) (exec : FileCtx → Int) (outputs : List (Option FileCtx))
    (hi : Times (inputsOf c.settings c.mainTemplate c.listingEntry c.posts)) (ho : OutTimes outputs) :
    Builds (OutOfDate (inputsOf c.settings c.mainTemplate c.listingEntry c.posts)) exec outputs
      (listingRule c exec outputs) :=
  buildLoop_builds _ _ _ _ fun o h => by
    have := rebuilt_iff c.posts c.settings c.listingEntry c.mainTemplate o false (ho o h) hi
    simpa using this

/-- The template of a feed: the configured one; the built-in template is part of
the program and not an input. -/
def feedTemplate (c : Inputs) : Option FileCtx := if c.atomTemplateTmp then none else c.atomTemplate

/-- The property, for the rules `atom` and `atom_tags`. -/
theorem atom_rule (c : Inputs) (exec : FileCtx → Int) (outputs : List (Option FileCtx))
    (hi : Times (inputsOf c.settings (feedTemplate c) none c.posts)) (ho : OutTimes outputs) :
    Builds (OutOfDate (inputsOf c.settings (feedTemplate c) none c.posts)) exec outputs
      (atomRule c exec outputs) :=
  buildLoop_builds _ _ _ _ fun o h => by
    have := rebuilt_iff c.posts c.settings none (feedTemplate c) o false (ho o h) hi
    simpa [feedTemplate] using this

/-- For rules with one output for each source: the outputs wanted, each with
its source and the sources after it. -/
def wantedPairs (P : Option FileCtx → FileCtx → Prop) [∀ s o, Decidable (P s o)] :
    List (Option FileCtx) → List (Option FileCtx) → List (List (Option FileCtx) × FileCtx)
  | s :: ss, o :: os =>
    (match o with
     | some o => if P s o then [(s :: ss, o)] else []
     | none => []) ++ wantedPairs P ss os
  | _, _ => []

open Classical in
/-- What such a rule does: like `Builds`, where each output has its own
source. -/
def BuildsPairs (P : Option FileCtx → FileCtx → Prop) (exec : List (Option FileCtx) → FileCtx → Int)
    (sources outputs : List (Option FileCtx)) (r : List FileCtx × Int) : Prop :=
  (r.2 = 0 ∧ r.1 = (wantedPairs P sources outputs).map (·.2) ∧
    ∀ p ∈ wantedPairs P sources outputs, exec p.1 p.2 = 0) ∨
  (∃ pre p post, wantedPairs P sources outputs = pre ++ p :: post ∧ r.1 = (pre ++ [p]).map (·.2) ∧
    (∀ q ∈ pre, exec q.1 q.2 = 0) ∧ exec p.1 p.2 ≠ 0 ∧ r.2 = exec p.1 p.2)

theorem pairLoop_builds (need : List (Option FileCtx) → FileCtx → Bool) (P : Option FileCtx → FileCtx → Prop)
    (exec : List (Option FileCtx) → FileCtx → Int) (outputs : List (Option FileCtx)) :
    ∀ (sources : List (Option FileCtx)),
    (∀ s ∈ sources, ∀ ss o, some o ∈ outputs → (need (s :: ss) o = true ↔ P s o)) →
    BuildsPairs P exec sources outputs (pairLoop need exec sources outputs) := by
  classical
  induction outputs with
  | nil =>
    intro sources _
    cases sources <;> simp [pairLoop, BuildsPairs, wantedPairs]
  | cons o os ih =>
    intro sources h
    cases sources with
    | nil => simp [pairLoop, BuildsPairs, wantedPairs]
    | cons s ss =>
      have ih := ih ss (fun s' hs' ss' o' ho' => h s' (by simp [hs']) ss' o' (by simp [ho']))
      cases o with
      | none => simpa [pairLoop, BuildsPairs, wantedPairs] using ih
      | some o =>
        have ho := h s (by simp) ss o (by simp)
        by_cases hn : need (s :: ss) o = true
        · have hp := ho.1 hn
          have hw : wantedPairs P (s :: ss) (some o :: os) = (s :: ss, o) :: wantedPairs P ss os := by
            simp [wantedPairs, hp]
          by_cases he : exec (s :: ss) o = 0
          · have hb : pairLoop need exec (s :: ss) (some o :: os) =
                (o :: (pairLoop need exec ss os).1, (pairLoop need exec ss os).2) := by
              simp [pairLoop, hn, he]
            rw [hb]
            unfold BuildsPairs
            rw [hw]
            rcases ih with ⟨h1, h2, h3⟩ | ⟨pre, p, post, h1, h2, h3, h4, h5⟩
            · refine Or.inl ⟨h1, by simp [h2], ?_⟩
              intro p hp'
              rcases List.mem_cons.1 hp' with rfl | hp'
              · exact he
              · exact h3 p hp'
            · refine Or.inr ⟨(s :: ss, o) :: pre, p, post, by simp [h1], by simp [h2], ?_, h4, h5⟩
              intro p hp'
              rcases List.mem_cons.1 hp' with rfl | hp'
              · exact he
              · exact h3 p hp'
          · have hb : pairLoop need exec (s :: ss) (some o :: os) = ([o], exec (s :: ss) o) := by
              simp [pairLoop, hn, he]
            rw [hb]
            exact Or.inr ⟨[], (s :: ss, o), wantedPairs P ss os, by simp [hw], rfl, by simp, he, rfl⟩
        · have hp : ¬ P s o := fun hp => hn (ho.2 hp)
          have hb : pairLoop need exec (s :: ss) (some o :: os) = pairLoop need exec ss os := by
            simp [pairLoop, hn]
          rw [hb]
          simpa [BuildsPairs, wantedPairs, hp] using ih

theorem times_take (settings template : Option FileCtx) (s : Option FileCtx) (sources ss : List (Option FileCtx))
    (hs : s ∈ sources) (hi : Times (inputsOf settings template none sources)) :
    Times (inputsOf settings template none (if true then (s :: ss).take 1 else s :: ss)) := by
  intro f hf
  apply hi f
  simp only [inputsOf, if_true, List.take_succ_cons, List.take_zero, List.mem_append] at hf ⊢
  rcases hf with hf | hf
  · exact Or.inl hf
  · exact Or.inr ((List.mem_singleton.1 hf) ▸ hs)

/-- The property, for the rules `posts` and `pages`: a page is made from the
settings, the main template and its own source, and no other. -/
theorem entry_rule (c : Inputs) (exec : List (Option FileCtx) → FileCtx → Int)
    (sources outputs : List (Option FileCtx))
    (hi : Times (inputsOf c.settings c.mainTemplate none sources)) (ho : OutTimes outputs) :
    BuildsPairs (fun s => OutOfDate (inputsOf c.settings c.mainTemplate none [s])) exec sources outputs
      (entryRule c exec sources outputs) :=
  pairLoop_builds _ _ _ _ _ fun s hs ss o h => by
    have := rebuilt_iff (s :: ss) c.settings none c.mainTemplate o true (ho o h)
      (times_take _ _ _ _ _ hs hi)
    simpa using this

/-- The property, for the rule `copy`. -/
theorem copy_rule (c : Inputs) (exec : List (Option FileCtx) → FileCtx → Int)
    (outputs : List (Option FileCtx))
    (hi : Times (inputsOf c.settings none none c.copy)) (ho : OutTimes outputs) :
    BuildsPairs (fun s => OutOfDate (inputsOf c.settings none none [s])) exec c.copy outputs
      (copyRule c exec outputs) :=
  pairLoop_builds _ _ _ _ _ fun s hs ss o h => by
    have := rebuilt_iff (s :: ss) c.settings none none o true (ho o h)
      (times_take _ _ _ _ _ hs hi)
    simpa using this

/-- Building twice: when every output was made after its inputs, nothing is
built again. -/
theorem nothing_to_do (c : Inputs) (exec : FileCtx → Int) (outputs : List (Option FileCtx))
    (hi : Times (inputsOf c.settings c.mainTemplate c.listingEntry c.posts)) (ho : OutTimes outputs)
    (hr : ∀ o, some o ∈ outputs → o.readable = true)
    (hall : ∀ i ∈ inputsOf c.settings c.mainTemplate c.listingEntry c.posts, ∃ f, i = some f ∧
      f.readable = true ∧ ∀ o, some o ∈ outputs → mtime f ≤ mtime o) :
    listingRule c exec outputs = ([], 0) := by
  have hno : ∀ o, some o ∈ outputs →
      ¬ OutOfDate (inputsOf c.settings c.mainTemplate c.listingEntry c.posts) o := by
    rintro o h (h1 | ⟨i, h1, h2⟩)
    · simp [hr o h] at h1
    · obtain ⟨f, rfl, hf, hm⟩ := hall i h1
      rcases h2 f rfl with h3 | h3
      · simp [hf] at h3
      · have := hm o h; omega
  have := listing_rule c exec outputs hi ho
  classical
  have hw : (outputs.filterMap id).filter
      (fun o => decide (OutOfDate (inputsOf c.settings c.mainTemplate c.listingEntry c.posts) o)) = [] := by
    rw [List.filter_eq_nil_iff]
    intro o h
    simp only [List.mem_filterMap, id] at h
    obtain ⟨_, h, rfl⟩ := h
    simp [hno o h]
  rcases this with ⟨h1, h2, -⟩ | ⟨pre, o, post, h1, -⟩
  · rw [hw] at h2
    exact Prod.ext h2 h1
  · rw [hw] at h1
    simp at h1

/-! ## A sample -/

def file (sec nsec : Int) : FileCtx := ⟨b!"/f", b!"f", none, sec, nsec, true⟩
def missing : FileCtx := ⟨b!"/f", b!"f", none, 0, 0, false⟩

/-- A page older than its second post by one nanosecond is rebuilt, one of the
same age is not. -/
def sample : Inputs :=
  { settings := some (file 100 0), mainTemplate := some (file 90 5), atomTemplate := none,
    atomTemplateTmp := true, listingEntry := none,
    posts := [some (file 100 1), some (file 100 7)], pages := [], copy := [] }

example : listingRule sample (fun _ => 0) [some (file 100 6), none, some (file 100 7), some missing] =
    ([file 100 6, missing], 0) := by decide
example : Times (inputsOf sample.settings sample.mainTemplate sample.listingEntry sample.posts) := by
  intro f hf
  simp only [sample, inputsOf, Option.toList, List.map_append, List.map_cons, List.map_nil, List.cons_append,
    List.nil_append, List.mem_cons, List.not_mem_nil, or_false, Option.some.injEq, List.append_nil] at hf
  rcases hf with rfl | rfl | rfl | rfl <;> simp [TimeOk, file]
example : OutOfDate (inputsOf sample.settings sample.mainTemplate none sample.posts) (file 100 6) :=
  Or.inr ⟨some (file 100 7), by decide, by rintro f ⟨⟩; exact Or.inr (by decide)⟩
example : entryRule sample (fun _ _ => 0) sample.posts [some (file 100 6), some (file 100 6)] =
    ([file 100 6], 0) := by decide

end Blogc.C52
