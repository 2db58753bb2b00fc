import Verif.Lemmas.MakeMemoryRules

/-!
# Lemmas about what a run of blogc-make has in use
-/

namespace Blogc.MakeMem

open Blogc Blogc.Spec.MakeAccount

/-! ## Cleaning -/

/-- The list of all built files, from number `k` on. -/
def builtList : Nat → List Bool → List Thing
  | _, [] => []
  | k, real :: r => (if real then [.out k] else []) ++ .fileNode k :: builtList (k + 1) r

theorem mem_outs_iff {k : Nat} {bs : List Bool} {x : Thing} :
    x ∈ outs k bs ↔ (∃ i, bs[i]? = some true ∧ x = .out (k + i)) ∨ x ∈ numbered .outNode k bs.length := by
  induction bs generalizing k with
  | nil => simp [outs, numbered]
  | cons b bs ih =>
    rw [outs, List.mem_append, List.mem_cons, ih, List.length_cons, numbered_succ, List.mem_cons]
    constructor
    · rintro (h | h | ⟨i, h1, h2⟩ | h)
      · cases b with
        | false => simp at h
        | true => exact .inl ⟨0, by simp, by simpa using h⟩
      · exact .inr (.inl h)
      · exact .inl ⟨i + 1, by simpa using h1, by rw [h2]; congr 1; omega⟩
      · exact .inr (.inr h)
    · rintro (⟨i, h1, h2⟩ | h | h)
      · cases i with
        | zero =>
          simp only [List.getElem?_cons_zero, Option.some.injEq] at h1
          subst h1
          exact .inl (by simpa using h2)
        | succ i => exact .inr (.inr (.inl ⟨i, by simpa using h1, by rw [h2]; congr 1; omega⟩))
      · exact .inr (.inl h)
      · exact .inr (.inr (.inr h))

theorem mem_builtList {k : Nat} {bs : List Bool} {x : Thing} :
    x ∈ builtList k bs ↔ (∃ i, bs[i]? = some true ∧ x = .out (k + i)) ∨ x ∈ numbered .fileNode k bs.length := by
  induction bs generalizing k with
  | nil => simp [builtList, numbered]
  | cons b bs ih =>
    rw [builtList, List.mem_append, List.mem_cons, ih, List.length_cons, numbered_succ, List.mem_cons]
    constructor
    · rintro (h | h | ⟨i, h1, h2⟩ | h)
      · cases b with
        | false => simp at h
        | true => exact .inl ⟨0, by simp, by simpa using h⟩
      · exact .inr (.inl h)
      · exact .inl ⟨i + 1, by simpa using h1, by rw [h2]; congr 1; omega⟩
      · exact .inr (.inr h)
    · rintro (⟨i, h1, h2⟩ | h | h)
      · cases i with
        | zero =>
          simp only [List.getElem?_cons_zero, Option.some.injEq] at h1
          subst h1
          exact .inl (by simpa using h2)
        | succ i => exact .inr (.inr (.inl ⟨i, by simpa using h1, by rw [h2]; congr 1; omega⟩))
      · exact .inr (.inl h)
      · exact .inr (.inr (.inr h))

theorem builtList_number {k : Nat} {bs : List Bool} {x : Thing} (h : x ∈ builtList k bs) :
    ∃ i, k ≤ i ∧ i < k + bs.length ∧ (x = .out i ∨ x = .fileNode i) := by
  rcases mem_builtList.mp h with ⟨i, h1, h2⟩ | h
  · have := (List.getElem?_eq_some_iff.mp h1).1
    exact ⟨k + i, by omega, by omega, .inl h2⟩
  · obtain ⟨i, h1, h2, h3⟩ := mem_numbered.mp h
    exact ⟨i, h1, h2, .inr h3.symm⟩

theorem builtList_nodup (k : Nat) (bs : List Bool) : (builtList k bs).Nodup := by
  induction bs generalizing k with
  | nil => simp [builtList]
  | cons b bs ih =>
    have h1 : ∀ x, (x = .out k ∨ x = .fileNode k) → x ∉ builtList (k + 1) bs := by
      intro x hx hm
      obtain ⟨i, h1, _, h3⟩ := builtList_number hm
      rcases hx with rfl | rfl <;> rcases h3 with h3 | h3 <;> simp at h3 <;> omega
    have h2 : (Thing.fileNode k :: builtList (k + 1) bs).Nodup := List.nodup_cons.mpr ⟨h1 _ (.inr rfl), ih (k + 1)⟩
    rw [builtList]
    cases b with
    | false => simpa using h2
    | true =>
      show (Thing.out k :: Thing.fileNode k :: builtList (k + 1) bs).Nodup
      exact List.nodup_cons.mpr ⟨by simp [h1 (.out k) (.inl rfl)], h2⟩

theorem builtList_append (k : Nat) (as bs : List Bool) :
    builtList k (as ++ bs) = builtList k as ++ builtList (k + as.length) bs := by
  induction as generalizing k with
  | nil => simp [builtList]
  | cons a as ih => simp [builtList, ih, Nat.add_assoc, Nat.add_comm 1]

theorem freeFiles_eq (k : Nat) (bs : List Bool) : freeFiles k bs = (builtList k bs).map .release := by
  induction bs generalizing k with
  | nil => rfl
  | cons b bs ih => cases b <;> simp [freeFiles, builtList, freeIf, ih]

theorem moveNodes_ok {l : InUse} (n : Nat) {k : Nat} (h1 : ∀ i, k ≤ i → i < k + n → l (.outNode i) = true)
    (h2 : ∀ i, k ≤ i → l (.fileNode i) = false) :
    inUse (moveNodes k n) l = some (plus l (numbered .fileNode k n)) := by
  induction n generalizing k l with
  | zero => exact congrArg some (plus_nil l).symm
  | succ n ih =>
    rw [moveNodes, numbered_succ]
    refine then_ok (a := [.use (.outNode k), .acquire (.fileNode k)]) (l' := plus l [.fileNode k]) ?_ ?_
    · exact then_ok (a := [.use (.outNode k)]) (neutral_use (h1 k (by omega) (by omega)) rfl)
        (acquire_one (h2 k (by omega)))
    · rw [ih (fun i hi hi' => plus_true.mpr (.inl (h1 i (by omega) (by omega)))) fun i hi => ?_, plus_plus]
      · rfl
      · exact plus_false.mpr ⟨h2 i (by omega), by simp; omega⟩

/-- No built file from number `k` on is in use. -/
def FilesFree (k : Nat) (l : InUse) : Prop := ∀ i, k ≤ i → l (.fileNode i) = false

theorem builtFiles_ok {c : Now} (bs : List Build) {l : InUse} (h : Holds c l) (hr : RuleFree l) {k : Nat}
    (hf : OutsFree k l) (hn : ∀ i, l (.outNode i) = false) (hff : FilesFree k l) :
    inUse (builtFiles c k bs) l = some (plus l (builtList k (bs.flatMap Build.outputs))) := by
  induction bs generalizing k l with
  | nil => exact congrArg some (plus_nil l).symm
  | cons b bs ih =>
    have s1 := outputList_ok h hr hf b
    have s2 := moveNodes_ok (l := plus l (outs k b.outputs)) b.outputs.length (k := k)
      (fun i h1 h2 => plus_true.mpr (.inr (mem_outs_iff.mpr (.inr (mem_numbered.mpr ⟨i, h1, h2, rfl⟩)))))
      (fun i hi => plus_false.mpr ⟨hff i hi, fun hm => by
        obtain ⟨j, _, _, h3⟩ := mem_outs hm
        simp at h3⟩)
    have e : plus (plus l (outs k b.outputs)) (numbered .fileNode k b.outputs.length)
        = plus l (numbered .outNode k b.outputs.length ++ builtList k b.outputs) := by
      rw [plus_plus]
      refine plus_congr fun x => ?_
      rw [List.mem_append, List.mem_append, mem_outs_iff, mem_builtList]
      grind
    rw [e] at s2
    have s3 : inUse (freeContexts .outNode k b.outputs.length)
        (plus l (numbered .outNode k b.outputs.length ++ builtList k b.outputs))
        = some (plus l (builtList k b.outputs)) := by
      rw [freeContexts_eq]
      refine releases_ok _ ?_ fun x hx => ?_
      · refine List.nodup_append.mpr ⟨nodup_numbered (fun a b e => Thing.outNode.inj e) _ _, builtList_nodup _ _, ?_⟩
        rintro a ha b hb rfl
        obtain ⟨i, _, _, rfl⟩ := mem_numbered.mp ha
        obtain ⟨j, _, _, h3⟩ := builtList_number hb
        simp at h3
      · obtain ⟨i, _, _, rfl⟩ := mem_numbered.mp hx
        exact hn i
    have s4 := ih (k := k + b.outputs.length) (l := plus l (builtList k b.outputs)) (h.plus _)
      (hr.plus fun x hx => by
        obtain ⟨i, _, _, h3⟩ := builtList_number hx
        exact ⟨i, by grind⟩)
      (fun i hi => ⟨plus_false.mpr ⟨(hf i (by omega)).1, fun hm => by
          obtain ⟨j, _, h2, h3⟩ := builtList_number hm
          simp at h3
          omega⟩, plus_false.mpr ⟨hn i, fun hm => by
          obtain ⟨j, _, h2, h3⟩ := builtList_number hm
          simp at h3⟩⟩)
      (fun i => plus_false.mpr ⟨hn i, fun hm => by
          obtain ⟨j, _, h2, h3⟩ := builtList_number hm
          simp at h3⟩)
      (fun i hi => plus_false.mpr ⟨hff i (by omega), fun hm => by
          obtain ⟨j, _, h2, h3⟩ := builtList_number hm
          simp at h3
          omega⟩)
    rw [plus_plus, ← builtList_append] at s4
    exact then_ok (then_ok (then_ok s1 s2) s3) s4

theorem emptyDir_ok {l : InUse} (h : l .dirHandle = false) (opened : Bool) : Neutral (emptyDir opened) l := by
  cases opened with
  | true => exact neutral_brief h
  | false => rfl

theorem removeFile_ok {l : InUse} (hb : Below 1 l) (ho : l .outDir = true) (r : Removed) :
    Neutral (removeFile r) l := by
  have h1 := hb .upShort (by decide)
  have h2 := hb .upDir (by decide)
  have h3 := hb .upTmp (by decide)
  have h4 := hb .dirHandle (by decide)
  have h5 := hb .rmErr (by decide)
  cases r with
  | unread => rfl
  | noUnlink => rfl
  | removed steps last =>
    have g1 : plus l [.upDir, .upShort] .dirHandle = false := plus_false.mpr ⟨h4, by simp⟩
    have g2 : plus l [.upDir, .upShort] .rmErr = false := plus_false.mpr ⟨h5, by simp⟩
    have g3 : plus l [.upDir, .upShort] .outDir = true := plus_true.mpr (.inl ho)
    have s1 : inUse [.acquire .upShort, .acquire .upDir] l = some (plus l [.upDir, .upShort]) := by
      have e : inUse [.acquire .upShort, .acquire .upDir] (plus l []) = some (plus l [.upDir, .upShort]) := by
        simp [do_acquire, h1, h2, inUse_nil]
      rwa [plus_nil] at e
    have s2 : Neutral (steps.flatMap upStep) (plus l [.upDir, .upShort]) := by
      refine neutral_flatMap fun b _ => ?_
      unfold upStep
      simp only [List.append_assoc]
      refine neutral_append (emptyDir_ok g1 b) ?_
      have e : plus l [.upDir, .upShort] = plus l [.upShort, .upDir] := plus_congr fun x => by simp [or_comm]
      simp [Neutral, turn, do_use, do_acquire, do_release, h1, h2, h3, ho, inUse_nil]
    have s3 : Neutral (upEnd last) (plus l [.upDir, .upShort]) := by
      cases last with
      | condition => rfl
      | err opened => exact neutral_append (emptyDir_ok g1 opened) (neutral_brief g2)
      | notEmpty => exact emptyDir_ok g1 true
      | noRemove opened => exact emptyDir_ok g1 opened
      | top opened => exact neutral_use g3 (emptyDir_ok g1 opened)
    refine then_ok (then_ok (then_ok s1 s2) s3) ?_
    simp [do_release, h1, h2, inUse_nil, plus_nil]

theorem cleanLoop_ok {l : InUse} (hb : Below 1 l) (ho : l .outDir = true) (rs : Nat → Removed) (bs : List Bool)
    {k : Nat} (h : ∀ x ∈ builtList k bs, l x = true) : Neutral (cleanLoop rs k bs) l := by
  induction bs generalizing k with
  | nil => rfl
  | cons b bs ih =>
    have hr := ih (k := k + 1) fun x hx => h x (by simp [builtList, hx])
    have hn : l (.fileNode k) = true := h _ (by simp [builtList])
    cases b with
    | false => exact neutral_use hn hr
    | true =>
      have hout : l (.out k) = true := h _ (by simp [builtList])
      refine neutral_append (neutral_append (neutral_use hn (neutral_use hout (neutral_use ho rfl)))
        (removeFile_ok hb ho (rs k))) ?_
      split
      · exact hr
      · rfl

theorem cleanExec_ok {c : Now} {l : InUse} (h : Holds c l) (hb : Below 2 l) (bs : List Build) (rs : Nat → Removed)
    (opened : Bool) : Neutral (cleanExec c bs rs opened) l := by
  have hl : ∀ x ∈ builtList 0 (bs.flatMap Build.outputs), lvl x = 1 := by
    intro x hx
    obtain ⟨i, _, _, rfl | rfl⟩ := builtList_number hx <;> rfl
  have s1 := builtFiles_ok (c := c) bs h (RuleFree.of_below hb) (OutsFree.of_below hb 0)
    (fun i => hb _ (by simp [lvl])) (fun i _ => hb _ (by simp [lvl]))
  have s2 : Neutral (cleanLoop rs 0 (bs.flatMap Build.outputs)) (plus l (builtList 0 (bs.flatMap Build.outputs))) :=
    cleanLoop_ok ((hb.mono (by decide)).plus fun x hx => Nat.le_of_eq (hl x hx).symm) (h.plus _).outDir rs _
      fun x hx => plus_true.mpr (.inr hx)
  have s3 : inUse (freeFiles 0 (bs.flatMap Build.outputs)) (plus l (builtList 0 (bs.flatMap Build.outputs)))
      = some l := by
    rw [freeFiles_eq]
    exact releases_all (builtList_nodup _ _) fun x hx => hb x (by rw [hl x hx]; decide)
  refine then_ok (then_ok (then_ok (then_ok s1 s2) s3) ?_) (emptyDir_ok (hb _ (by decide)) opened)
  exact neutral_use h.outDir rfl

/-! ## Watching -/

/-- Everything but the inner part of the context. -/
structure Frame (l : InUse) : Prop where
  below : Below 5 l
  outer : ∀ x ∈ outer, l x = true

theorem Frame.holds {l : InUse} (h : Frame l) (c : Now) : Holds c (plus l (inner c.g c.s)) :=
  ⟨plus_true.mpr (.inl (h.outer _ (by simp [MakeMem.outer]))),
   plus_true.mpr (.inl (h.outer _ (by simp [MakeMem.outer]))), fun _ hx => plus_true.mpr (.inr hx)⟩

theorem Frame.below4 {l : InUse} (h : Frame l) (c : Now) : Below 4 (plus l (inner c.g c.s)) :=
  (h.below.mono (by decide)).plus fun x hx => Nat.le_of_eq (inner_lvl hx).symm

theorem settings_not_inner {g g0 : Nat} {s0 : Shape} (h : g ≠ g0) : .settings g ∉ inner g0 s0 := by
  simp only [inner, List.mem_append, mem_numbered]
  cases s0.ownAtom <;> cases s0.entry <;> simp [h]

theorem atomFile_not_inner {g g0 : Nat} {s0 : Shape} (h : g ≠ g0) : .atomFile g ∉ inner g0 s0 := by
  simp only [inner, List.mem_append, mem_numbered]
  cases s0.ownAtom <;> cases s0.entry <;> simp [h]

/-- Reading the settings again: what the context holds is replaced, or all is as before. -/
theorem reload_ok {l : InUse} (h : Frame l) (c : Now) (re : Option Load) :
    inUse (reload c re) (plus l (inner c.g c.s))
      = some (match c.next re with
        | none => plus l (inner c.g c.s)
        | some c' => plus l (inner c'.g c'.s)) := by
  have hh := h.holds c
  have hb := h.below4 c
  cases re with
  | none => exact neutral_use hh.ctx (neutral_use hh.settingsFile (neutral_uses hh.files))
  | some load =>
    have hn : plus l (inner c.g c.s) .reloadName = false := hb _ (by decide)
    have s1 : inUse [.use .ctx, .use .settingsFile, .acquire .reloadName, .use .reloadName] (plus l (inner c.g c.s))
        = some (plus (plus l (inner c.g c.s)) [.reloadName]) := by
      refine then_ok (a := [.use .ctx, .use .settingsFile]) (neutral_use hh.ctx (neutral_use hh.settingsFile rfl)) ?_
      exact then_ok (a := [.acquire .reloadName]) (acquire_one hn) (neutral_use (plus_true.mpr (.inr (by simp))) rfl)
    have hnext : c.next (some load) = load.shape.map fun s => { g := c.g + 1, s := s } := rfl
    rw [hnext]
    cases hs : load.shape with
    | none =>
      simp only [reload, hs, Option.map_none]
      have he : plus l (inner c.g c.s) .reloadErr = false := hb _ (by decide)
      have hl4 (x : Thing) (hx : lvl x = 4) (hm : x ∉ inner c.g c.s) (hne : x ≠ .reloadName) :
          plus (plus l (inner c.g c.s)) [.reloadName] x = false :=
        plus_false.mpr ⟨plus_false.mpr ⟨h.below x (by omega), hm⟩, by simpa using hne⟩
      have s2 := ctxNew_fails (e := .reloadErr) (g := c.g + 1) (l := plus (plus l (inner c.g c.s)) [.reloadName])
        ⟨.inr rfl, (hb.mono (by decide)).plus (by simp [lvl]), plus_false.mpr ⟨he, by simp⟩,
          hl4 _ rfl (settings_not_inner (by omega)) (by simp), hl4 _ rfl (atomFile_not_inner (by omega)) (by simp)⟩
        ⟨false, false⟩ ⟨false, false⟩ (some (c.g, c.s)) hs
      have s3 : inUse [.release .reloadName] (plus (plus (plus l (inner c.g c.s)) [.reloadName]) [.reloadErr])
          = some (plus (plus l (inner c.g c.s)) [.reloadErr]) := by
        rw [swap_plus]
        exact release_one (plus_false.mpr ⟨hn, by simp⟩)
      refine then_ok (then_ok (then_ok s1 s2) s3) ?_
      exact then_ok (a := [.use .reloadErr]) (neutral_use (plus_true.mpr (.inr (by simp))) rfl) (release_one he)
    | some s =>
      obtain ⟨keys, rfl⟩ : ∃ keys, load = .good keys s := by
        cases load <;> simp [Load.shape] at hs
        exact ⟨_, by rw [hs]⟩
      simp only [reload, hs, Option.map_some, List.append_nil]
      rw [swap_plus] at s1
      have s2 := ctxNew_again (g0 := c.g) (g := c.g + 1) (l := plus l [.reloadName])
        ((h.below.mono (by decide)).plus (by simp [lvl]))
        (fun x hx => plus_false.mpr ⟨h.below x (by omega), by rintro hm; rw [List.mem_singleton] at hm; simp [hm, lvl] at hx⟩)
        (by omega) (plus_true.mpr (.inl (h.outer _ (by simp [MakeMem.outer])))) ⟨false, false⟩ ⟨false, false⟩ keys c.s s
        .reloadErr
      refine then_ok (then_ok s1 s2) ?_
      rw [swap_plus]
      refine release_one (plus_false.mpr ⟨h.below _ (by decide), fun hm => ?_⟩)
      have := inner_lvl hm
      simp [lvl] at this

theorem watchLoop_ok {l : InUse} (h : Frame l) (rs : List Round) (c : Now) :
    inUse (watchLoop c rs) (plus l (inner c.g c.s)) = some (plus l (inner (watchEnd c rs).g (watchEnd c rs).s)) := by
  induction rs generalizing c with
  | nil => rfl
  | cons r rs ih =>
    rw [watchLoop, watchEnd]
    have s1 := reload_ok h c r.reread
    cases hn : c.next r.reread with
    | none =>
      rw [hn] at s1
      simpa only [List.append_nil] using s1
    | some c' =>
      rw [hn] at s1
      exact then_ok s1 (then_ok (allExec_ok (h.holds c') ((h.below4 c').mono (by decide)) r.builds) (ih c'))

/-! ## The rules -/

theorem runRule_ok {l : InUse} (h : Frame l) (c : Now) (r : RuleRun) :
    inUse (runRule c r) (plus l (inner c.g c.s)) = some (plus l (inner (r.after c).g (r.after c).s)) := by
  have hh := h.holds c
  have hb := h.below4 c
  cases r with
  | build b => exact ruleExecute_ok hh (hb.mono (by decide)) b
  | all bs => exact allExec_ok hh (hb.mono (by decide)) bs
  | clean bs rs opened => exact cleanExec_ok hh (hb.mono (by decide)) bs rs opened
  | watch rounds killed good => exact watchLoop_ok h rounds c
  | atomDump =>
    refine neutral_use hh.ctx ?_
    have h1 := hb .feedUrl (by decide)
    have h2 := hb .postUrl (by decide)
    have h3 := hb .atomText (by decide)
    have h4 := hh.settings
    generalize plus l (inner c.g c.s) = m at h1 h2 h3 h4
    have e : Neutral (atomGenerate c.g ++ [.use .atomText, .release .atomText]) (plus m []) := by
      simp [Neutral, atomGenerate, do_use, do_acquire, do_release, h1, h2, h3, h4, inUse_nil]
    rwa [plus_nil] at e

theorem argPairs_ok {l : InUse} {i : Nat} (h1 : l (.args i) = true) (h2 : l .argKey = false) (fuel : Nat) (s : Str) :
    Neutral (argPairs i fuel s) l := by
  induction fuel generalizing s with
  | zero => rfl
  | succ fuel ih =>
    rw [argPairs]
    split
    · rfl
    · refine neutral_append (neutral_around (ev := [.use (.args i)]) h2 (neutral_use (plus_true.mpr (.inl h1)) rfl)) ?_
      split
      · rfl
      · exact ih _

theorem hasArgs_colon {r : Str} (h : Make.strchr c!":" r = none) : hasArgs r = false := by
  simp [hasArgs, Make.ruleParts, h]

theorem argEvents_ok {l : InUse} {i : Nat} (h1 : l (.args i) = false) (h2 : l .argKey = false) (r : Str) :
    inUse (argEvents i r) l = some (plus l (if hasArgs r then [.args i] else [])) := by
  unfold argEvents
  cases hc : Make.strchr c!":" r with
  | none =>
    rw [hasArgs_colon hc]
    exact congrArg some (plus_nil l).symm
  | some p =>
    obtain ⟨name, rest⟩ := p
    have s1 : inUse (.acquire (.args i) :: argPairs i (rest.length + 1) rest) l = some (plus l [.args i]) :=
      then_ok (a := [.acquire (.args i)]) (b := argPairs i (rest.length + 1) rest) (acquire_one h1)
        (argPairs_ok (l := plus l [.args i]) (plus_true.mpr (.inr (by simp))) (plus_false.mpr ⟨h2, by simp⟩) _ _)
    refine then_ok s1 ?_
    cases hasArgs r with
    | true => rfl
    | false =>
      simp only [Bool.false_eq_true, if_false, plus_nil]
      exact release_one h1

theorem Frame.plus {l : InUse} (h : Frame l) {xs : List Thing} (hx : ∀ x ∈ xs, 5 ≤ lvl x) : Frame (plus l xs) :=
  ⟨h.below.plus hx, fun x hm => plus_true.mpr (.inl (h.outer x hm))⟩

theorem executor_ok (runs : Nat → RuleRun) (rules : List Str) {l : InUse} (h : Frame l) (c : Now) (i : Nat)
    (ha : ∀ j, i ≤ j → l (.args j) = false) (hr : ∀ j, i ≤ j → j < i + rules.length → l (.rule j) = true) :
    inUse (executor runs c i rules) (plus l (inner c.g c.s))
      = some (plus (plus l ((executed runs c i rules).map .args))
        (inner (executorEnd runs c i rules).1.g (executorEnd runs c i rules).1.s)) := by
  induction rules generalizing l c i with
  | nil =>
    show some _ = some (plus (plus l []) _)
    rw [plus_nil]
    rfl
  | cons r rules ih =>
    have hi := ha i (Nat.le_refl i)
    have hni (x : Thing) (hx : lvl x ≠ 4) : x ∉ inner c.g c.s := fun hm => hx (inner_lvl hm)
    have s1 : inUse (.use (.rule i) :: argEvents i r) (plus l (inner c.g c.s))
        = some (plus (plus l (if hasArgs r then [.args i] else [])) (inner c.g c.s)) := by
      refine then_ok (a := [.use (.rule i)]) (b := argEvents i r)
        (neutral_use (plus_true.mpr (.inl (hr i (by omega) (by simp)))) rfl) ?_
      rw [argEvents_ok (plus_false.mpr ⟨hi, hni _ (by simp [lvl])⟩)
        (plus_false.mpr ⟨h.below _ (by decide), hni _ (by simp [lvl])⟩), swap_plus]
    generalize hxs : (if hasArgs r then [Thing.args i] else []) = xs at s1
    have hxm : ∀ x ∈ xs, x = .args i := by
      rw [← hxs]
      cases hasArgs r <;> simp
    have hF : Frame (plus l xs) := h.plus fun x hx => by rw [hxm x hx]; simp [lvl]
    have ha' : ∀ j, i + 1 ≤ j → plus l xs (.args j) = false := fun j hj =>
      plus_false.mpr ⟨ha j (by omega), fun hm => by have := hxm _ hm; simp at this; omega⟩
    have hr' : ∀ j, i + 1 ≤ j → j < i + 1 + rules.length → plus l xs (.rule j) = true := fun j h1 h2 =>
      plus_true.mpr (.inl (hr j (by omega) (by simp; omega)))
    have hmap : ∀ ys : List Nat, plus (plus l xs) (ys.map .args)
        = plus l (((if hasArgs r then [i] else []) ++ ys).map .args) := by
      intro ys
      rw [plus_plus, ← hxs]
      cases hasArgs r <;> simp
    rw [executor, executed, executorEnd]
    cases hrule : isRule r with
    | false =>
      simp only [Bool.false_eq_true, if_false]
      rw [← hmap]
      exact then_ok s1 (ih hF c (i + 1) ha' hr')
    | true =>
      simp only [if_true]
      have s2 := runRule_ok hF c (runs i)
      cases hflow : (runs i).flow c with
      | good =>
        simp only
        rw [← hmap]
        exact then_ok s1 (then_ok s2 (ih hF ((runs i).after c) (i + 1) ha' hr'))
      | bad =>
        simp only
        rw [← hmap, List.map_nil, plus_nil]
        exact then_ok s1 (then_ok s2 rfl)
      | killed =>
        simp only
        rw [← hmap, List.map_nil, plus_nil]
        exact then_ok s1 (then_ok s2 rfl)

end Blogc.MakeMem
