import Verif.Lemmas.MakeMemoryNew

/-!
# Lemmas about what the rules of blogc-make have in use
-/

namespace Blogc.MakeMem

open Blogc Blogc.Spec.MakeAccount

/-- A context is in use. -/
structure Holds (c : Now) (l : InUse) : Prop where
  ctx : l .ctx = true
  blogc : l .blogc = true
  inner : ∀ x ∈ inner c.g c.s, l x = true

theorem Holds.plus {c : Now} {l : InUse} (h : Holds c l) (xs : List Thing) : Holds c (plus l xs) :=
  ⟨plus_true.mpr (.inl h.ctx), plus_true.mpr (.inl h.blogc), fun x hx => plus_true.mpr (.inl (h.inner x hx))⟩

theorem Holds.settings {c : Now} {l : InUse} (h : Holds c l) : l (.settings c.g) = true :=
  h.inner _ (by simp [MakeMem.inner])

theorem Holds.shortDir {c : Now} {l : InUse} (h : Holds c l) : l .shortDir = true :=
  h.inner _ (by simp [MakeMem.inner])

theorem Holds.outDir {c : Now} {l : InUse} (h : Holds c l) : l .outDir = true :=
  h.inner _ (by simp [MakeMem.inner])

theorem Holds.settingsFile {c : Now} {l : InUse} (h : Holds c l) : l .settingsFile = true :=
  h.inner _ (by simp [MakeMem.inner])

theorem Holds.mainTemplate {c : Now} {l : InUse} (h : Holds c l) : l .mainTemplate = true :=
  h.inner _ (by simp [MakeMem.inner])

theorem Holds.atomTemplate {c : Now} {l : InUse} (h : Holds c l) : l .atomTemplate = true :=
  h.inner _ (by simp [MakeMem.inner])

theorem Holds.post {c : Now} {l : InUse} (h : Holds c l) {i : Nat} (hi : i < c.s.posts) : l (.post i) = true := by
  refine h.inner _ ?_
  have : Thing.post i ∈ numbered .post 0 c.s.posts := mem_numbered.mpr ⟨i, by omega, by omega, rfl⟩
  simp [MakeMem.inner, this]

theorem Holds.page {c : Now} {l : InUse} (h : Holds c l) {i : Nat} (hi : i < c.s.pages) : l (.page i) = true := by
  refine h.inner _ ?_
  have : Thing.page i ∈ numbered .page 0 c.s.pages := mem_numbered.mpr ⟨i, by omega, by omega, rfl⟩
  simp [MakeMem.inner, this]

theorem Holds.copied {c : Now} {l : InUse} (h : Holds c l) {i : Nat} (hi : i < c.s.copies) : l (.copied i) = true := by
  refine h.inner _ ?_
  have : Thing.copied i ∈ numbered .copied 0 c.s.copies := mem_numbered.mpr ⟨i, by omega, by omega, rfl⟩
  simp [MakeMem.inner, this]

theorem Holds.posts {c : Now} {l : InUse} (h : Holds c l) : ∀ x ∈ c.posts, l x = true := by
  intro x hx
  simp only [Now.posts, List.mem_map, List.mem_range] at hx
  obtain ⟨i, hi, rfl⟩ := hx
  exact h.post hi

theorem Holds.entry {c : Now} {l : InUse} (h : Holds c l) (atom : Bool) : ∀ x ∈ c.entryFor atom, l x = true := by
  intro x hx
  refine h.inner x ?_
  revert hx
  simp only [Now.entryFor, Now.entry, MakeMem.inner]
  cases atom <;> cases c.s.entry <;> simp
  rintro rfl
  simp

theorem Holds.template {c : Now} {l : InUse} (h : Holds c l) (atom : Bool) : l (template atom) = true := by
  cases atom
  · exact h.mainTemplate
  · exact h.atomTemplate

theorem Holds.compared {c : Now} {l : InUse} (h : Holds c l) (atom : Bool) : ∀ x ∈ c.compared atom, l x = true := by
  intro x hx
  simp only [Now.compared, List.mem_append] at hx
  rcases hx with ((hx | hx) | hx) | hx
  · rw [List.mem_singleton] at hx
    exact hx ▸ h.settingsFile
  · split at hx
    · simp at hx
    · rw [List.mem_singleton] at hx
      exact hx ▸ h.template atom
  · exact h.entry atom x hx
  · exact h.posts x hx

theorem Holds.files {c : Now} {l : InUse} (h : Holds c l) : ∀ x ∈ c.files, l x = true := by
  intro x hx
  simp only [Now.files, List.mem_append, List.mem_map, List.mem_range] at hx
  rcases hx with ((((hx | hx) | ⟨i, hi, rfl⟩) | ⟨i, hi, rfl⟩) | ⟨i, hi, rfl⟩)
  · simp only [List.mem_cons, List.not_mem_nil, or_false] at hx
    rcases hx with rfl | rfl
    · exact h.mainTemplate
    · exact h.atomTemplate
  · exact h.entry false x (by simpa [Now.entryFor, Now.entry] using hx)
  · exact h.post hi
  · exact h.page hi
  · exact h.copied hi

theorem listing_ready {c : Now} {l : InUse} (h : Holds c l) (hb : Below 1 l) {k : Nat} (ho : l (.out k) = true)
    (atom : Bool) (vars : Nat) : CmdReady (c.listingCmd atom vars k) c.posts l := by
  refine ⟨hb, h.ctx, h.settings, h.blogc, fun p hp => ?_, h.posts⟩
  simp only [Now.listingCmd, List.mem_append, List.mem_cons, List.not_mem_nil, or_false] at hp
  rcases hp with hp | rfl | rfl
  · exact h.entry atom p hp
  · exact h.template atom
  · exact ho

theorem ask_ready {c : Now} {l : InUse} (h : Holds c l) (hb : Below 1 l) (vars : Nat) :
    CmdReady (c.askCmd vars) c.posts l :=
  ⟨hb, h.ctx, h.settings, h.blogc, fun p hp => by simp [Now.askCmd] at hp, h.posts⟩

theorem pair_ready {c : Now} {l : InUse} (h : Holds c l) (hb : Below 1 l) {k : Nat} (ho : l (.out k) = true)
    {source : Thing} (hs : l source = true) (vars : Nat) : CmdReady (c.pairCmd vars k) [source] l := by
  refine ⟨hb, h.ctx, h.settings, h.blogc, fun p hp => ?_, fun x hx => ?_⟩
  · simp only [Now.pairCmd, List.mem_cons, List.not_mem_nil, or_false] at hp
    rcases hp with rfl | rfl
    · exact h.mainTemplate
    · exact ho
  · rw [List.mem_singleton] at hx
    exact hx ▸ hs

/-! ## Outputs -/

/-- A list of outputs, from number `k` on. -/
def outs : Nat → List Bool → List Thing
  | _, [] => []
  | k, real :: r => (if real then [.out k] else []) ++ .outNode k :: outs (k + 1) r

theorem mem_outs {k : Nat} {bs : List Bool} {x : Thing} (h : x ∈ outs k bs) :
    ∃ i, k ≤ i ∧ i < k + bs.length ∧ (x = .out i ∨ x = .outNode i) := by
  induction bs generalizing k with
  | nil => simp [outs] at h
  | cons b bs ih =>
    simp only [outs, List.mem_append, List.mem_cons] at h
    simp only [List.length_cons]
    rcases h with h | h | h
    · split at h
      · rw [List.mem_singleton] at h
        exact ⟨k, by omega, by omega, .inl h⟩
      · simp at h
    · exact ⟨k, by omega, by omega, .inr h⟩
    · obtain ⟨i, h1, h2, h3⟩ := ih h
      exact ⟨i, by omega, by omega, h3⟩

theorem outs_nodup (k : Nat) (bs : List Bool) : (outs k bs).Nodup := by
  induction bs generalizing k with
  | nil => simp [outs]
  | cons b bs ih =>
    have h1 : ∀ x, (x = .out k ∨ x = .outNode k) → x ∉ outs (k + 1) bs := by
      intro x hx hm
      obtain ⟨i, h1, _, h3⟩ := mem_outs hm
      rcases hx with rfl | rfl <;> rcases h3 with h3 | h3 <;> simp at h3 <;> omega
    have h2 : (Thing.outNode k :: outs (k + 1) bs).Nodup := List.nodup_cons.mpr ⟨h1 _ (.inr rfl), ih (k + 1)⟩
    rw [outs]
    cases b with
    | false => simpa using h2
    | true =>
      show (Thing.out k :: Thing.outNode k :: outs (k + 1) bs).Nodup
      exact List.nodup_cons.mpr ⟨by simp [h1 (.out k) (.inl rfl)], h2⟩

theorem outs_append (k : Nat) (as bs : List Bool) : outs k (as ++ bs) = outs k as ++ outs (k + as.length) bs := by
  induction as generalizing k with
  | nil => simp [outs]
  | cons a as ih => simp [outs, ih, Nat.add_assoc, Nat.add_comm 1]

theorem freeOutputList_eq (k : Nat) (bs : List Bool) : freeOutputList k bs = (outs k bs).map .release := by
  induction bs generalizing k with
  | nil => rfl
  | cons b bs ih => cases b <;> simp [freeOutputList, outs, freeIf, ih]

theorem outs_get {k : Nat} {bs : List Bool} {i : Nat} {b : Bool} (h : bs[i]? = some b) :
    .outNode (k + i) ∈ outs k bs ∧ (b = true → .out (k + i) ∈ outs k bs) := by
  induction bs generalizing k i with
  | nil => simp at h
  | cons a bs ih =>
    cases i with
    | zero =>
      simp only [List.getElem?_cons_zero, Option.some.injEq] at h
      subst h
      simp only [outs, Nat.add_zero]
      exact ⟨by simp, fun h => by simp [h]⟩
    | succ i =>
      have := ih (k := k + 1) (i := i) (by simpa using h)
      have e : k + 1 + i = k + (i + 1) := by omega
      rw [e] at this
      simp only [outs, List.mem_append, List.mem_cons]
      exact ⟨.inr (.inr this.1), fun hb => .inr (.inr (this.2 hb))⟩

/-- No output from number `k` on is in use. -/
def OutsFree (k : Nat) (l : InUse) : Prop := ∀ i, k ≤ i → l (.out i) = false ∧ l (.outNode i) = false

theorem OutsFree.plus {k : Nat} {l : InUse} (h : OutsFree k l) {xs : List Thing}
    (hx : ∀ i, .out i ∉ xs ∧ .outNode i ∉ xs) : OutsFree k (plus l xs) := fun i hi =>
  ⟨plus_false.mpr ⟨(h i hi).1, (hx i).1⟩, plus_false.mpr ⟨(h i hi).2, (hx i).2⟩⟩

theorem OutsFree.outs {k : Nat} {l : InUse} (h : OutsFree k l) (bs : List Bool) :
    OutsFree (k + bs.length) (MakeMem.plus l (outs k bs)) := by
  intro i hi
  refine ⟨plus_false.mpr ⟨(h i (by omega)).1, fun hm => ?_⟩, plus_false.mpr ⟨(h i (by omega)).2, fun hm => ?_⟩⟩ <;>
  · obtain ⟨j, _, h2, h3⟩ := mem_outs hm
    simp at h3
    omega

/-- The texts made for one output. -/
def Extra (extra : List Thing) : Prop := extra = [] ∨ extra = [.pageNo]

theorem oneOutput_ok {extra : List Thing} (he : Extra extra) {l : InUse} (hn : l .name = false)
    (hp : l .pageNo = false) (hs : l .shortDir = true) {k : Nat} (h1 : l (.out k) = false)
    (h2 : l (.outNode k) = false) (real : Bool) :
    inUse (oneOutput extra k real) l = some (plus l (outs k [real])) := by
  have e : inUse (oneOutput extra k real) (plus l []) = some (plus l (outs k [real])) := by
    rcases he with rfl | rfl <;> cases real <;>
      simp [oneOutput, outs, do_use, do_acquire, do_release, hn, hp, hs, h1, h2, inUse_nil] <;>
      (refine plus_congr fun x => ?_) <;> simp [or_comm]
  rwa [plus_nil] at e

theorem makeOutputs_ok {α : Type} {extra : List Thing} (he : Extra extra) (acts : List (Act α)) {l : InUse}
    (hn : l .name = false) (hp : l .pageNo = false) (hs : l .shortDir = true) {k : Nat} (hf : OutsFree k l) :
    inUse (makeOutputs extra k acts) l = some (plus l (outs k (acts.map Act.real))) := by
  induction acts generalizing k l with
  | nil => exact congrArg some (plus_nil l).symm
  | cons a acts ih =>
    have h0 := hf k (Nat.le_refl k)
    have hnot (x : Thing) (hx : ∀ i, x ≠ .out i ∧ x ≠ .outNode i) : x ∉ outs k [a.real] := by
      intro hm
      obtain ⟨i, _, _, h3⟩ := mem_outs hm
      exact h3.elim (hx i).1 (hx i).2
    refine then_ok (oneOutput_ok he hn hp hs h0.1 h0.2 a.real) ?_
    rw [ih (k := k + 1) (plus_false.mpr ⟨hn, hnot _ (by simp)⟩) (plus_false.mpr ⟨hp, hnot _ (by simp)⟩)
      (plus_true.mpr (.inl hs)) (hf.outs [a.real]), plus_plus]
    show some (plus l (outs k [a.real] ++ outs (k + [a.real].length) (acts.map Act.real))) = _
    rw [← outs_append]
    rfl

/-- Tables and texts of the rules are not in use. -/
structure RuleFree (l : InUse) : Prop where
  below : Below 1 l
  variables : l .variables = false
  localTable : l .local = false
  lastPage : l .lastPage = false
  pageNo : l .pageNo = false
  name : l .name = false

theorem RuleFree.plus {l : InUse} (h : RuleFree l) {xs : List Thing}
    (hx : ∀ x ∈ xs, (∃ i, x = .out i ∨ x = .outNode i ∨ x = .fileNode i)) : RuleFree (plus l xs) := by
  have hne (y : Thing) (hy : ∀ i, y ≠ .out i ∧ y ≠ .outNode i ∧ y ≠ .fileNode i) : y ∉ xs := by
    intro hm
    obtain ⟨i, h1⟩ := hx y hm
    have := hy i
    grind
  refine ⟨h.below.plus fun x hm => ?_, ?_, ?_, ?_, ?_, ?_⟩
  · obtain ⟨i, rfl | rfl | rfl⟩ := hx x hm <;> simp [lvl]
  · exact plus_false.mpr ⟨h.variables, hne _ (by simp)⟩
  · exact plus_false.mpr ⟨h.localTable, hne _ (by simp)⟩
  · exact plus_false.mpr ⟨h.lastPage, hne _ (by simp)⟩
  · exact plus_false.mpr ⟨h.pageNo, hne _ (by simp)⟩
  · exact plus_false.mpr ⟨h.name, hne _ (by simp)⟩

theorem outs_outputs {k : Nat} {bs : List Bool} :
    ∀ x ∈ outs k bs, (∃ i, x = .out i ∨ x = .outNode i ∨ x = .fileNode i) := by
  intro x hx
  obtain ⟨i, _, _, h⟩ := mem_outs hx
  exact ⟨i, by grind⟩

theorem swap_plus (l : InUse) (xs ys : List Thing) : plus (plus l xs) ys = plus (plus l ys) xs := by
  rw [plus_plus, plus_plus]
  exact plus_congr fun x => by simp [or_comm]

/-- The answer about the last page is used and freed, and something else is in use meanwhile. -/
theorem lastPage_ok {l : InUse} (hl : l .lastPage = false) :
    inUse [.use .lastPage, .release .lastPage] (plus l [.lastPage]) = some l := by
  rw [do_use (.inr (by simp)), do_release hl (by simp), inUse_nil]
  simp [plus_nil]

theorem release_one {l : InUse} {x : Thing} (hx : l x = false) : inUse [.release x] (plus l [x]) = some l := by
  rw [do_release hx (by simp), inUse_nil]
  simp [plus_nil]

theorem acquire_one {l : InUse} {x : Thing} (hx : l x = false) : inUse [.acquire x] l = some (plus l [x]) := by
  have e : inUse [.acquire x] (plus l []) = some (plus l [x]) := by
    rw [do_acquire hx (by simp), inUse_nil]
  rwa [plus_nil] at e

/-- The loop over the tags, with the table of variables in use. -/
theorem tagOutputs_ok {c : Now} (vars : Nat) (asked : List (Ran × List (Act Ran))) {k : Nat} {l : InUse}
    (h : Holds c l) (hb : Below 1 l) (h1 : l .local = false) (h2 : l .lastPage = false) (h3 : l .pageNo = false)
    (h4 : l .name = false) (hf : OutsFree k l) :
    inUse (tagOutputs c vars k asked) l = some (plus l (outs k ((tagActs asked).map Act.real))) := by
  induction asked generalizing k l with
  | nil => exact congrArg some (plus_nil l).symm
  | cons p asked ih =>
    obtain ⟨r, acts⟩ := p
    have s1 : inUse [.acquire .local, .use (.settings c.g)] l = some (plus l [.local]) :=
      then_ok (b := [.use (.settings c.g)]) (acquire_one h1) (neutral_use (h.plus _).settings rfl)
    have s2 : inUse (getVariable (c.askCmd vars) c.posts r) (plus l [.local])
        = some (if r.value then plus (plus l [.local]) [.lastPage] else plus l [.local]) :=
      getVariable_ok (ask_ready (h.plus _) (hb.plus (by simp [lvl])) vars) (plus_false.mpr ⟨h2, by simp⟩) r
    cases hr : r.value with
    | false =>
      simp only [tagOutputs, hr, Bool.false_eq_true, if_false] at s2 ⊢
      have e : tagActs ((r, acts) :: asked) = tagActs asked := by simp [tagActs, hr]
      rw [e]
      exact then_ok (then_ok (then_ok s1 s2) (release_one h1)) (ih h hb h1 h2 h3 h4 hf)
    | true =>
      simp only [tagOutputs, hr, if_true] at s2 ⊢
      have e : tagActs ((r, acts) :: asked) = acts ++ tagActs asked := by simp [tagActs, hr]
      rw [e, List.map_append, outs_append, List.length_map]
      have s3 : inUse [.release .local] (plus (plus l [.local]) [.lastPage]) = some (plus l [.lastPage]) := by
        rw [swap_plus]
        exact release_one (plus_false.mpr ⟨h1, by simp⟩)
      have s5 := makeOutputs_ok (.inr rfl : Extra [.pageNo]) acts h4 h3 h.shortDir hf
      have hnot (x : Thing) (hx : ∀ i, x ≠ .out i ∧ x ≠ .outNode i) : x ∉ outs k (acts.map Act.real) := by
        intro hm
        obtain ⟨i, _, _, h3⟩ := mem_outs hm
        exact h3.elim (hx i).1 (hx i).2
      have hff := hf.outs (acts.map Act.real)
      rw [List.length_map] at hff
      have s6 := ih (k := k + acts.length) (l := plus l (outs k (acts.map Act.real))) (h.plus _)
        (hb.plus fun x hx => by
          obtain ⟨i, _, _, rfl | rfl⟩ := mem_outs hx <;> simp [lvl])
        (plus_false.mpr ⟨h1, hnot _ (by simp)⟩) (plus_false.mpr ⟨h2, hnot _ (by simp)⟩)
        (plus_false.mpr ⟨h3, hnot _ (by simp)⟩) (plus_false.mpr ⟨h4, hnot _ (by simp)⟩) hff
      rw [plus_plus] at s6
      exact then_ok (then_ok (then_ok s1 s2) s3) (then_ok (then_ok (lastPage_ok h2) s5) s6)

theorem outputList_ok {c : Now} {l : InUse} (h : Holds c l) (hr : RuleFree l) {k : Nat} (hf : OutsFree k l)
    (b : Build) : inUse (outputList c k b) l = some (plus l (outs k b.outputs)) := by
  have u1 : Neutral [.use .ctx, .use (.settings c.g)] l := neutral_use h.ctx (neutral_use h.settings rfl)
  have v1 : inUse ([.use .ctx] ++ variablesNew c) l = some (plus l [.variables]) :=
    then_ok (neutral_use h.ctx rfl) (then_ok (b := [.use (.settings c.g)]) (acquire_one hr.variables)
      (neutral_use (h.plus _).settings rfl))
  cases b with
  | none => exact u1.trans (congrArg some (plus_nil l).symm)
  | listing atom vars acts => exact then_ok u1 (makeOutputs_ok (.inl rfl) acts hr.name hr.pageNo h.shortDir hf)
  | pairs pages vars acts => exact then_ok u1 (makeOutputs_ok (.inl rfl) acts hr.name hr.pageNo h.shortDir hf)
  | copy acts =>
    refine then_ok (then_ok u1 ?_) (makeOutputs_ok (.inl rfl) acts hr.name hr.pageNo h.shortDir hf)
    have := neutral_uses (xs := (List.range c.s.copies).map .copied) (l := l) fun x hx => by
      simp only [List.mem_map, List.mem_range] at hx
      obtain ⟨i, hi, rfl⟩ := hx
      exact h.copied hi
    rw [List.map_map] at this
    exact this
  | pagination vars ask acts =>
    have s2 : inUse (getVariable (c.askCmd vars) c.posts ask) (plus l [.variables])
        = some (if ask.value then plus (plus l [.variables]) [.lastPage] else plus l [.variables]) :=
      getVariable_ok (ask_ready (h.plus _) (hr.below.plus (by simp [lvl])) vars)
        (plus_false.mpr ⟨hr.lastPage, by simp⟩) ask
    cases ha : ask.value with
    | false =>
      simp only [outputList, Build.outputs, ha, Bool.false_eq_true, if_false, outs, plus_nil] at s2 ⊢
      exact then_ok (then_ok (then_ok v1 s2) (release_one hr.variables)) rfl
    | true =>
      simp only [outputList, Build.outputs, ha, if_true] at s2 ⊢
      have s3 : inUse [.release .variables] (plus (plus l [.variables]) [.lastPage]) = some (plus l [.lastPage]) := by
        rw [swap_plus]
        exact release_one (plus_false.mpr ⟨hr.variables, by simp⟩)
      exact then_ok (then_ok (then_ok v1 s2) s3) (then_ok (lastPage_ok hr.lastPage)
        (makeOutputs_ok (.inr rfl) acts hr.name hr.pageNo h.shortDir hf))
  | paginationTags vars tries asked =>
    have s2 := tagOutputs_ok (c := c) vars asked (k := k) (l := plus l [.variables]) (h.plus _)
      (hr.below.plus (by simp [lvl])) (plus_false.mpr ⟨hr.localTable, by simp⟩)
      (plus_false.mpr ⟨hr.lastPage, by simp⟩) (plus_false.mpr ⟨hr.pageNo, by simp⟩)
      (plus_false.mpr ⟨hr.name, by simp⟩) (hf.plus (by simp))
    refine then_ok (then_ok v1 s2) ?_
    rw [swap_plus]
    refine release_one (plus_false.mpr ⟨hr.variables, fun hm => ?_⟩)
    obtain ⟨i, _, _, h3⟩ := mem_outs hm
    simp at h3

/-! ## Execution -/

theorem outputLoop_ok {α : Type} {before : Nat → List Event} {files : Nat → List Thing} {job : Nat → α → List Event}
    {good : α → Bool} {l : InUse} (hn : l .need = false) (acts : List (Act α)) {k : Nat}
    (h : ∀ i a, acts[i]? = some a → l (.outNode (k + i)) = true ∧ (a.real = true → l (.out (k + i)) = true))
    (hb : ∀ i, i < acts.length → Neutral (before (k + i)) l)
    (hf : ∀ i, i < acts.length → ∀ x ∈ files (k + i), l x = true)
    (hj : ∀ i, i < acts.length → l (.out (k + i)) = true → ∀ a, Neutral (job (k + i) a) l) :
    Neutral (outputLoop before files job good k acts) l := by
  induction acts generalizing k with
  | nil => rfl
  | cons a acts ih =>
    have h0 := h 0 a (by simp)
    have hb0 := hb 0 (by simp)
    have hf0 := hf 0 (by simp)
    have hj0 := hj 0 (by simp)
    rw [Nat.add_zero] at h0 hb0 hf0 hj0
    have hr : Neutral (outputLoop before files job good (k + 1) acts) l := by
      refine ih (fun i a hi => ?_) (fun i hi => ?_) (fun i hi => ?_) (fun i hi => ?_)
      · have := h (i + 1) a (by simpa using hi)
        rwa [← Nat.add_assoc, Nat.add_right_comm] at this
      · have := hb (i + 1) (by simpa using hi)
        rwa [← Nat.add_assoc, Nat.add_right_comm] at this
      · have := hf (i + 1) (by simpa using hi)
        rwa [← Nat.add_assoc, Nat.add_right_comm] at this
      · have := hj (i + 1) (by simpa using hi)
        rwa [← Nat.add_assoc, Nat.add_right_comm] at this
    cases a with
    | null => exact neutral_use h0.1 hr
    | unknown => exact neutral_append (neutral_append (neutral_use h0.1 (neutral_use (h0.2 rfl) rfl)) hb0) hr
    | fresh =>
      exact neutral_append (neutral_append (neutral_append (neutral_use h0.1 (neutral_use (h0.2 rfl) rfl)) hb0)
        (needRebuild_ok hn (h0.2 rfl) hf0 false)) hr
    | made early x =>
      refine neutral_append (neutral_append (neutral_append (neutral_append
        (neutral_use h0.1 (neutral_use (h0.2 rfl) rfl)) hb0) (needRebuild_ok hn (h0.2 rfl) hf0 early))
        (hj0 (h0.2 rfl) x)) ?_
      split
      · exact hr
      · rfl

/-- The outputs of a rule are in use. -/
def HasOuts (bs : List Bool) (l : InUse) : Prop := ∀ x ∈ outs 0 bs, l x = true

theorem HasOuts.get {α : Type} {acts : List (Act α)} {l : InUse} (h : HasOuts (acts.map Act.real) l) (i : Nat)
    (a : Act α) (hi : acts[i]? = some a) :
    l (.outNode (0 + i)) = true ∧ (a.real = true → l (.out (0 + i)) = true) := by
  have := outs_get (k := 0) (bs := acts.map Act.real) (i := i) (b := a.real) (by simp [hi])
  exact ⟨h _ this.1, fun hr => h _ (this.2 hr)⟩

theorem HasOuts.plus {bs : List Bool} {l : InUse} (h : HasOuts bs l) (xs : List Thing) : HasOuts bs (plus l xs) :=
  fun x hx => plus_true.mpr (.inl (h x hx))

/-- A loop between the making and the freeing of the variables. -/
theorem variables_around {c : Now} {l : InUse} (h : Holds c l) (hr : RuleFree l) {ev : List Event}
    (hev : Neutral ev (plus l [.variables])) :
    Neutral ([.use .ctx] ++ variablesNew c ++ ev ++ [.release .variables]) l :=
  then_ok (then_ok (then_ok (neutral_use h.ctx rfl) (then_ok (b := [.use (.settings c.g)]) (acquire_one hr.variables)
      (neutral_use (h.plus _).settings rfl))) hev) (release_one hr.variables)

theorem tryNames_ok {l : InUse} (hs : l .shortDir = true) (hp : l .pageNo = false) (hn : l .name = false) (n : Nat) :
    Neutral (tryNames n) l := by
  refine neutral_repeated ?_ n
  have e : Neutral [.use .shortDir, .acquire .pageNo, .acquire .name, .release .pageNo, .use .name, .release .name]
      (plus l []) := by
    simp [Neutral, do_use, do_acquire, do_release, hs, hp, hn, inUse_nil]
  rwa [plus_nil] at e

theorem get_of_take {α : Type} {xs : List α} {n i : Nat} {a : α} (h : (xs.take n)[i]? = some a) : xs[i]? = some a := by
  rw [List.getElem?_take] at h
  split at h
  · exact h
  · simp at h

theorem execRule_ok {c : Now} {l : InUse} (h : Holds c l) (hr : RuleFree l) (b : Build)
    (ho : HasOuts b.outputs l) : Neutral (execRule c b) l := by
  have hv := h.plus [.variables]
  have hb : Below 1 (plus l [.variables]) := hr.below.plus (by simp [lvl])
  have hn : plus l [.variables] .need = false := hb _ (by decide)
  have hvar : Neutral [.use .variables] (plus l [.variables]) := neutral_use (plus_true.mpr (.inr (by simp))) rfl
  cases b with
  | none => exact neutral_use h.ctx (neutral_use h.settings rfl)
  | listing atom vars acts =>
    refine variables_around h hr (outputLoop_ok hn acts ((ho.plus _).get) (fun _ _ => hvar)
      (fun _ _ => hv.compared atom) fun i _ hi a => execBlogc_ok (listing_ready hv hb hi atom vars) a)
  | pagination vars ask acts =>
    refine variables_around h hr (outputLoop_ok hn _ (HasOuts.get ?_) (fun _ _ => hvar)
      (fun _ _ => hv.compared false) fun i _ hi a => execBlogc_ok (listing_ready hv hb hi false vars) a)
    have := ho.plus [.variables]
    simp only [Build.outputs] at this
    cases ha : ask.value <;> simpa [ha] using this
  | paginationTags vars tries asked =>
    refine variables_around h hr (outputLoop_ok hn _ ((ho.plus _).get) (fun i _ => neutral_append ?_ hvar)
      (fun _ _ => hv.compared false) fun i _ hi a => execBlogc_ok (listing_ready hv hb hi false vars) a)
    exact tryNames_ok hv.shortDir (plus_false.mpr ⟨hr.pageNo, by simp⟩) (plus_false.mpr ⟨hr.name, by simp⟩) _
  | pairs pages vars acts =>
    have hsrc (i : Nat) (hi : i < (acts.take (if pages then c.s.pages else c.s.posts)).length) :
        l (if pages then Thing.page (0 + i) else .post (0 + i)) = true := by
      rw [Nat.zero_add]
      rw [List.length_take] at hi
      cases pages with
      | true => exact h.page (by simp at hi; omega)
      | false => exact h.post (by simp at hi; omega)
    refine variables_around h hr (outputLoop_ok hn _ ?_ ?_ ?_ ?_)
    · intro i a hi
      exact (ho.plus _).get i a (get_of_take hi)
    · exact fun i hi => neutral_use (plus_true.mpr (.inl (hsrc i hi))) rfl
    · intro i hi x hx
      simp only [List.mem_cons, List.not_mem_nil, or_false] at hx
      rcases hx with rfl | rfl | rfl
      · exact hv.settingsFile
      · exact hv.mainTemplate
      · exact plus_true.mpr (.inl (hsrc i hi))
    · intro i hi hout a
      have hl : plus l [.variables] .local = false := plus_false.mpr ⟨hr.localTable, by simp⟩
      have hs := hsrc i hi
      refine then_ok (then_ok (l' := plus (plus l [.variables]) [.local]) ?_ ?_) (release_one hl)
      · exact then_ok (a := [.acquire .local]) (acquire_one hl)
          (neutral_use (plus_true.mpr (.inl (plus_true.mpr (.inl hs)))) rfl)
      · exact execBlogc_ok (pair_ready (hv.plus _) (hb.plus (by simp [lvl])) (plus_true.mpr (.inl hout))
          (plus_true.mpr (.inl (plus_true.mpr (.inl hs)))) vars) a
  | copy acts =>
    have hsrc (i : Nat) (hi : i < (acts.take c.s.copies).length) : l (.copied (0 + i)) = true := by
      rw [Nat.zero_add]
      rw [List.length_take] at hi
      exact h.copied (by omega)
    refine neutral_append (neutral_use h.ctx (neutral_use h.settings rfl))
      (outputLoop_ok (hr.below _ (by decide)) _ ?_ ?_ ?_ ?_)
    · intro i a hi
      exact ho.get i a (get_of_take hi)
    · exact fun i hi => neutral_use (hsrc i hi) rfl
    · intro i hi x hx
      simp only [List.mem_cons, List.not_mem_nil, or_false] at hx
      rcases hx with rfl | rfl
      · exact h.settingsFile
      · exact hsrc i hi
    · exact fun i hi hout a => copyFile_ok hr.below (hsrc i hi) hout a

theorem RuleFree.of_below {l : InUse} (h : Below 2 l) : RuleFree l :=
  ⟨h.mono (by decide), h _ (by decide), h _ (by decide), h _ (by decide), h _ (by decide), h _ (by decide)⟩

theorem OutsFree.of_below {l : InUse} (h : Below 2 l) (k : Nat) : OutsFree k l :=
  fun i _ => ⟨h _ (by simp [lvl]), h _ (by simp [lvl])⟩

theorem ruleExecute_ok {c : Now} {l : InUse} (h : Holds c l) (hb : Below 2 l) (b : Build) :
    Neutral (ruleExecute c b) l := by
  have hr := RuleFree.of_below hb
  refine then_ok (l' := plus l (outs 0 b.outputs)) (then_ok (outputList_ok h hr (OutsFree.of_below hb 0) b) ?_) ?_
  · exact execRule_ok (h.plus _) (hr.plus outs_outputs) b fun x hx => plus_true.mpr (.inr hx)
  · rw [freeOutputList_eq]
    refine releases_all (outs_nodup _ _) fun x hx => ?_
    obtain ⟨i, _, _, rfl | rfl⟩ := mem_outs hx <;> exact hb _ (by simp [lvl])

theorem allExec_ok {c : Now} {l : InUse} (h : Holds c l) (hb : Below 2 l) (bs : List Build) :
    Neutral (allExec c bs) l := by
  induction bs with
  | nil => rfl
  | cons b bs ih =>
    refine neutral_append (ruleExecute_ok h hb b) ?_
    split
    · exact ih
    · rfl

end Blogc.MakeMem
