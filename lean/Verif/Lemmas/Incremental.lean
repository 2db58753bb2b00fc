import Verif.Spec.Incremental
import Verif.Model.MakeWatchBuild
import Verif.Lemmas.MainCongr
import Verif.Props.C86
import Verif.Props.C87

/-!
# Lemmas about incremental builds
-/

namespace Blogc.C100

open Blogc Blogc.Make Blogc.Build
open Blogc.Spec.MakeJobs Blogc.Spec.MakeRun Blogc.Spec.Incremental

variable {S : Setup} {out : Str → Prop} {cfg : MakeSettings.Settings}

/-! ## Settings -/

theorem ok_site (h : Spec.MakeJobs.Ok (base S cfg)) (stat : Str → Option (Int × Int)) :
    Spec.MakeJobs.Ok (S.site cfg stat) where
  settingsFile := h.settingsFile
  outDir := h.outDir
  contentDir := h.contentDir
  templateDir := h.templateDir
  mainTemplate := h.mainTemplate
  htmlExt := h.htmlExt
  atomExt := h.atomExt
  dateFormat := h.dateFormat
  perPage := h.perPage
  atomPerPage := h.atomPerPage
  listingEntry := h.listingEntry
  posts := h.posts
  pages := h.pages
  tags := h.tags

theorem clean_site (h : Clean (base S cfg)) (stat : Str → Option (Int × Int)) : Clean (S.site cfg stat) where
  exe := h.exe
  locale := h.locale
  tags := h.tags
  filled := h.filled
  global := h.global

/-! ## The files that a run reads -/

/-- A file is an input, or the default template of feeds. -/
def Reads (S : Setup) (cfg : MakeSettings.Settings) (w : Wanted) (f : Str) : Prop :=
  f ∈ w.inputs ∨ (cfg.settings.lookup b!"atom_template" = none ∧ f = absPath S.root S.deployed)

structure Complete (S : Setup) (cfg : MakeSettings.Settings) (w : Wanted) : Prop where
  settings : S.settingsFile ∈ w.inputs
  sources : ∀ f ∈ w.sources, Reads S cfg w f
  entry : ∀ f, w.entry = some f → Reads S cfg w f
  template : Reads S cfg w w.template

theorem listing_complete (o : Str) (v : List (Str × Str)) : Complete S cfg (listing (base S cfg) o v) where
  settings := by simp [listing]; left; rfl
  sources f hf := .inl (by simp only [listing] at hf ⊢; simp [hf])
  entry f hf := .inl (by simp only [listing] at hf ⊢; simp [hf])
  template := .inl (by simp [listing])

theorem feed_complete (o : Str) (v : List (Str × Str)) : Complete S cfg (feed (base S cfg) o v) where
  settings := by simp [feed]; left; rfl
  sources f hf := .inl (by simp only [feed] at hf ⊢; simp [hf])
  entry f hf := by cases hf
  template := by
    unfold Reads feed atomTemplate
    cases h : (base S cfg).get b!"atom_template" with
    | none => exact .inr ⟨h, rfl⟩
    | some t => left; simp

theorem single_complete (o src g : Str) (v : List (Str × Str)) :
    Complete S cfg (single (base S cfg) o src g v) where
  settings := by simp [single]; left; rfl
  sources f hf := .inl (by simp only [single] at hf ⊢; simp_all)
  entry f hf := by cases hf
  template := .inl (by simp [single])

theorem complete {w : Wanted} (h : Possible (base S cfg) w) : Complete S cfg w := by
  have k1 : ∀ {l : List Wanted} {c : Prop} [Decidable c] {x : List Wanted}, w ∈ (if c then [] else x) → w ∈ x := by
    intro l c _ x hx
    split at hx
    · cases hx
    · exact hx
  rcases h with h | h | h | ⟨n, h⟩ | ⟨n, h⟩ | h | h | h
  · have := k1 (l := []) h
    rw [List.mem_singleton.1 this]; exact listing_complete _ _
  · have := k1 (l := []) h
    rw [List.mem_singleton.1 this]; exact feed_complete _ _
  · obtain ⟨t, -, rfl⟩ := List.mem_map.1 (k1 (l := []) h); exact feed_complete _ _
  · obtain ⟨t, -, rfl⟩ := List.mem_map.1 (k1 (l := []) h); exact listing_complete _ _
  · obtain ⟨t, -, h⟩ := List.mem_flatMap.1 (k1 (l := []) h)
    obtain ⟨t, -, rfl⟩ := List.mem_map.1 h
    exact listing_complete _ _
  · obtain ⟨t, -, rfl⟩ := List.mem_map.1 h; exact single_complete _ _ _ _
  · obtain ⟨t, -, rfl⟩ := List.mem_map.1 (k1 (l := []) h); exact listing_complete _ _
  · obtain ⟨t, -, rfl⟩ := List.mem_map.1 h; exact single_complete _ _ _ _

theorem seen_congr {d d' : Files} {w : Wanted} {f : Str} (hr : Reads S cfg w f)
    (h : ∀ i ∈ w.inputs, texts d i = texts d' i) : S.seen cfg d f = S.seen cfg d' f := by
  unfold Setup.seen
  split
  · rfl
  · rename_i hn
    rcases hr with hr | hr
    · exact h f hr
    · exact absurd hr hn

/-- What a run gives depends on the inputs only, and is determined by them. -/
theorem shows_congr {d d' : Files} {w : Wanted} (hw : Possible (base S cfg) w)
    (h : ∀ i ∈ w.inputs, texts d i = texts d' i) {o o' : Main.Opts} {input input' : Str}
    (ha : Asked (base S cfg) { S.on cfg d with stdin := input } o (ownVars w) w.listing none w.entry
      (some w.template) (some w.output) w.sources)
    (ha' : Asked (base S cfg) { S.on cfg d' with stdin := input' } o' (ownVars w) w.listing none w.entry
      (some w.template) (some w.output) w.sources) :
    Main.body { S.on cfg d with stdin := input } o = Main.body { S.on cfg d' with stdin := input' } o' := by
  have hc := complete hw
  refine Main.body_congr ?_ (ha.listing.trans ha'.listing.symm) (ha.print.trans ha'.print.symm)
    (ha.entries.trans ha'.entries.symm) (ha.template.trans ha'.template.symm)
    (ha.output.trans ha'.output.symm) (ha.sources.trans ha'.sources.symm)
    (Render.sameValues_of fun k hk => (ha.config k hk).trans (ha'.config k hk).symm)
  refine ⟨rfl, rfl, rfl, ?_, ?_⟩
  · intro f hf m
    have hr : Reads S cfg w f := by
      rw [ha.sources, ha.entries] at hf
      rcases List.mem_append.1 hf with hf | hf
      · exact hc.sources f hf
      · split at hf
        · exact hc.entry f (by simpa using hf)
        · cases hf
    show (S.seen cfg d f).bind _ = (S.seen cfg d' f).bind _
    rw [seen_congr hr h]
  · intro f hf
    rw [ha.template] at hf
    cases hf
    show (S.seen cfg d _).bind _ = (S.seen cfg d' _).bind _
    rw [seen_congr hc.template h]

/-! ## Runs -/

theorem effects_mkdirs (l : List Str) (k : Prog Main.Call Main.Outcome) :
    effects (Main.mkdirs l k) = effects k := by
  induction l with
  | nil => rfl
  | cons d l ih => exact ih

theorem body_effects (env : Main.Env) (o : Main.Opts) (p : Str) (h1 : o.print = none) (h2 : o.output = some p)
    (hp : p ≠ b!"-") : (∃ text, effects (Main.body env o) = ([(p, text)], .exit 0)) ∨
      ((effects (Main.body env o)).1 = [] ∧ (effects (Main.body env o)).2 ≠ .exit 0) := by
  have stop : ∀ a : Main.Outcome, a ≠ .exit 0 →
      (∃ text, effects (.ret a) = ([(p, text)], .exit 0)) ∨
      ((effects (.ret a)).1 = [] ∧ (effects (.ret a)).2 ≠ .exit 0) := fun a ha => .inr ⟨rfl, ha⟩
  unfold Main.body
  rw [h1]
  split
  · exact stop _ (by decide)
  · split
    · exact stop _ (by decide)
    · exact stop _ (by decide)
    · split
      · exact stop _ (by decide)
      · simp only
        unfold Main.renderAll
        split
        · exact stop _ (by decide)
        · split
          · exact stop _ (by decide)
          · split
            · exact stop _ (by decide)
            · exact stop _ (by decide)
            · rename_i text _
              left
              refine ⟨text, ?_⟩
              unfold Main.writeOut
              rw [h2]
              simp only
              rw [if_neg hp, effects_mkdirs]
              rfl

theorem job_run (hg : Good S out cfg) (d : Files) {w : Wanted} (hw : Possible (base S cfg) w) {j : Job}
    (hj : Fits w j) :
    (∃ text, S.run cfg d j = ([(w.output, text)], .exit 0) ∧ Shows S cfg d w text) ∨
      ((S.run cfg d j).1 = [] ∧ S.exec cfg d j ≠ 0 ∧ ∀ text, ¬ Shows S cfg d w text) := by
  obtain ⟨cmd, input, o, h1, h2, h3, h4⟩ :=
    C87.job_runs_partial (base S cfg) hg.clean (S.on cfg d) w (hg.runs w hw) j hj
  have hr : S.run cfg d j = effects (Main.body { S.on cfg d with stdin := input } o) := by
    unfold Setup.run
    rw [show j.command (S.site cfg fun _ => none) = .ok cmd from h1, h2]
    simp only
    rw [h3]
  rcases body_effects { S.on cfg d with stdin := input } o w.output h4.print h4.output (hg.outputs w hw).2
    with ⟨text, e⟩ | ⟨e1, e2⟩
  · exact .inl ⟨text, hr.trans e, o, input, h4, e⟩
  · refine .inr ⟨by rw [hr, e1], ?_, ?_⟩
    · unfold Setup.exec
      rw [hr]
      cases he : (effects (Main.body { S.on cfg d with stdin := input } o)).2 with
      | exit n =>
        simp only
        split
        · decide
        · rw [he] at e2
          intro h
          apply e2
          rw [Int.natCast_eq_zero.1 h]
      | undefined => simp
      | out => simp
    · rintro text ⟨o', input', h4', e'⟩
      rw [shows_congr hw (fun _ _ => rfl) h4 h4', e'] at e2
      exact e2 rfl

/-! ## Rules -/

theorem after_run (hg : Good S out cfg) (clock : Str → Int × Int) (d : Files) {ws : List Wanted} {jobs : List Job}
    (hf : List.Forall₂ Fits ws jobs) (hw : ∀ w ∈ ws, Possible (base S cfg) w) (d₁ : Files) :
    (∀ p, (jobs.foldl (fun d' j => writeAll clock d' (S.run cfg d j).1) d₁) p = d₁ p ∨
      ∃ w ∈ ws, w.output = p ∧ ∃ text,
        (jobs.foldl (fun d' j => writeAll clock d' (S.run cfg d j).1) d₁) p = some (text, clock p) ∧
        Shows S cfg d w text) ∧
    ((∀ j ∈ jobs, S.exec cfg d j = 0) → ∀ w ∈ ws, ∃ text,
      (jobs.foldl (fun d' j => writeAll clock d' (S.run cfg d j).1) d₁) w.output = some (text, clock w.output) ∧
        Shows S cfg d w text) := by
  induction hf generalizing d₁ with
  | nil => exact ⟨fun p => .inl rfl, fun _ w hw => by cases hw⟩
  | @cons w j ws jobs hj hf ih =>
    have ih' := fun d₁ => ih (fun w hw' => hw w (by simp [hw'])) d₁
    rw [List.foldl_cons]
    obtain ⟨i1, i2⟩ := ih' (writeAll clock d₁ (S.run cfg d j).1)
    rcases job_run hg d (hw w (by simp)) hj with ⟨text, e, hs⟩ | ⟨e, hx, -⟩
    · rw [e] at i1 i2 ⊢
      have hd : writeAll clock d₁ [(w.output, text)] = put d₁ w.output (some (text, clock w.output)) := rfl
      constructor
      · intro p
        rcases i1 p with h | ⟨w', hw', h⟩
        · by_cases hp : p = w.output
          · right
            refine ⟨w, by simp, hp.symm, text, ?_, hs⟩
            rw [h, hd, put, if_pos hp, hp]
          · left
            rw [h, hd, put, if_neg hp]
        · exact .inr ⟨w', by simp [hw'], h⟩
      · intro hx w' hw'
        rcases List.mem_cons.1 hw' with rfl | hw'
        · rcases i1 w'.output with h | ⟨w₂, hw₂, ho, t₂, h, h'⟩
          · refine ⟨text, ?_, hs⟩
            rw [h, hd, put, if_pos rfl]
          · have : w₂ = w' := hg.distinct _ _ (hw _ (by simp [hw₂])) (hw _ (by simp)) ho
            subst this
            exact ⟨t₂, h, h'⟩
        · exact i2 (fun j hj => hx j (by simp [hj])) w' hw'
    · rw [e] at i1 i2 ⊢
      constructor
      · intro p
        rcases i1 p with h | ⟨w', hw', h⟩
        · exact .inl h
        · exact .inr ⟨w', by simp [hw'], h⟩
      · intro hx'
        exact absurd (hx' j (by simp)) hx

theorem forall₂_mem {α β : Type} {R : α → β → Prop} {l : List α} {l' : List β} (h : List.Forall₂ R l l') {b : β}
    (hb : b ∈ l') : ∃ a ∈ l, R a b := by
  induction h with
  | nil => cases hb
  | @cons x y xs ys hxy _ ih =>
    rcases List.mem_cons.1 hb with rfl | hb
    · exact ⟨x, by simp, hxy⟩
    · obtain ⟨a, ha, hr⟩ := ih hb
      exact ⟨a, by simp [ha], hr⟩

/-- What a rule does to the files: it writes outputs of runs that have to be made,
with the right text. If it succeeds, it writes all of them. -/
structure Stage (S : Setup) (cfg : MakeSettings.Settings) (stat : Str → Option (Int × Int)) (ws : List Wanted) (d d' : Files) (rv : Int) : Prop where
  only : ∀ p, d' p = d p ∨ ∃ w ∈ ws, w.output = p ∧ ∃ text t, d' p = some (text, t) ∧ Shows S cfg d w text
  all : rv = 0 → ∀ w ∈ ws, stale stat w = true →
    ∃ text t, d' w.output = some (text, t) ∧ Shows S cfg d w text
  fails : rv ≠ 0 → ∃ w ∈ ws, stale stat w = true ∧ ∀ text, ¬ Shows S cfg d w text

theorem stage_of (hg : Good S out cfg) (stat : Str → Option (Int × Int)) (clock : Str → Int × Int) (d : Files) {ws : List Wanted}
    (hw : ∀ w ∈ ws, Possible (base S cfg) w) {r : List Job × Int}
    (h : Does stat (S.exec cfg d) ws r) : Stage S cfg stat ws d (S.after cfg clock d r.1) r.2 := by
  obtain ⟨n, h1, h2, h3⟩ := h
  have hsub : ∀ w ∈ (ws.filter (stale stat)).take n, w ∈ ws ∧ stale stat w = true := fun w hw' =>
    List.mem_filter.1 (List.mem_of_mem_take hw')
  have hp := fun w hw' => hw w (hsub w hw').1
  obtain ⟨a1, a2⟩ := after_run hg clock d h1 hp d
  refine ⟨?_, ?_, ?_⟩
  · intro p
    rcases a1 p with h | ⟨w, hw', ho, text, h, h'⟩
    · exact .inl h
    · exact .inr ⟨w, (hsub w hw').1, ho, text, _, h, h'⟩
  · intro e w hw' hst
    obtain ⟨h4, h5⟩ := h2 e
    obtain ⟨text, h, h'⟩ := a2 h5 w (by
      rw [h4, List.take_length]
      exact List.mem_filter.2 ⟨hw', hst⟩)
    exact ⟨text, _, h, h'⟩
  · intro e
    obtain ⟨js, j, h4, h5, -⟩ := h3 e
    obtain ⟨w, hw', hj⟩ := forall₂_mem h1 (show j ∈ r.1 by rw [h4]; simp)
    refine ⟨w, (hsub w hw').1, (hsub w hw').2, ?_⟩
    rcases job_run hg d (hp w hw') hj with ⟨text, e', -⟩ | ⟨-, -, hn⟩
    · exfalso
      apply e
      rw [← h5]
      unfold Setup.exec
      rw [e']
      rfl
    · exact hn

/-! ## The number of pages -/

theorem variable_value (hg : Good S out cfg) (stat : Str → Option (Int × Int)) (d : Files) (tag : Option Str)
    (htag : ∀ t, tag = some t → TextOk t) :
    ∃ input o, getVariable (S.site cfg stat) (shell (S.on cfg d))
        (postsPagination cfg.settings b!"posts_per_page" .nil)
        (tag.map (set .nil b!"FILTER_TAG")) b!"LAST_PAGE" true (S.site cfg stat).posts false =
        .ok (variableValue ((some (Main.body { S.on cfg d with stdin := input } o)).bind finished)) ∧
      Asked (S.site cfg stat) { S.on cfg d with stdin := input } o
        (tag.toList.map (fun t => (b!"FILTER_TAG", t)) ++ firstPage (base S cfg) b!"posts_per_page") true
        (some b!"LAST_PAGE") none none none (postSources (base S cfg)) := by
  obtain ⟨cmd, input, o, h1, h2, h3⟩ := C87.variable_runs_partial (S.site cfg stat)
    (clean_site hg.clean _) (ok_site hg.ok _) (S.on cfg d) tag htag
    hg.perPage (fun f hf => (hg.posts f hf).1) b!"LAST_PAGE" (by decide +kernel)
  refine ⟨input, o, ?_, h3⟩
  unfold getVariable
  rw [show variableCommand (S.site cfg stat) (postsPagination cfg.settings b!"posts_per_page" .nil)
        (tag.map (set .nil b!"FILTER_TAG")) b!"LAST_PAGE" true (S.site cfg stat).posts false =
        .ok (cmd, input) from h1]
  show Res.ok _ = _
  unfold shell
  rw [h2]

/-- The files that are not outputs are the same. -/
def SameInputs (out : Str → Prop) (d d' : Files) : Prop := ∀ p, ¬ out p → d p = d' p

theorem SameInputs.text {d d' : Files} (h : SameInputs out d d') {p : Str} (hp : ¬ out p) : texts d p = texts d' p := by
  unfold texts
  rw [h p hp]

theorem variable_congr (hg : Good S out cfg) (stat stat' : Str → Option (Int × Int)) {d d' : Files} (h : SameInputs out d d') (tag : Option Str)
    (htag : ∀ t, tag = some t → TextOk t) :
    ∃ v, getVariable (S.site cfg stat) (shell (S.on cfg d)) (postsPagination cfg.settings b!"posts_per_page" .nil)
        (tag.map (set .nil b!"FILTER_TAG")) b!"LAST_PAGE" true (S.site cfg stat).posts false = .ok v ∧
      getVariable (S.site cfg stat') (shell (S.on cfg d')) (postsPagination cfg.settings b!"posts_per_page" .nil)
        (tag.map (set .nil b!"FILTER_TAG")) b!"LAST_PAGE" true (S.site cfg stat').posts false = .ok v := by
  obtain ⟨input, o, h1, h2⟩ := variable_value hg stat d tag htag
  obtain ⟨input', o', h1', h2'⟩ := variable_value hg stat' d' tag htag
  refine ⟨_, h1, ?_⟩
  rw [h1', Main.body_congr ?_ (h2.listing.trans h2'.listing.symm) (h2.print.trans h2'.print.symm)
    (h2.entries.trans h2'.entries.symm) (h2.template.trans h2'.template.symm)
    (h2.output.trans h2'.output.symm) (h2.sources.trans h2'.sources.symm)
    (Render.sameValues_of fun k hk => (h2.config k hk).trans (h2'.config k hk).symm)]
  refine ⟨rfl, rfl, rfl, ?_, ?_⟩
  · intro f hf m
    rw [h2.sources, h2.entries] at hf
    have hf : f ∈ postSources (base S cfg) := by simpa using hf
    show (S.seen cfg d f).bind _ = (S.seen cfg d' f).bind _
    unfold Setup.seen
    rw [h.text (hg.posts f hf).2]
  · intro f hf
    rw [h2.template] at hf
    cases hf

theorem lastPage_congr (hg : Good S out cfg) (stat stat' : Str → Option (Int × Int)) {d d' : Files} (h : SameInputs out d d') :
    ∃ v, (S.site cfg stat).lastPage (shell (S.on cfg d)) = .ok v ∧ (S.site cfg stat').lastPage (shell (S.on cfg d')) = .ok v :=
  variable_congr hg stat stat' h none (by intro t e; cases e)

theorem lastPageOf_congr (hg : Good S out cfg) (stat stat' : Str → Option (Int × Int)) {d d' : Files} (h : SameInputs out d d') (t : Str)
    (ht : t ∈ siteTags (base S cfg)) :
    ∃ v, (S.site cfg stat).lastPageOf (shell (S.on cfg d)) t = .ok v ∧
      (S.site cfg stat').lastPageOf (shell (S.on cfg d')) t = .ok v :=
  variable_congr hg stat stat' h (some t) (by
    rintro t' ⟨⟩
    refine (hg.clean.tags t ?_).1
    unfold siteTags at ht
    split at ht
    · cases ht
    · exact ht)

theorem wantedBy_congr (hg : Good S out cfg) {d d' : Files} (h : SameInputs out d d') :
    wantedBy S cfg d = wantedBy S cfg d' := by
  unfold wantedBy
  obtain ⟨v, h1, h2⟩ := lastPage_congr hg (times d) (times d') h
  rw [h1, h2]
  congr 4
  simp only [List.cons.injEq, and_true, true_and]
  unfold paginationTags
  split
  · rfl
  · rw [List.flatMap_def, List.flatMap_def]
    congr 1
    refine List.map_congr_left fun t ht => ?_
    obtain ⟨v, h1, h2⟩ := lastPageOf_congr hg (times d) (times d') h t ht
    simp only [h1, h2]

theorem possible {d : Files} {w : Wanted} (h : Wants S cfg d w) : Possible (base S cfg) w := by
  obtain ⟨ws, h1, h2⟩ := h
  unfold wantedBy at h1
  simp only [List.mem_cons, List.not_mem_nil, or_false] at h1
  rcases h1 with rfl | rfl | rfl | rfl | rfl | rfl | rfl | rfl
  · exact .inl h2
  · exact .inr (.inl h2)
  · exact .inr (.inr (.inl h2))
  · exact .inr (.inr (.inr (.inl ⟨_, h2⟩)))
  · exact .inr (.inr (.inr (.inr (.inl ⟨_, h2⟩))))
  · exact .inr (.inr (.inr (.inr (.inr (.inl h2)))))
  · exact .inr (.inr (.inr (.inr (.inr (.inr (.inl h2))))))
  · exact .inr (.inr (.inr (.inr (.inr (.inr (.inr h2))))))

/-- Each rule does what is wanted, for the times that it sees. -/
theorem rules_do (hg : Good S out cfg) (stat : Str → Option (Int × Int)) (d : Files) :
    List.Forall₂ (fun (r : Rule) ws => ∃ x, r (S.site cfg stat) (S.exec cfg d) (shell (S.on cfg d)) = .ok x ∧
      Does stat (S.exec cfg d) ws x) rules (wantedBy S cfg d) := by
  have ok := ok_site hg.ok stat
  obtain ⟨v, hv, hvt⟩ := lastPage_congr hg stat (times d) (d := d) (d' := d) fun _ _ => rfl
  have hv' : ∀ t ∈ siteTags (S.site cfg stat), (S.site cfg stat).lastPageOf (shell (S.on cfg d)) t =
      .ok (match (S.site cfg (times d)).lastPageOf (shell (S.on cfg d)) t with | .ok v => v | .ub => none) := by
    intro t ht
    obtain ⟨v, h1, h2⟩ := lastPageOf_congr hg stat (times d) (d := d) (d' := d) (fun _ _ => rfl) t ht
    rw [h1, h2]
  unfold rules wantedBy
  refine .cons ⟨_, rfl, C86.index_rule _ ok _⟩ (.cons ⟨_, rfl, C86.atom_rule _ ok _⟩
    (.cons ⟨_, rfl, C86.atom_tags_rule _ ok _⟩ (.cons ?_ (.cons ?_ (.cons ⟨_, rfl, C86.posts_rule _ ok _⟩
    (.cons ⟨_, rfl, C86.tags_rule _ ok _⟩ (.cons ⟨_, rfl, C86.pages_rule _ ok _⟩ .nil)))))))
  · obtain ⟨os, h1, h2⟩ := C86.pagination_rule _ ok (shell (S.on cfg d)) (S.exec cfg d) v hv
    rw [hvt]
    refine ⟨_, ?_, h2⟩
    simp only
    rw [h1]
    rfl
  · obtain ⟨os, h1, h2⟩ := C86.pagination_tags_rule _ ok (shell (S.on cfg d)) (S.exec cfg d) _ hv'
    refine ⟨(S.site cfg stat).paginationTagsExec (S.exec cfg d) os, by simp only; rw [h1]; rfl, ?_⟩
    have e : ∀ t, rounds ((S.site cfg (times d)).lastPageOf (shell (S.on cfg d)) t) =
        pageRounds (match (S.site cfg (times d)).lastPageOf (shell (S.on cfg d)) t with | .ok v => v | .ub => none) := by
      intro t
      cases (S.site cfg (times d)).lastPageOf (shell (S.on cfg d)) t <;> rfl
    simp only [e]
    exact h2

/-! ## The invariant -/

theorem shows_same {d d' : Files} {w : Wanted} (hw : Possible (base S cfg) w)
    (h : ∀ i ∈ w.inputs, texts d i = texts d' i) {c : Str} (hs : Shows S cfg d w c) : Shows S cfg d' w c := by
  obtain ⟨o, input, ha, he⟩ := hs
  have ha' : Asked (base S cfg) { S.on cfg d' with stdin := input } o (ownVars w) w.listing none w.entry
      (some w.template) (some w.output) w.sources :=
    ⟨ha.debug, ha.listing, ha.print, ha.entries, ha.template, ha.output, ha.sources, ha.config⟩
  exact ⟨o, input, ha', by rw [← shows_congr hw h ha ha']; exact he⟩

theorem shows_inputs (hg : Good S out cfg) {d d' : Files} (h : SameInputs out d d') {w : Wanted}
    (hw : Possible (base S cfg) w) {c : Str} (hs : Shows S cfg d w c) : Shows S cfg d' w c :=
  shows_same hw (fun i hi => h.text (hg.inputs w hw i hi)) hs

/-- An output that need not be built again has the right text. -/
def Current (S : Setup) (cfg : MakeSettings.Settings) (d : Files) : Prop :=
  ∀ w, Possible (base S cfg) w → ∀ c t, d w.output = some (c, t) → stale (times d) w = false → Shows S cfg d w c

/-- An output is there, with the right text for the files `d₀`. -/
def Done (S : Setup) (cfg : MakeSettings.Settings) (d₀ d : Files) (w : Wanted) : Prop :=
  ∃ text t, d w.output = some (text, t) ∧ Shows S cfg d₀ w text

theorem stale_congr {d d' : Files} {w : Wanted} (ho : d w.output = d' w.output)
    (hi : ∀ i ∈ w.inputs, d i = d' i) : stale (times d) w = stale (times d') w := by
  unfold stale times
  rw [ho]
  cases d' w.output with
  | none => rfl
  | some v =>
    simp only [Option.map_some]
    have : ∀ (l : List Str), (∀ i ∈ l, d i = d' i) →
        (l.any fun i => match (d i).map (·.2) with | none => true | some u => decide (Later u v.2)) =
        l.any fun i => match (d' i).map (·.2) with | none => true | some u => decide (Later u v.2) := by
      intro l
      induction l with
      | nil => intro _; rfl
      | cons x l ih =>
        intro h
        rw [List.any_cons, List.any_cons, ih fun i hi => h i (by simp [hi]), h x (by simp)]
    exact this _ hi

theorem stage_same (hg : Good S out cfg) {ws : List Wanted} (hw : ∀ w ∈ ws, Possible (base S cfg) w)
    {stat : Str → Option (Int × Int)} {d d' : Files} {rv : Int} (h : Stage S cfg stat ws d d' rv) : SameInputs out d d' := by
  intro p hp
  rcases h.only p with e | ⟨w, hw', rfl, -⟩
  · exact e.symm
  · exact absurd (hg.outputs w (hw w hw')).1 hp

theorem stage_done (hg : Good S out cfg) {ws : List Wanted} (hw : ∀ w ∈ ws, Possible (base S cfg) w)
    {stat : Str → Option (Int × Int)} {d₀ d d' : Files} (h₀ : SameInputs out d₀ d) {rv : Int}
    (h : Stage S cfg stat ws d d' rv) {w : Wanted}
    (hp : Possible (base S cfg) w) (hd : Done S cfg d₀ d w) : Done S cfg d₀ d' w := by
  rcases h.only w.output with e | ⟨w', hw', ho, text, t, e, hs⟩
  · obtain ⟨text, t, e', hs⟩ := hd
    exact ⟨text, t, e.trans e', hs⟩
  · have : w' = w := hg.distinct _ _ (hw w' hw') hp ho
    subst this
    exact ⟨text, t, e, shows_inputs hg (fun p hp => (h₀ p hp).symm) hp hs⟩

theorem stage_current (hg : Good S out cfg) {ws : List Wanted} (hw : ∀ w ∈ ws, Possible (base S cfg) w)
    {stat : Str → Option (Int × Int)} {d d' : Files} {rv : Int} (h : Stage S cfg stat ws d d' rv) (hc : Current S cfg d) : Current S cfg d' := by
  have hsame := stage_same hg hw h
  intro w hp c t e hst
  rcases h.only w.output with e' | ⟨w', hw', ho, text, t', e', hs⟩
  · refine shows_inputs hg hsame hp (hc w hp c t (e'.symm.trans e) ?_)
    rw [stale_congr e'.symm fun i hi => hsame i (hg.inputs w hp i hi)]
    exact hst
  · have : w' = w := hg.distinct _ _ (hw w' hw') hp ho
    subst this
    rw [e] at e'
    injection e' with e'
    injection e' with e' _
    subst e'
    exact shows_inputs hg hsame hp hs

/-- All rules, whatever times they see. If these are the times of the files, all outputs
are done. -/
theorem allBy_runs (hg : Good S out cfg) (clock : Str → Int × Int) (stat : Files → Str → Option (Int × Int)) (d₀ : Files)
    {rs : List Rule} {wss : List (List Wanted)}
    (hr : List.Forall₂ (fun (r : Rule) ws => ∀ d, SameInputs out d₀ d →
      ∃ x, r (S.site cfg (stat d)) (S.exec cfg d) (shell (S.on cfg d)) = .ok x ∧
        Does (stat d) (S.exec cfg d) ws x) rs wss)
    (hw : ∀ ws ∈ wss, ∀ w ∈ ws, Possible (base S cfg) w) (d : Files) (h₀ : SameInputs out d₀ d) :
    ∃ d' rv, S.allBy cfg clock stat rs d = some (d', rv) ∧ SameInputs out d₀ d' ∧
      (Current S cfg d → Current S cfg d') ∧
      (∀ p, d' p = d p ∨ ∃ ws ∈ wss, ∃ w ∈ ws, w.output = p) ∧
      (∀ w, Possible (base S cfg) w → Done S cfg d₀ d w → Done S cfg d₀ d' w) ∧
      (rv = 0 → Current S cfg d → (∀ d, SameInputs out d₀ d → stat d = times d) → ∀ ws ∈ wss, ∀ w ∈ ws, Done S cfg d₀ d' w) ∧
      (rv ≠ 0 → ∃ ws ∈ wss, ∃ w ∈ ws, ∀ text, ¬ Shows S cfg d₀ w text) := by
  induction hr generalizing d with
  | nil => exact ⟨d, 0, rfl, h₀, id, fun _ => .inl rfl, fun _ _ h => h, fun _ _ _ ws h => absurd h (by simp),
      fun h => absurd rfl h⟩
  | @cons r ws rs wss h1 _ ih =>
    obtain ⟨⟨jobs, rv⟩, hx, hd⟩ := h1 d h₀
    have hws := hw ws (by simp)
    have hst := stage_of hg (stat d) clock d hws hd
    have hs := stage_same hg hws hst
    have h₁ : SameInputs out d₀ (S.after cfg clock d jobs) := fun p hp => (h₀ p hp).trans (hs p hp)
    have hc' := stage_current hg hws hst
    have back : SameInputs out d d₀ := fun p hp => (h₀ p hp).symm
    have honly : ∀ p, S.after cfg clock d jobs p = d p ∨ ∃ w ∈ ws, w.output = p := by
      intro p
      rcases hst.only p with e | ⟨w, h1, h2, -⟩
      · exact .inl e
      · exact .inr ⟨w, h1, h2⟩
    unfold Setup.allBy
    rw [hx]
    simp only
    by_cases hrv : rv = 0
    · rw [if_neg (by simp [hrv])]
      obtain ⟨d', rv', g1, g2, g3, g7, g4, g5, g6⟩ := ih (fun ws h => hw ws (by simp [h])) _ h₁
      refine ⟨d', rv', g1, g2, fun hc => g3 (hc' hc), ?_, fun w hp h => g4 w hp (stage_done hg hws h₀ hst hp h), ?_, ?_⟩
      · intro p
        rcases g7 p with e | ⟨ws', h1, h2⟩
        · rcases honly p with e' | h
          · exact .inl (e.trans e')
          · exact .inr ⟨ws, by simp, h⟩
        · exact .inr ⟨ws', by simp [h1], h2⟩
      · intro e hc htimes ws' hws' w hwm
        rcases List.mem_cons.1 hws' with rfl | hws'
        · refine g4 w (hws w hwm) ?_
          have hall := hst.all hrv w hwm
          rw [htimes d h₀] at hall
          cases hstale : stale (times d) w with
          | true =>
            obtain ⟨text, t, e1, e2⟩ := hall hstale
            exact ⟨text, t, e1, shows_inputs hg back (hws w hwm) e2⟩
          | false =>
            refine stage_done hg hws h₀ hst (hws w hwm) ?_
            cases ho : d w.output with
            | none => unfold stale times at hstale; rw [ho] at hstale; cases hstale
            | some v => exact ⟨v.1, v.2, ho, shows_inputs hg back (hws w hwm) (hc w (hws w hwm) v.1 v.2 ho hstale)⟩
        · exact g5 e (hc' hc) htimes ws' hws' w hwm
      · intro e
        obtain ⟨ws', h1, h2⟩ := g6 e
        exact ⟨ws', by simp [h1], h2⟩
    · rw [if_pos hrv]
      refine ⟨_, rv, rfl, h₁, hc', fun p => ?_, fun w hp h => stage_done hg hws h₀ hst hp h, fun e => absurd e hrv, ?_⟩
      · rcases honly p with e | h
        · exact .inl e
        · exact .inr ⟨ws, by simp, h⟩
      intro _
      obtain ⟨w, hwm, -, hn⟩ := hst.fails hrv
      exact ⟨ws, by simp, w, hwm, fun text hs => hn text (shows_inputs hg h₀ (hws w hwm) hs)⟩

theorem allBy_times (clock : Str → Int × Int) (rs : List Rule) (d : Files) :
    S.allBy cfg clock times rs d = S.all cfg clock rs d := by
  induction rs generalizing d with
  | nil => rfl
  | cons r rs ih =>
    unfold Setup.allBy Setup.all
    simp only [ih]
    cases r (S.site cfg (times d)) (S.exec cfg d) (shell (S.on cfg d)) <;> rfl

/-- The rules of a build, whatever times they see. -/
theorem rules_run (hg : Good S out cfg) (clock : Str → Int × Int) (stat : Files → Str → Option (Int × Int)) (d : Files) :
    ∃ d' rv, S.allBy cfg clock stat rules d = some (d', rv) ∧ SameInputs out d d' ∧
      (Current S cfg d → Current S cfg d') ∧
      (∀ p, d' p = d p ∨ ∃ w, Wants S cfg d w ∧ w.output = p) ∧
      (rv = 0 → Current S cfg d → (∀ d', SameInputs out d d' → stat d' = times d') →
        ∀ w, Wants S cfg d w → Done S cfg d d' w) ∧
      (rv ≠ 0 → ∃ w, Wants S cfg d w ∧ ∀ text, ¬ Shows S cfg d w text) := by
  obtain ⟨d', rv, g1, g2, g3, g4, -, g5, g6⟩ := allBy_runs hg clock stat d (rs := rules) (wss := wantedBy S cfg d) (by
      have := fun d' (h : SameInputs out d d') => wantedBy_congr hg h ▸ rules_do hg (stat d') d'
      have hl := (rules_do hg (stat d) d).length_eq
      rw [List.forall₂_iff_get]
      refine ⟨hl, fun i h1 h2 d' h => ?_⟩
      exact (List.forall₂_iff_get.1 (this d' h)).2 i h1 h2)
    (fun ws h1 w h2 => possible ⟨ws, h1, h2⟩) d (fun _ _ => rfl)
  refine ⟨d', rv, g1, g2, g3, fun p => ?_, fun e hc ht w ⟨ws, h1, h2⟩ => g5 e hc ht ws h1 w h2, fun e => ?_⟩
  · rcases g4 p with e | ⟨ws, h1, w, h2, h3⟩
    · exact .inl e
    · exact .inr ⟨w, ⟨ws, h1, h2⟩, h3⟩
  · obtain ⟨ws, h1, w, h2, h3⟩ := g6 e
    exact ⟨w, ⟨ws, h1, h2⟩, h3⟩

theorem build_runs (hg : Good S out cfg) (clock : Str → Int × Int) (d : Files) (hcfg : S.config d = some cfg)
    (hc : Current S cfg d) :
    ∃ d' rv, S.build clock d = some (d', rv) ∧ SameInputs out d d' ∧ Current S cfg d' ∧
      (rv = 0 → ∀ w, Wants S cfg d w → Done S cfg d d' w) ∧
      (rv ≠ 0 → ∃ w, Wants S cfg d w ∧ ∀ text, ¬ Shows S cfg d w text) := by
  obtain ⟨d', rv, g1, g2, g3, -, g5, g6⟩ := rules_run hg clock times d
  refine ⟨d', rv, ?_, g2, g3 hc, fun e => g5 e hc fun _ _ => rfl, g6⟩
  unfold Setup.build
  rw [hcfg, ← g1, allBy_times]

theorem current_put_none {d : Files} (p : Str)
    (hc : Current S cfg d) : Current S cfg (put d p none) := by
  intro w hp c t e hst
  have hno : p ∉ w.inputs := by
    intro hi
    unfold stale times at hst
    rw [e] at hst
    simp only [Option.map_some] at hst
    have := List.any_eq_false.1 hst p hi
    simp [put] at this
  have ho : put d p none w.output = d w.output := by
    unfold put at e ⊢
    split at e
    · cases e
    · rename_i hne; rw [if_neg hne]
  have hi : ∀ i ∈ w.inputs, put d p none i = d i := by
    intro i hi
    unfold put
    rw [if_neg (by rintro rfl; exact hno hi)]
  refine shows_same hp (fun i h => by unfold texts; rw [hi i h]) (hc w hp c t (ho.symm.trans e) ?_)
  rw [← stale_congr ho hi]
  exact hst

end Blogc.C100
