import Verif.Lemmas.StaticSample
import Verif.Props.C100

/-!
# C108: static files are up to date after any history

The full statement: however a site was edited and built before, after a build that
succeeds the output directory has, at the same paths, exactly the files named by the
section `[copy]` and those in the directories that it names, with the same contents;
and another build copies nothing. It is violated (see the end) by files that are not
newer than their copies although they were changed later, by files that were removed,
and if a directory that is copied contains the output directory.
-/

namespace Blogc.C108

open Blogc Blogc.Make Blogc.Build Blogc.C100
open Blogc.Spec.MakeJobs Blogc.Spec.Incremental Blogc.Spec.StaticFiles
open Blogc.Spec.MakeCopy (Found Below under)

variable {S : Setup} {disk : Files → Str → Forest} {out : Str → Prop}

/-- Without settings, or with settings that are not accepted, nothing is copied and the status is 1. -/
theorem no_settings (d : Files) (clock : Str → Int × Int)
    (h : ∀ text t, d S.settingsFile = some (text, t) → S.settings text = none) :
    S.buildAll disk clock d = some (d, 1) := by
  have : S.config d = none := by
    unfold Setup.config texts
    cases hd : d S.settingsFile with
    | none => rfl
    | some v => exact h v.1 v.2 hd
  unfold Setup.buildAll
  rw [this]

/-- After any history, what is there and is not old is right. -/
theorem reached_current {d : Files} (h : Reached S disk out d) : Right S out d := by
  induction h with
  | start d h =>
    intro cfg hcfg hg hgc
    refine ⟨reachable_current (.start d h) cfg hcfg hg, fun f q hst x _ hold => ?_⟩
    exfalso
    apply hold
    intro t ht
    unfold times at ht
    rw [h _ (hgc.dests f q hst)] at ht
    cases ht
  | edit d p text now _ hp hnew ih => exact right_edit ih p text now hp hnew
  | remove d p _ ih => exact right_remove ih p
  | build d d' clock rv _ hgood hb ih =>
    intro cfg hcfg _ _
    cases hc : S.config d with
    | none =>
      unfold Setup.buildAll at hb
      rw [hc] at hb
      injection hb with hb
      injection hb with hb _
      subst hb
      rw [hc] at hcfg
      cases hcfg
    | some cfg' =>
      obtain ⟨hg, hgc, hsee⟩ := hgood cfg' hc
      obtain ⟨h1, h2⟩ := ih cfg' hc hg hgc
      obtain ⟨d₁, d'', rv', -, g1, g2, g3, -, g4, g5, -⟩ := buildAll_runs hg hgc disk clock d hc hsee h1
      rw [hb] at g1
      injection g1 with g1
      injection g1 with g1 g1'
      subst g1 g1'
      have e : S.config d' = S.config d := by
        unfold Setup.config
        rw [g2.text hg.settingsFile]
      rw [e, hc] at hcfg
      injection hcfg with hcfg
      subst hcfg
      refine ⟨g3, fun f q hst x hx hold => ?_⟩
      rw [← g2.text (hgc.sources f q hst)] at hx
      have hkeep : d' (dest S f q) = d (dest S f q) → texts d' (dest S f q) = some x := by
        intro e
        have e' := old_congr e (g2 _ hg.settingsFile).symm (g2 _ (hgc.sources f q hst)).symm
        rw [e'] at hold
        have := h2 f q hst x hx hold
        unfold texts at this ⊢
        rw [e]
        exact this
      by_cases hrv : rv = 0
      · rcases g5 hrv f q hst x hx with ⟨-, e⟩ | ⟨-, e⟩
        · unfold texts
          rw [e]
          rfl
        · exact hkeep e
      · exact hkeep (g4 hrv f q hst)

/-- However the site was edited and built before, a build is defined and leaves the
files of the user. If it succeeds, every page that is wanted is there with the text that
blogc gives for the files as they are, and every static file has a copy with the same
contents at the same path below the output directory. It fails only if blogc gives no
text for one of the pages. -/
theorem up_to_date_partial {d : Files} (h : Reached S disk out d) (cfg : MakeSettings.Settings)
    (hcfg : S.config d = some cfg) (hnow : CopyNow S disk out d) (clock : Str → Int × Int) :
    ∃ d' rv, S.buildAll disk clock d = some (d', rv) ∧ (∀ p, ¬ out p → d' p = d p) ∧
      (rv = 0 → (∀ w, Wants S cfg d w → ∃ text t, d' w.output = some (text, t) ∧ Shows S cfg d w text) ∧
        ∀ f q, Static cfg f q → ∀ x, texts d (source S f q) = some x → texts d' (dest S f q) = some x) ∧
      (rv ≠ 0 → ∃ w, Wants S cfg d w ∧ ∀ text, ¬ Shows S cfg d w text) := by
  obtain ⟨hg, hgc, hsee⟩ := hnow cfg hcfg
  obtain ⟨h1, h2⟩ := reached_current h cfg hcfg hg hgc
  obtain ⟨d₁, d', rv, e, g1, g2, -, g3, -, g5, -⟩ := buildAll_runs hg hgc disk clock d hcfg hsee h1
  obtain ⟨d₁', rv', e', -, -, f1, f2⟩ := build_runs hg clock d hcfg h1
  rw [e] at e'
  injection e' with e'
  injection e' with e' e''
  subst e' e''
  refine ⟨d', rv, g1, fun p hp => (g2 p hp).symm, fun hrv => ⟨fun w hw => ?_, fun f q hst x hx => ?_⟩, f2⟩
  · rw [g3 w (possible hw)]
    exact f1 hrv w hw
  · rcases g5 hrv f q hst x hx with ⟨-, e⟩ | ⟨hold, e⟩
    · unfold texts
      rw [e]
      rfl
    · have := h2 f q hst x hx hold
      unfold texts at this ⊢
      rw [e]
      exact this

/-- A build succeeds if and only if a build from scratch does, and then all pages and
all copies of static files have the same texts. -/
theorem incremental_partial {d d₀ : Files} (h : Reached S disk out d) (h₀ : Cleaned out d d₀)
    (cfg : MakeSettings.Settings) (hcfg : S.config d = some cfg) (hnow : CopyNow S disk out d)
    (hnow₀ : CopyNow S disk out d₀) (clock clock₀ : Str → Int × Int) :
    ∃ d' rv d₀' rv₀, S.buildAll disk clock d = some (d', rv) ∧ S.buildAll disk clock₀ d₀ = some (d₀', rv₀) ∧
      (rv = 0 ↔ rv₀ = 0) ∧
      (rv = 0 → (∀ w, Wants S cfg d w → ∃ text, texts d' w.output = some text ∧ texts d₀' w.output = some text) ∧
        ∀ f q, Static cfg f q → ∀ x, texts d (source S f q) = some x →
          texts d' (dest S f q) = some x ∧ texts d₀' (dest S f q) = some x) := by
  obtain ⟨hg, hgc, -⟩ := hnow cfg hcfg
  have hsame : SameInputs out d d₀ := fun p hp => (h₀.2 p hp).symm
  have hback : SameInputs out d₀ d := fun p hp => h₀.2 p hp
  have hcfg₀ : S.config d₀ = some cfg := by
    rw [← hcfg]
    unfold Setup.config
    rw [hback.text hg.settingsFile]
  have hw : ∀ w, Wants S cfg d w ↔ Wants S cfg d₀ w := by
    intro w
    unfold Wants
    rw [wantedBy_congr hg hsame]
  obtain ⟨d', rv, g1, -, g2, g3⟩ := up_to_date_partial h cfg hcfg hnow clock
  obtain ⟨d₀', rv₀, f1, -, f2, f3⟩ := up_to_date_partial (.start d₀ h₀.1) cfg hcfg₀ hnow₀ clock₀
  have hiff : rv = 0 ↔ rv₀ = 0 := by
    constructor
    · intro e
      by_contra hne
      obtain ⟨w, h1, h2⟩ := f3 hne
      obtain ⟨text, t, -, h3⟩ := (g2 e).1 w ((hw w).2 h1)
      exact h2 text (shows_inputs hg hsame (possible h1) h3)
    · intro e
      by_contra hne
      obtain ⟨w, h1, h2⟩ := g3 hne
      obtain ⟨text, t, -, h3⟩ := (f2 e).1 w ((hw w).1 h1)
      exact h2 text (shows_inputs hg hback (possible h1) h3)
  refine ⟨d', rv, d₀', rv₀, g1, f1, hiff, fun e => ⟨fun w hww => ?_, fun f q hst x hx => ?_⟩⟩
  · obtain ⟨text, t, h1, h2⟩ := (g2 e).1 w hww
    obtain ⟨text₀, t₀, h1₀, h2₀⟩ := (f2 (hiff.1 e)).1 w ((hw w).1 hww)
    have := determined (possible hww) (fun i hi => hsame.text (hg.inputs w (possible hww) i hi)) h2 h2₀
    subst this
    exact ⟨text, by unfold texts; rw [h1]; rfl, by unfold texts; rw [h1₀]; rfl⟩
  · refine ⟨(g2 e).2 f q hst x hx, (f2 (hiff.1 e)).2 f q hst x ?_⟩
    rw [← hsame.text (hgc.sources f q hst)]
    exact hx

/-- A build writes only pages that `S.build` writes and copies of static files that are
missing or old, and a build that succeeds writes all of these. -/
theorem only_old {d d' : Files} {rv : Int} (h : Reached S disk out d) (cfg : MakeSettings.Settings)
    (hcfg : S.config d = some cfg) (hnow : CopyNow S disk out d) (clock : Str → Int × Int)
    (hb : S.buildAll disk clock d = some (d', rv)) :
    (∀ p, d' p ≠ d p → (∃ w, Wants S cfg d w ∧ w.output = p ∧ stale (times d) w = true) ∨
      ∃ f q, Static cfg f q ∧ p = dest S f q ∧ Old S d f q ∧ (d (source S f q)).isSome) ∧
    (rv = 0 → ∀ f q, Static cfg f q → ∀ x, texts d (source S f q) = some x → Old S d f q →
      d' (dest S f q) = some (x, clock (dest S f q))) := by
  obtain ⟨hg, hgc, hsee⟩ := hnow cfg hcfg
  obtain ⟨h1, -⟩ := reached_current h cfg hcfg hg hgc
  obtain ⟨d₁, d'', rv', e, g1, -, -, -, -, g5, g6⟩ := buildAll_runs hg hgc disk clock d hcfg hsee h1
  rw [hb] at g1
  injection g1 with g1
  injection g1 with g1 g1'
  subst g1 g1'
  refine ⟨fun p hp => ?_, fun hrv f q hst x hx hold => ?_⟩
  · rcases g6 p with e1 | ⟨-, f, q, hst, e2, hold, x, hx, -⟩
    · rcases C101.only_needed hg clock hcfg e p with e2 | ⟨w, hw, ho, hstale, -⟩
      · exact absurd (e1.trans e2) hp
      · exact .inl ⟨w, hw, ho, hstale⟩
    · obtain ⟨t, ht⟩ := text_time hx
      exact .inr ⟨f, q, hst, e2, hold, by rw [ht]; rfl⟩
  · rcases g5 hrv f q hst x hx with ⟨-, e⟩ | ⟨hn, -⟩
    · exact e
    · exact absurd hold hn

/-- Right after a build that succeeded, another one writes nothing, if the clock was not
behind the files and the directories are seen again. -/
theorem idle_partial {d d' : Files} (h : Reached S disk out d) (cfg : MakeSettings.Settings)
    (hcfg : S.config d = some cfg) (hnow : CopyNow S disk out d) (hnow' : CopyNow S disk out d')
    (clock clock' : Str → Int × Int) (hb : S.buildAll disk clock d = some (d', 0))
    (hpages : ∀ w, Wants S cfg d w → InTime clock d w)
    (hcopies : ∀ f q, Static cfg f q → CopiedInTime S clock d f q) :
    S.buildAll disk clock' d' = some (d', 0) := by
  obtain ⟨hg, hgc, hsee⟩ := hnow cfg hcfg
  obtain ⟨h1, -⟩ := reached_current h cfg hcfg hg hgc
  obtain ⟨d₁, d'', rv', e, g1, g2, g3, g4, -, g5, -⟩ := buildAll_runs hg hgc disk clock d hcfg hsee h1
  rw [hb] at g1
  injection g1 with g1
  injection g1 with g1 g1'
  subst g1 g1'
  have hcfg' : S.config d' = some cfg := by
    rw [← hcfg]
    unfold Setup.config
    rw [g2.text hg.settingsFile]
  obtain ⟨-, -, hsee'⟩ := hnow' cfg hcfg'
  obtain ⟨-, hw, hfresh⟩ := C101.nothing_stale hg clock hcfg e hpages
  obtain ⟨hw1, -⟩ := C101.build_writes hg clock hcfg e
  have hsame₁ : SameInputs out d d₁ := hw1.same hg fun w h => possible h
  have hidle : S.build clock' d' = some (d', 0) := by
    refine C101.build_idle hg clock' hcfg' fun w hww => ?_
    have hww : Wants S cfg d w := by
      unfold Wants at hww ⊢
      rw [wantedBy_congr hg g2]
      exact hww
    rw [stale_congr (g4 w (possible hww)) fun i hi => ?_]
    · exact hfresh w hww
    · have hi := hg.inputs w (possible hww) i hi
      exact (g2 i hi).symm.trans (hsame₁ i hi)
  have hr : Reached S disk out d' := .build d d' clock 0 h hnow hb
  obtain ⟨h1', -⟩ := reached_current hr cfg hcfg' hg hgc
  obtain ⟨d₂, d₃, rv, k1, k2, -, -, -, -, -, k6⟩ := buildAll_runs hg hgc disk clock' d' hcfg' hsee' h1'
  rw [hidle] at k1
  injection k1 with k1
  injection k1 with k1 k1'
  subst k1 k1'
  rw [k2]
  congr 2
  funext p
  rcases k6 p with e | ⟨-, f, q, hst, -, hold, x, hx, -⟩
  · exact e
  · exfalso
    rw [← g2.text (hgc.sources f q hst)] at hx
    have hclock := hcopies f q hst
    have hinp : ∀ i ∈ [S.settingsFile, source S f q], times d' i = times d i := by
      intro i hi
      have : ¬ out i := by
        simp only [List.mem_cons, List.not_mem_nil, or_false] at hi
        rcases hi with rfl | rfl
        · exact hg.settingsFile
        · exact hgc.sources f q hst
      unfold times
      rw [g2 i this]
    rcases g5 rfl f q hst x hx with ⟨-, e⟩ | ⟨hn, e⟩
    · obtain ⟨i, hi, u, hu, hl⟩ := hold (clock (dest S f q)) (by unfold times; rw [e]; rfl)
      rw [hinp i hi] at hu
      exact hclock i hi u hu hl
    · exact hn ((old_congr e (g2 _ hg.settingsFile).symm (g2 _ (hgc.sources f q hst)).symm).1 hold)

/-! ## A history

The site was built at second 2; at second 3 the static file was changed. -/

def staticEdited : Files := put staticOnce fileA (some (b!"two", (3, 0)))

theorem staticOnce_same : ∀ p, ¬ isOut p → staticOnce p = staticFiles p := by
  obtain ⟨h1, -⟩ := reached_current static_start staticCfg rfl static_good static_goodCopy
  obtain ⟨d₁, d', rv, -, g1, g2, -⟩ := buildAll_runs static_good static_goodCopy staticDisk (fun _ => (2, 0))
    staticFiles rfl (static_now static_onlyA staticCfg rfl).2.2 h1
  have hf := static_first
  unfold allAt at hf
  rw [hf] at g1
  simp only [Option.some.injEq, Prod.mk.injEq] at g1
  have hd : staticOnce = d' := g1.1
  rw [← hd] at g2
  exact fun p hp => (g2 p hp).symm

theorem staticOnce_onlyA : OnlyA staticOnce := onlyA_same static_onlyA staticOnce_same

/-- What was built then has the time of the build. -/
theorem staticOnce_times (q : Str) (c : Str) (t : Int × Int) (hq : isOut q) (h : staticOnce q = some (c, t)) :
    t = (2, 0) := by
  obtain ⟨h1, -⟩ := reached_current static_start staticCfg rfl static_good static_goodCopy
  obtain ⟨d₁, d', rv, e, g1, g2, -, -, -, -, g6⟩ := buildAll_runs static_good static_goodCopy staticDisk
    (fun _ => (2, 0)) staticFiles rfl (static_now static_onlyA staticCfg rfl).2.2 h1
  have hf := static_first
  unfold allAt at hf
  rw [hf] at g1
  simp only [Option.some.injEq, Prod.mk.injEq] at g1
  have hd : staticOnce = d' := g1.1
  rw [← hd] at g2 g6
  have hstart : staticFiles q = none := by
    unfold staticFiles put
    rw [if_neg, sampleFiles_out q hq]
    rintro rfl
    exact static_notOut [b!"a"] hq
  rcases g6 q with e1 | ⟨-, -, -, -, -, -, x, -, e1⟩
  · rcases C101.only_needed static_good _ rfl e q with e2 | ⟨-, -, -, -, text, e2⟩
    · rw [e2, hstart] at e1
      rw [h] at e1
      cases e1
    · exact congrArg Prod.snd (Option.some.inj (h.symm.trans (e1.trans e2)))
  · exact congrArg Prod.snd (Option.some.inj (h.symm.trans e1))

theorem staticEdited_reached : Reached staticSite staticDisk isOut staticEdited :=
  .edit _ _ _ _ staticOnce_reached (static_notOut [b!"a"]) fun q c t hq h => by
    rw [staticOnce_times q c t hq h]
    exact .inl (by decide)

example : staticSite.config staticEdited = some staticCfg ∧ CopyNow staticSite staticDisk isOut staticEdited ∧
    Static staticCfg b!"static" [b!"a"] ∧ source staticSite b!"static" [b!"a"] = fileA ∧
    dest staticSite b!"static" [b!"a"] = copyA :=
  ⟨static_config (by decide +kernel), static_now (onlyA_put staticOnce_onlyA _), ⟨List.mem_singleton.2 rfl, by decide⟩,
    by decide +kernel, by decide +kernel⟩

example : texts staticOnce copyA = some b!"one" ∧ status? (allAt 4 staticEdited) = some 0 ∧
    text? (allAt 4 staticEdited) copyA = some b!"two" ∧
    (allAt 4 staticEdited).bind (fun r => times r.1 copyA) = some (4, 0) ∧
    (allAt 4 staticEdited).bind (fun r => times r.1 first) = some (2, 0) := by decide +kernel

example : ∀ f q, Static staticCfg f q → CopiedInTime staticSite (fun _ => (2, 0)) staticFiles f q := by
  intro f q hst i hi u hu
  rw [static_entry hst] at hi
  have hi : i = b!"/site/blogcfile" ∨ i = under b!"/site/static" q := by
    simpa [source, show absPath staticSite.root b!"static" = b!"/site/static" by decide +kernel,
      show staticSite.settingsFile = b!"/site/blogcfile" from rfl] using hi
  have : u = (1, 0) := by
    rcases hi with rfl | rfl
    · exact (Option.some.inj (hu.symm.trans (show times staticFiles b!"/site/blogcfile" = some (1, 0) by decide +kernel)))
    · by_cases hq : q = [b!"a"]
      · subst hq
        exact (Option.some.inj (hu.symm.trans
          (show times staticFiles (under b!"/site/static" [b!"a"]) = some (1, 0) by decide +kernel)))
      · unfold times at hu
        rw [static_onlyA q hst.2 hq] at hu
        cases hu
  rw [this]
  show ¬ Later (1, 0) (2, 0)
  unfold Later
  decide

example : staticSite.buildAll staticDisk (fun _ => (4, 0)) (put staticFiles staticSite.settingsFile none) =
    some (put staticFiles staticSite.settingsFile none, 1) :=
  no_settings _ _ fun text t h => by
    unfold put at h
    rw [if_pos rfl] at h; cases h

/-! ## Violations -/

/-- A static file that was replaced by another one that keeps its time (as mv and tar
do) is not copied: the old contents stay. -/
theorem moved_violated : ∃ (S : Setup) (disk : Files → Str → Forest) (out : Str → Prop) (d : Files) (p : Str)
    (text : Str) (t : Int × Int), Reached S disk out d ∧ ¬ out p ∧ CopyNow S disk out (put d p (some (text, t))) ∧
    ∃ clock d' cfg f q, S.buildAll disk clock (put d p (some (text, t))) = some (d', 0) ∧
      S.config (put d p (some (text, t))) = some cfg ∧ Static cfg f q ∧ source S f q = p ∧
      texts d' (dest S f q) ≠ some text := by
  have h : status? (allAt 4 (put staticOnce fileA (some (b!"two", (1, 5))))) = some 0 := by decide +kernel
  have ht : text? (allAt 4 (put staticOnce fileA (some (b!"two", (1, 5))))) copyA = some b!"one" := by decide +kernel
  obtain ⟨d', h⟩ := of_status h
  rw [h] at ht
  refine ⟨staticSite, staticDisk, isOut, staticOnce, fileA, b!"two", (1, 5), staticOnce_reached,
    static_notOut [b!"a"], static_now (onlyA_put staticOnce_onlyA _), _, d', staticCfg, b!"static", [b!"a"], h,
    static_config (by decide +kernel), ⟨List.mem_singleton.2 rfl, by decide⟩, by decide +kernel, ?_⟩
  rw [show dest staticSite b!"static" [b!"a"] = copyA by decide +kernel, show texts d' copyA = some b!"one" from ht]
  decide

/-- The copy of a static file that was removed stays. -/
theorem leftover_violated : ∃ (S : Setup) (disk : Files → Str → Forest) (out : Str → Prop) (d : Files),
    Reached S disk out d ∧ CopyNow S disk out d ∧
    ∃ clock d' cfg f q, S.buildAll disk clock d = some (d', 0) ∧ S.config d = some cfg ∧ Static cfg f q ∧
      d (source S f q) = none ∧ (d' (dest S f q)).isSome := by
  have h : status? (allAt 4 (put staticOnce fileA none)) = some 0 := by decide +kernel
  have ht : text? (allAt 4 (put staticOnce fileA none)) copyA = some b!"one" := by decide +kernel
  obtain ⟨d', h⟩ := of_status h
  rw [h] at ht
  refine ⟨staticSite, staticDisk, isOut, put staticOnce fileA none, .remove _ _ staticOnce_reached,
    static_now (onlyA_put staticOnce_onlyA _), _, d', staticCfg, b!"static", [b!"a"], h,
    static_config (by decide +kernel), ⟨List.mem_singleton.2 rfl, by decide⟩, ?_, ?_⟩
  · rw [show source staticSite b!"static" [b!"a"] = fileA by decide +kernel]
    exact if_pos rfl
  · rw [show dest staticSite b!"static" [b!"a"] = copyA by decide +kernel]
    obtain ⟨t, e⟩ := text_time (show texts d' copyA = some b!"one" from ht)
    rw [e]
    rfl

/-- If a directory that is copied contains the output directory, the copies are copied
again by the next build, although nothing was changed. -/
theorem nested_violated : ∃ (S : Setup) (disk : Files → Str → Forest) (d d₁ d₂ : Files) (clock clock' : Str → Int × Int)
    (cfg : MakeSettings.Settings) (f : Str), S.config d = some cfg ∧ cfg.copy = some [f] ∧
    Sees (disk d) d (absPath S.root f) ∧ S.buildAll disk clock d = some (d₁, 0) ∧
    Sees (disk d₁) d₁ (absPath S.root f) ∧ S.buildAll disk clock' d₁ = some (d₂, 0) ∧
    ∃ p, d₁ p = none ∧ (d₂ p).isSome :=
  ⟨nestedSite, nestedDisk, nestedFiles, nested1, nested2, _, _, nestedCfg, b!"www", rfl, rfl, nested_sees1, nested_build1,
    nested_sees2, nested_build2, copy2, rfl, rfl⟩

end Blogc.C108
