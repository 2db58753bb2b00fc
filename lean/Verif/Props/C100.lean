import Verif.Lemmas.Incremental
import Verif.Lemmas.IncrementalSample

/-!
# C100: an incremental build gives what a clean build gives

The full statement: however a site was edited and built before, after a build that
succeeds every output is what a build from scratch would give. It is violated (see
the end) by files that are not newer than the outputs although they were changed
later, by outputs that a killed build left incomplete, and by builds with other
options.
-/

namespace Blogc.C100

open Blogc Blogc.Make Blogc.Build
open Blogc.Spec.MakeJobs Blogc.Spec.MakeRun Blogc.Spec.Incremental

variable {S : Setup} {out : Str → Prop}

theorem reachable_current {d : Files} (h : Reachable S out d) :
    ∀ cfg, S.config d = some cfg → Good S out cfg → Current S cfg d := by
  induction h with
  | start d h =>
    intro cfg hcfg hg w hp c t e
    rw [h _ (hg.outputs w hp).1] at e
    cases e
  | edit d p text now _ hp hnew ih =>
    intro cfg hcfg hg w hw c t e hst
    have hne : w.output ≠ p := fun e => hp (e ▸ (hg.outputs w hw).1)
    have ho : put d p (some (text, now)) w.output = d w.output := if_neg hne
    have hno : p ∉ w.inputs := by
      intro hi
      unfold stale times at hst
      rw [e] at hst
      have := List.any_eq_false.1 hst p hi
      rw [ho] at e
      simp only [put, if_true, Option.map_some, decide_eq_true_eq] at this
      exact this (hnew w.output c t (hg.outputs w hw).1 e)
    have hi : ∀ i ∈ w.inputs, put d p (some (text, now)) i = d i := fun i h =>
      if_neg (by rintro rfl; exact hno h)
    have hcfg' : S.config d = some cfg := by
      rw [← hcfg]
      unfold Setup.config texts
      rw [hi _ (complete hw).settings]
    refine shows_same hw (fun i h => by unfold texts; rw [hi i h]) (ih cfg hcfg' hg w hw c t (ho.symm.trans e) ?_)
    rw [← stale_congr ho hi]
    exact hst
  | remove d p _ ih =>
    intro cfg hcfg hg w hw c t e hst
    have hs : p ≠ S.settingsFile := by
      rintro rfl
      unfold Setup.config texts put at hcfg
      rw [if_pos rfl] at hcfg
      cases hcfg
    have hcfg' : S.config d = some cfg := by
      rw [← hcfg]
      unfold Setup.config texts put
      rw [if_neg (Ne.symm hs)]
    exact current_put_none p (ih cfg hcfg' hg) w hw c t e hst
  | build d d' clock rv _ hgood hb ih =>
    intro cfg hcfg _
    cases hc : S.config d with
    | none =>
      unfold Setup.build at hb
      rw [hc] at hb
      injection hb with hb
      injection hb with hb _
      subst hb
      rw [hc] at hcfg
      cases hcfg
    | some cfg' =>
      have hg := hgood cfg' hc
      obtain ⟨d'', rv', g1, g2, g3, -, -⟩ := build_runs hg clock d hc (ih cfg' hc hg)
      rw [hb] at g1
      injection g1 with g1
      injection g1 with g1 _
      subst g1
      have e : S.config d' = S.config d := by
        unfold Setup.config
        rw [g2.text hg.settingsFile]
      rw [e, hc] at hcfg
      injection hcfg with hcfg
      subst hcfg
      exact g3

/-- A build is defined, and if it succeeds, every output that is wanted is there, and
its text is what blogc gives for the files as they are now. If it fails, blogc gives
no text for one of the outputs. -/
theorem up_to_date {d : Files} (h : Reachable S out d) (cfg : MakeSettings.Settings)
    (hcfg : S.config d = some cfg) (hg : Good S out cfg) (clock : Str → Int × Int) :
    ∃ d' rv, S.build clock d = some (d', rv) ∧ (∀ p, ¬ out p → d' p = d p) ∧
      (rv = 0 → ∀ w, Wants S cfg d w → ∃ text t, d' w.output = some (text, t) ∧ Shows S cfg d w text) ∧
      (rv ≠ 0 → ∃ w, Wants S cfg d w ∧ ∀ text, ¬ Shows S cfg d w text) := by
  obtain ⟨d', rv, g1, g2, -, g4, g5⟩ := build_runs hg clock d hcfg (reachable_current h cfg hcfg hg)
  exact ⟨d', rv, g1, fun p hp => (g2 p hp).symm, g4, g5⟩

/-- The text of a run is determined by the contents of its inputs. -/
theorem determined {cfg : MakeSettings.Settings} {d d' : Files} {w : Wanted} (hw : Possible (base S cfg) w)
    (h : ∀ i ∈ w.inputs, texts d i = texts d' i) {t t' : Str} (hs : Shows S cfg d w t) (hs' : Shows S cfg d' w t') :
    t = t' := by
  obtain ⟨o, i, h1, h2⟩ := hs
  obtain ⟨o', i', h1', h2'⟩ := hs'
  rw [shows_congr hw h h1 h1', h2'] at h2
  injection h2 with h2
  injection h2 with h2 _
  injection h2 with _ h2
  exact h2.symm

/-- However the site was edited and built before, a build succeeds if and only if a
build from scratch does, and then all outputs have the same texts. The outputs that
are wanted are the same, too. -/
theorem incremental_partial {d d₀ : Files} (h : Reachable S out d) (h₀ : Cleaned out d d₀)
    (cfg : MakeSettings.Settings) (hcfg : S.config d = some cfg) (hg : Good S out cfg) (clock clock₀ : Str → Int × Int) :
    ∃ d' rv d₀' rv₀, S.build clock d = some (d', rv) ∧ S.build clock₀ d₀ = some (d₀', rv₀) ∧
      (rv = 0 ↔ rv₀ = 0) ∧ (∀ w, Wants S cfg d w ↔ Wants S cfg d₀ w) ∧
      (rv = 0 → ∀ w, Wants S cfg d w → ∃ text, texts d' w.output = some text ∧ texts d₀' w.output = some text) := by
  have hsame : SameInputs out d d₀ := fun p hp => (h₀.2 p hp).symm
  have hback : SameInputs out d₀ d := fun p hp => h₀.2 p hp
  have hcfg₀ : S.config d₀ = some cfg := by
    rw [← hcfg]
    unfold Setup.config
    rw [hback.text hg.settingsFile]
  have hw : ∀ w, Wants S cfg d w ↔ Wants S cfg d₀ w := by
    intro w
    unfold Wants
    rw [wantedBy_congr hg hsame]
  obtain ⟨d', rv, g1, -, g2, g3⟩ := up_to_date h cfg hcfg hg clock
  obtain ⟨d₀', rv₀, f1, -, f2, f3⟩ := up_to_date (.start d₀ h₀.1) cfg hcfg₀ hg clock₀
  refine ⟨d', rv, d₀', rv₀, g1, f1, ⟨fun e => ?_, fun e => ?_⟩, hw, ?_⟩
  · by_contra hne
    obtain ⟨w, h1, h2⟩ := f3 hne
    obtain ⟨text, t, -, h3⟩ := g2 e w ((hw w).2 h1)
    exact h2 text (shows_inputs hg hsame (possible h1) h3)
  · by_contra hne
    obtain ⟨w, h1, h2⟩ := g3 hne
    obtain ⟨text, t, -, h3⟩ := f2 e w ((hw w).1 h1)
    exact h2 text (shows_inputs hg hback (possible h1) h3)
  · intro e w hww
    have e₀ : rv₀ = 0 := by
      by_contra hne
      obtain ⟨w, h1, h2⟩ := f3 hne
      obtain ⟨text, t, -, h3⟩ := g2 e w ((hw w).2 h1)
      exact h2 text (shows_inputs hg hsame (possible h1) h3)
    obtain ⟨text, t, h1, h2⟩ := g2 e w hww
    obtain ⟨text₀, t₀, h1₀, h2₀⟩ := f2 e₀ w ((hw w).1 hww)
    have := determined (possible hww) (fun i hi => hsame.text (hg.inputs w (possible hww) i hi)) h2 h2₀
    subst this
    refine ⟨text, ?_, ?_⟩
    · unfold texts; rw [h1]; rfl
    · unfold texts; rw [h1₀]; rfl

/-- Without settings, or with settings that are not accepted, a build changes nothing and fails with status 1. -/
theorem no_settings (d : Files) (clock : Str → Int × Int)
    (h : ∀ text t, d S.settingsFile = some (text, t) → S.settings text = none) : S.build clock d = some (d, 1) := by
  have : S.config d = none := by
    unfold Setup.config texts
    cases hd : d S.settingsFile with
    | none => rfl
    | some v => exact h v.1 v.2 hd
  unfold Setup.build
  rw [this]

example : sample.build (fun _ => (4, 0)) (put sampleFiles sample.settingsFile none) =
    some (put sampleFiles sample.settingsFile none, 1) :=
  no_settings _ _ fun text t h => by
    unfold put at h
    rw [if_pos rfl] at h; cases h

/-! Non-vacuity: a site was built, and its template was changed afterwards. A second
build and a build from scratch give the new page. -/

def edited : Files := put builtOnce tmpl (some (b!"new", (3, 0)))

example : Good sample isOut sampleCfg := sample_good

example : Reachable sample isOut edited :=
  .edit _ _ _ _ builtOnce_reachable tmpl_not_out fun q c t hq h => by
    rw [builtOnce_times q c t hq h]
    exact .inl (by decide)

example : sample.config edited = some sampleCfg := by
  show (texts edited b!"/site/blogcfile").bind _ = _
  rw [show texts edited b!"/site/blogcfile" = some b!"settings" by decide +kernel]
  rfl

example : status? (builtAt sample 4 edited) = some 0 ∧ text? (builtAt sample 4 edited) first = some b!"new" ∧
    texts builtOnce first = some b!"old" := by decide +kernel

example : Cleaned isOut edited (without edited) := cleaned_without edited

/-! ## Violations -/

/-- The full statement, without a condition on times: an input changed in the same tick
of the clock in which the output was built is not seen. -/
theorem same_time_violated : ∃ S out d p text now, GoodNow S out d ∧ Reachable S out d ∧ ¬ out p ∧
    (∃ q, out q ∧ times d q = some now) ∧ Outdated S out (put d p (some (text, now))) :=
  ⟨sample, isOut, builtOnce, tmpl, b!"new", (2, 0), sample_goodNow _, builtOnce_reachable, tmpl_not_out,
    ⟨first, first_out, by decide +kernel⟩,
    outdated false 3 _ (a := b!"old") (b := b!"new") (by decide +kernel) (by decide +kernel) (by decide +kernel)
      (by decide +kernel) (by decide +kernel) (by decide)⟩

/-- An input replaced by another file that keeps its time (as mv does) is not seen. -/
theorem moved_violated : ∃ S out d p q, GoodNow S out d ∧ Reachable S out d ∧ ¬ out p ∧ ¬ out q ∧ (d q).isSome ∧
    Outdated S out (put d p (d q)) :=
  ⟨sample, isOut, builtOnce, tmpl, b!"/site/templates/other.tmpl", sample_goodNow _, builtOnce_reachable, tmpl_not_out,
    by unfold isOut; decide, by decide +kernel,
    outdated false 3 _ (a := b!"old") (b := b!"other") (by decide +kernel) (by decide +kernel) (by decide +kernel)
      (by decide +kernel) (by decide +kernel) (by decide)⟩

/-- A build that is killed while it writes an output leaves the beginning of the text,
and the next build takes it for the output. -/
theorem killed_violated : ∃ S out d clock d' q text part, GoodNow S out d ∧ Reachable S out d ∧
    S.build clock d = some (d', 0) ∧ texts d' q = some text ∧ part <+: text ∧
    Outdated S out (put d q (some (part, clock q))) := by
  refine ⟨sample, isOut, sampleFiles, fun _ => (2, 0), builtOnce, first, b!"old", b!"o", sample_goodNow _,
    sampleFiles_start, first_build, by decide +kernel, by decide, ?_⟩
  exact outdated false 3 _ (a := b!"o") (b := b!"old") (by decide +kernel) (by decide +kernel) (by decide +kernel)
    (by decide +kernel) (by decide +kernel) (by decide)

/-- The files of a site that shows `MAKE_ENV`, after a build. -/
def builtEnv : Files :=
  ((builtAt sample 2 (put sampleFiles tmpl (some (b!"env", (1, 0))))).map (·.1)).getD fun _ => none

/-- After a build without `-D`, a build with `-D` leaves all pages as they are. -/
theorem options_violated : ∃ S out d, GoodNow S out d ∧ Reachable S out d ∧ Outdated { S with dev := !S.dev } out d := by
  have h1 : status? (builtAt sample 2 (put sampleFiles tmpl (some (b!"env", (1, 0))))) = some 0 := by decide +kernel
  obtain ⟨d, h⟩ := of_status h1
  have e : d = builtEnv := by unfold builtEnv; rw [h]; rfl
  have hr : Reachable sample isOut builtEnv := by
    rw [← e]
    refine .build _ _ _ _ (.edit _ _ _ _ sampleFiles_start tmpl_not_out fun q c t hq hd => ?_) (sample_goodNow _) h
    rw [sampleFiles_out q hq] at hd
    cases hd
  exact ⟨sample, isOut, builtEnv, sample_goodNow _, hr,
    outdated true 3 _ (a := []) (b := b!"dev") (by decide +kernel) (by decide +kernel) (by decide +kernel)
      (by decide +kernel) (by decide +kernel) (by decide)⟩

end Blogc.C100
