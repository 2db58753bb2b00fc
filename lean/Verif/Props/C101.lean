import Verif.Lemmas.Minimal
import Verif.Lemmas.IncrementalSample

/-!
# C101: a build does what is needed and no more

The full statement: a build writes exactly the outputs that are missing or older than
a file they are made from; right after a build that succeeded, another one writes
nothing; after the edit of one file, exactly the outputs made from it are written. The
second part is violated (see the end) by files from the future.
-/

namespace Blogc.C101

open Blogc Blogc.Make Blogc.Build Blogc.C100
open Blogc.Spec.MakeJobs Blogc.Spec.MakeRun Blogc.Spec.Incremental

variable {S : Setup} {out : Str → Prop} {cfg : MakeSettings.Settings}

/-- A build, even one that fails, writes only wanted outputs that are missing or older
than one of their inputs. -/
theorem only_needed (hg : Good S out cfg) (clock : Str → Int × Int) {d d' : Files} {rv : Int}
    (hcfg : S.config d = some cfg) (h : S.build clock d = some (d', rv)) (p : Str) :
    d' p = d p ∨ ∃ w, Wants S cfg d w ∧ w.output = p ∧ stale (times d) w = true ∧
      ∃ text, d' p = some (text, clock p) := by
  exact (build_writes hg clock hcfg h).1 p

/-- A build that succeeds writes all of them, and leaves the others. -/
theorem all_needed (hg : Good S out cfg) (clock : Str → Int × Int) {d d' : Files}
    (hcfg : S.config d = some cfg) (h : S.build clock d = some (d', 0)) (w : Wanted) (hw : Wants S cfg d w) :
    if stale (times d) w then ∃ text, d' w.output = some (text, clock w.output) else d' w.output = d w.output := by
  obtain ⟨h1, h2⟩ := build_writes hg clock hcfg h
  by_cases hst : stale (times d) w = true
  · rw [if_pos hst]
    exact h2 rfl w hw hst
  · rw [if_neg hst]
    rcases h1 w.output with e | ⟨w', hw', ho, hst', -⟩
    · exact e
    · rw [hg.distinct _ _ (possible hw') (possible hw) ho] at hst'
      exact absurd hst' hst

/-- After a build that succeeded, nothing is stale if the clock was not behind the
inputs. -/
theorem nothing_stale (hg : Good S out cfg) (clock : Str → Int × Int) {d d' : Files}
    (hcfg : S.config d = some cfg) (h : S.build clock d = some (d', 0))
    (hclock : ∀ w, Wants S cfg d w → InTime clock d w) :
    S.config d' = some cfg ∧ (∀ w, Wants S cfg d' w ↔ Wants S cfg d w) ∧
      ∀ w, Wants S cfg d w → stale (times d') w = false := by
  obtain ⟨h1, -⟩ := build_writes hg clock hcfg h
  have hsame : SameInputs out d d' := h1.same hg fun w h => possible h
  refine ⟨?_, ?_, ?_⟩
  · rw [← hcfg]
    unfold Setup.config
    rw [hsame.text hg.settingsFile]
  · intro w
    unfold Wants
    rw [wantedBy_congr hg hsame]
  · intro w hw
    have := all_needed hg clock hcfg h w hw
    split at this
    · obtain ⟨text, e⟩ := this
      exact fresh_written hg hsame (possible hw) (hclock w hw) e
    · rename_i hst
      rw [← stale_congr this.symm fun i hi => hsame i (hg.inputs w (possible hw) i hi)]
      simpa using hst

/-- Right after a build that succeeded, another one writes nothing. Not so if an input
has a time that is later than the build. -/
theorem idle_partial (hg : Good S out cfg) (clock clock' : Str → Int × Int) {d d' : Files}
    (hcfg : S.config d = some cfg) (h : S.build clock d = some (d', 0))
    (hclock : ∀ w, Wants S cfg d w → InTime clock d w) : S.build clock' d' = some (d', 0) := by
  obtain ⟨h1, h2, h3⟩ := nothing_stale hg clock hcfg h hclock
  exact build_idle hg clock' h1 fun w hw => h3 w ((h2 w).1 hw)

/-- After a build, the edit of a file, and another build, the outputs that are made from
that file are new, and the others are as they were. -/
theorem edited_partial (hg : Good S out cfg) (clock clock' : Str → Int × Int) {d d₁ d₂ : Files} {cfg' : MakeSettings.Settings}
    (hcfg : S.config d = some cfg) (h : S.build clock d = some (d₁, 0))
    (hclock : ∀ w, Wants S cfg d w → InTime clock d w)
    (p text : Str) (now : Int × Int) (hp : ¬ out p) (hnow : ∀ w, Wants S cfg d w → ∀ t, times d₁ w.output = some t → Later now t)
    (hcfg' : S.config (put d₁ p (some (text, now))) = some cfg') (hg' : Good S out cfg')
    (h' : S.build clock' (put d₁ p (some (text, now))) = some (d₂, 0))
    (w : Wanted) (hw : Wants S cfg d w) (hw' : Wants S cfg' (put d₁ p (some (text, now))) w) :
    if p ∈ w.inputs then ∃ new, d₂ w.output = some (new, clock' w.output) else d₂ w.output = d₁ w.output := by
  have ho : w.output ≠ p := fun e => hp (e ▸ (hg.outputs w (possible hw)).1)
  have hfresh := (nothing_stale hg clock hcfg h hclock).2.2 w hw
  have hput : put d₁ p (some (text, now)) w.output = d₁ w.output := if_neg ho
  have key := all_needed hg' clock' hcfg' h' w hw'
  by_cases hi : p ∈ w.inputs
  · rw [if_pos hi]
    have hst : stale (times (put d₁ p (some (text, now)))) w = true := by
      unfold stale
      cases hd : times (put d₁ p (some (text, now))) w.output with
      | none => rfl
      | some t =>
        simp only
        rw [List.any_eq_true]
        refine ⟨p, hi, ?_⟩
        rw [show times (put d₁ p (some (text, now))) p = some now by unfold times put; rw [if_pos rfl]; rfl]
        simp only [decide_eq_true_eq]
        refine hnow w hw t ?_
        rw [← hd]
        unfold times
        rw [hput]
    rw [if_pos hst] at key
    exact key
  · rw [if_neg hi]
    have hst : stale (times (put d₁ p (some (text, now)))) w = false := by
      rw [stale_congr hput fun i hm => if_neg (by rintro rfl; exact hi hm)]
      exact hfresh
    rw [if_neg (by rw [hst]; simp), hput] at key
    exact key

/-! Non-vacuity: the sample site, built at second 2 with files of second 1. Then the
page is edited: its output is made again, the index is not. -/

theorem sample_config : sample.config sampleFiles = some sampleCfg := rfl

theorem sample_inputs : ∀ w, Possible sampleSite w → ∀ i ∈ w.inputs, times sampleFiles i = some (1, 0) := by
  intro w hw
  have hl : ∀ i ∈ [sampleSite.settingsFile, mainTemplate sampleSite] ++ (listingEntry sampleSite).toList ++
      postSources sampleSite, times sampleFiles i = some (1, 0) := by decide +kernel
  rcases sample_cases hw with h | ⟨n, rfl⟩ | ⟨n, rfl⟩
  · exact (show ∀ w ∈ fixed, ∀ i ∈ w.inputs, times sampleFiles i = some (1, 0) by decide +kernel) w h
  · exact hl
  · exact hl

theorem sample_inTime (w : Wanted) (hw : Wants sample sampleCfg sampleFiles w) :
    InTime (fun _ => (2, 0)) sampleFiles w := fun i hi =>
  ⟨(1, 0), sample_inputs w (possible hw) i hi, show ¬ Later (1, 0) (2, 0) by unfold Later; decide⟩

example (clock : Str → Int × Int) : sample.build clock builtOnce = some (builtOnce, 0) :=
  idle_partial sample_good _ clock sample_config first_build sample_inTime

def about : Str := b!"/site/_build/about/index.html"
def aboutEdited : Files := put builtOnce b!"/site/content/about.txt" (some (b!"new", (3, 0)))

example : status? (builtAt sample 4 aboutEdited) = some 0 ∧
    (builtAt sample 4 aboutEdited).bind (fun r => times r.1 about) = some (4, 0) ∧
    (builtAt sample 4 aboutEdited).bind (fun r => times r.1 first) = some (2, 0) := by decide +kernel

/-! ## Violation -/

/-- The files of the site, with a template from the future. -/
def future : Files := put sampleFiles tmpl (some (b!"old", (9, 0)))

/-- The full statement, without a condition on the clock: with a file that has a time
in the future, every build writes again what the build before has written. -/
theorem future_violated : ∃ S out d d' d'' clock clock', GoodNow S out d ∧ Reachable S out d ∧
    S.build clock d = some (d', 0) ∧ S.build clock' d' = some (d'', 0) ∧ ∃ p, times d'' p ≠ times d' p := by
  have hd : Reachable sample isOut future :=
    .edit _ _ _ _ sampleFiles_start tmpl_not_out fun q c t hq h => by
      rw [sampleFiles_out q hq] at h
      cases h
  have h1 : status? (builtAt sample 2 future) = some 0 := by decide +kernel
  have h2 : (builtAt sample 2 future).bind (fun r => times r.1 first) = some (2, 0) := by decide +kernel
  have h3 : ((builtAt sample 2 future).bind fun r => builtAt sample 3 r.1).map (·.2) = some 0 := by decide +kernel
  have h4 : ((builtAt sample 2 future).bind fun r => builtAt sample 3 r.1).bind (fun r => times r.1 first) =
      some (3, 0) := by decide +kernel
  obtain ⟨d', e⟩ := of_status h1
  rw [e] at h2 h3 h4
  obtain ⟨d'', e'⟩ := of_status h3
  have e'' : builtAt sample 3 d' = some (d'', 0) := e'
  rw [show (some (d', (0 : Int))).bind (fun r => builtAt sample 3 r.1) = builtAt sample 3 d' from rfl, e''] at h4
  refine ⟨sample, isOut, future, d', d'', _, _, sample_goodNow _, hd, e, e'', first, ?_⟩
  rw [show times d'' first = some (3, 0) from h4, show times d' first = some (2, 0) from h2]
  decide

end Blogc.C101
