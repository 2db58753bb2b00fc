import Verif.Lemmas.Quiet
import Verif.Spec.Quiet

/-!
# C123: while a site is watched, a round writes what is out of date and no more
-/

namespace Blogc.C123

open Blogc Blogc.Make Blogc.Build Blogc.C100 Blogc.C108 Blogc.C109
open Blogc.Spec.MakeJobs Blogc.Spec.Incremental Blogc.Spec.StaticFiles Blogc.Spec.Watching
open Blogc.Spec.MakeCopy (under)

variable {S : Setup} {disk : Files → Str → Forest} {out : Str → Prop}

/-- A round that finds the settings file as it was writes only pages and copies that are
missing or older than a file they are made from, also if it fails. -/
theorem only_old {now : Int × Int} {d d' seen : Files} {w : Watcher} {w' : Option Watcher} {rv : Int}
    (h : Watched S disk out now d (some w) seen) (hout : Outside S out w.cfg) (hkept : Kept S w seen d)
    (hold : ¬ NewSettings S seen d) (clock : Str → Int × Int)
    (hr : S.round disk clock d (some w) = some (w', d', rv)) (p : Str) :
    d' p = d p ∨
    (∃ v, Wants S w.cfg d v ∧ v.output = p ∧ stale (times d) v = true ∧ ∃ text, d' p = some (text, clock p)) ∨
    ∃ f q, Static w.cfg f q ∧ dest S f q = p ∧ Old S d f q ∧
      ∃ x, texts d (source S f q) = some x ∧ d' p = some (x, clock p) :=
  ready_only (ready_old h hout hkept hold) clock hr p

/-- Also a round that reads new settings writes only what is missing or old. -/
theorem reread_only_old {now : Int × Int} {d d' seen : Files} {w : Watcher} {w' : Option Watcher} {rv : Int}
    (h : Watched S disk out now d (some w) seen) (hnow : CopyNow S disk out d) (hnew : NewSettings S seen d)
    (cfg : MakeSettings.Settings) (hcfg : S.config d = some cfg) (hout : Outside S out cfg)
    (clock : Str → Int × Int) (hr : S.round disk clock d (some w) = some (w', d', rv)) (p : Str) :
    d' p = d p ∨
    (∃ v, Wants S cfg d v ∧ v.output = p ∧ stale (times d) v = true ∧ ∃ text, d' p = some (text, clock p)) ∨
    ∃ f q, Static cfg f q ∧ dest S f q = p ∧ Old S d f q ∧
      ∃ x, texts d (source S f q) = some x ∧ d' p = some (x, clock p) :=
  ready_only (ready_new h hnow hnew hcfg hout) clock hr p

/-- If nothing is out of date, any number of rounds succeed, with whatever clocks, and
leave all files as they are. -/
theorem idle {now : Int × Int} {d seen : Files} {w : Watcher}
    (h : Watched S disk out now d (some w) seen) (hnow : CopyNow S disk out d) (hout : Outside S out w.cfg)
    (hkept : Kept S w seen d) (hold : ¬ NewSettings S seen d) (hu : UpToTime S w.cfg seen d)
    (clocks : List (Str → Int × Int)) :
    ∃ w', watchRounds S disk clocks d (some w) = some (some w', d, clocks.map fun _ => 0) := by
  induction clocks generalizing w with
  | nil => exact ⟨w, rfl⟩
  | cons clock clocks ih =>
    have e := ready_idle (ready_old h hout hkept hold) hu clock
    have hb := (watched_inv h).1
    have h' : Watched S disk out now d (some (lookAgain d w)) seen :=
      .round now now d d _ _ seen seen clock 0 h hnow e (by unfold Later; omega) hb.bound
        (fun hn => absurd hn hold) fun _ => rfl
    have hkept' : Kept S (lookAgain d w) seen d := by
      refine ⟨hkept.settings, fun p hp hd => ?_, hkept.static⟩
      show reloadTime (w.mem p) (times d p) = none
      rw [hkept.files p hp hd]
      unfold times
      rw [hd]
      rfl
    obtain ⟨w', e'⟩ := ih h' hout hkept' hu
    refine ⟨w', ?_⟩
    unfold watchRounds
    rw [e]
    simp only [e']
    rfl

/-- After a round that succeeded nothing is out of date, if the files that the pages are
made from are all there and the clock did not go back. -/
theorem settled {now : Int × Int} {d d' seen : Files} {w : Watcher} {w' : Option Watcher}
    (h : Watched S disk out now d (some w) seen) (hout : Outside S out w.cfg) (hkept : Kept S w seen d)
    (hold : ¬ NewSettings S seen d) (clock : Str → Int × Int) (hclock : ∀ p, ¬ Later now (clock p))
    (hthere : ∀ v, Wants S w.cfg d v → ∀ i ∈ v.inputs, (d i).isSome)
    (hr : S.round disk clock d (some w) = some (w', d', 0)) : UpToTime S w.cfg seen d' :=
  ready_settled (w := lookAgain d w) (ready_old h hout hkept hold) clock hclock hthere hr

/-- After a round that succeeded, all further rounds succeed and write nothing until a
file is changed. `now'` is the time after that round. -/
theorem quiet {now now' : Int × Int} {d d' seen : Files} {w : Watcher} {w' : Option Watcher}
    (h : Watched S disk out now d (some w) seen) (hnow : CopyNow S disk out d) (hnow' : CopyNow S disk out d')
    (hout : Outside S out w.cfg) (hkept : Kept S w seen d) (hold : ¬ NewSettings S seen d)
    (clock : Str → Int × Int) (hclock : ∀ p, ¬ Later now (clock p))
    (hthere : ∀ v, Wants S w.cfg d v → ∀ i ∈ v.inputs, (d i).isSome)
    (hr : S.round disk clock d (some w) = some (w', d', 0))
    (hn : ¬ Later now now') (hbound : ∀ p u, times d' p = some u → ¬ Later u now')
    (clocks : List (Str → Int × Int)) :
    ∃ w'', watchRounds S disk clocks d' w' = some (some w'', d', clocks.map fun _ => 0) := by
  have r := ready_old h hout hkept hold
  have hu := ready_settled r clock hclock hthere hr
  obtain ⟨rfl, h1, h2⟩ := ready_next r clock hr
  have h' : Watched S disk out now' d' (some (lookAgain d w)) seen :=
    .round now now' d d' _ _ seen seen clock 0 h hnow hr hn hbound (fun hn => absurd hn hold) fun _ => rfl
  exact idle h' hnow' hout h1 h2 hu clocks

/-- The same after a round that read new settings. -/
theorem reread_quiet {now now' : Int × Int} {d d' seen : Files} {w : Watcher} {w' : Option Watcher}
    (h : Watched S disk out now d (some w) seen) (hnow : CopyNow S disk out d) (hnew : NewSettings S seen d)
    (cfg : MakeSettings.Settings) (hcfg : S.config d = some cfg) (hout : Outside S out cfg)
    (hnow' : CopyNow S disk out d') (clock : Str → Int × Int) (hclock : ∀ p, ¬ Later now (clock p))
    (hthere : ∀ v, Wants S cfg d v → ∀ i ∈ v.inputs, (d i).isSome)
    (hr : S.round disk clock d (some w) = some (w', d', 0))
    (hn : ¬ Later now now') (hbound : ∀ p u, times d' p = some u → ¬ Later u now')
    (clocks : List (Str → Int × Int)) :
    ∃ w'', watchRounds S disk clocks d' w' = some (some w'', d', clocks.map fun _ => 0) := by
  have r := ready_new h hnow hnew hcfg hout
  have hu := ready_settled r clock hclock hthere hr
  obtain ⟨rfl, h1, h2⟩ := ready_next r clock hr
  have h' := Watched.round now now' d d' _ _ seen d clock 0 h hnow hr hn hbound (fun _ => rfl) fun hn => absurd hnew hn
  exact idle h' hnow' hout h1 h2 hu clocks

/-- If no static file was added since the settings were read, a round leaves the files as a
build by hand at the same time would, with the same status. -/
theorem as_build {now : Int × Int} {d d' seen : Files} {w : Watcher} {w' : Option Watcher} {rv : Int}
    (h : Watched S disk out now d (some w) seen) (hnow : CopyNow S disk out d) (hout : Outside S out w.cfg)
    (hkept : Kept S w seen d) (hold : ¬ NewSettings S seen d)
    (hall : ∀ f q, Static w.cfg f q → (d (source S f q)).isSome → (seen (source S f q)).isSome)
    (clock : Str → Int × Int) (hr : S.round disk clock d (some w) = some (w', d', rv)) :
    S.buildAll disk clock d = some (d', rv) :=
  ready_build (w := lookAgain d w) (ready_old h hout hkept hold) hnow hall clock hr

/-- So does a round that reads new settings. -/
theorem reread_as_build {now : Int × Int} {d d' seen : Files} {w : Watcher} {w' : Option Watcher} {rv : Int}
    (h : Watched S disk out now d (some w) seen) (hnow : CopyNow S disk out d) (hnew : NewSettings S seen d)
    (cfg : MakeSettings.Settings) (hcfg : S.config d = some cfg) (hout : Outside S out cfg)
    (clock : Str → Int × Int) (hr : S.round disk clock d (some w) = some (w', d', rv)) :
    S.buildAll disk clock d = some (d', rv) :=
  ready_build (ready_new h hnow hnew hcfg hout) hnow (fun _ _ _ h => h) clock hr

/-- If nothing is out of date, and then one file other than the settings is written, a
round leaves all outputs that are not made from it. If it succeeds, it writes those that
are. -/
theorem edited {now : Int × Int} {d d' seen : Files} {w : Watcher} {w' : Option Watcher} {rv : Int}
    (h : Watched S disk out now d (some w) seen) (hout : Outside S out w.cfg) (hkept : Kept S w seen d)
    (hold : ¬ NewSettings S seen d) (hu : UpToTime S w.cfg seen d)
    (p text : Str) (t : Int × Int) (hp : ¬ out p) (ht : Later t now) (hset : p ≠ S.settingsFile)
    (clock : Str → Int × Int)
    (hr : S.round disk clock (put d p (some (text, t))) (some w) = some (w', d', rv)) :
    (∀ v, Wants S w.cfg d v → Wants S w.cfg (put d p (some (text, t))) v →
      (p ∉ v.inputs → d' v.output = d v.output) ∧
      (p ∈ v.inputs → rv = 0 → ∃ x, d' v.output = some (x, clock v.output))) ∧
    ∀ f q, Static w.cfg f q → (seen (source S f q)).isSome →
      (source S f q ≠ p → d' (dest S f q) = d (dest S f q)) ∧
      (source S f q = p → rv = 0 → d' (dest S f q) = some (text, clock (dest S f q))) := by
  have hbase := (watched_inv h).1
  have h' : Watched S disk out t (put d p (some (text, t))) (some w) seen := .edit _ _ _ _ _ _ _ h hp ht
  have hold' : ¬ NewSettings S seen (put d p (some (text, t))) := by
    rintro ⟨a, b, h1, h2, h3⟩
    rw [times_put, if_neg (Ne.symm hset)] at h2
    exact hold ⟨a, b, h1, h2, h3⟩
  have r := ready_old h' hout (kept_put hkept p (text, t)) hold'
  obtain ⟨hg, hgc, -⟩ := round_eq r clock
  have hg : Good S out w.cfg := hg
  have hgc : GoodCopy S out w.cfg := hgc
  have hput : ∀ q, q ≠ p → put d p (some (text, t)) q = d q := fun q hq => if_neg hq
  have hnew : times (put d p (some (text, t))) p = some t := by rw [times_put, if_pos rfl]; rfl
  have hw := ready_only r clock hr
  refine ⟨fun v hv hv' => ⟨fun hi => ?_, fun hi hrv => ?_⟩, fun f q hst hs => ⟨fun hne => ?_, fun he hrv => ?_⟩⟩
  · have ho : v.output ≠ p := fun e => hp (e ▸ (hg.outputs v (possible hv)).1)
    rcases hw v.output with e | ⟨v', a1, a2, a3, -⟩ | ⟨f, q, a1, a2, -⟩
    · rw [e, hput _ ho]
    · have : v' = v := hg.distinct _ _ (possible a1) (possible hv) a2
      subst this
      rw [stale_congr (hput _ ho) fun i hm => hput i (by rintro rfl; exact hi hm), hu.1 v' hv] at a3
      cases a3
    · exact absurd a2.symm (hgc.apart f q a1 v (possible hv))
  · have ho : v.output ≠ p := fun e => hp (e ▸ (hg.outputs v (possible hv)).1)
    subst hrv
    refine (ready_all r clock hr).1 v hv' ?_
    unfold stale
    cases hd : times (put d p (some (text, t))) v.output with
    | none => rfl
    | some u =>
      simp only
      rw [List.any_eq_true]
      refine ⟨p, hi, ?_⟩
      rw [hnew]
      simp only [decide_eq_true_eq]
      rw [times_put, if_neg ho] at hd
      exact later_of ht (hbase.bound _ _ hd)
  · have ho : dest S f q ≠ p := fun e => hp (e ▸ hgc.dests f q hst)
    rcases hw (dest S f q) with e | ⟨v', a1, a2, -⟩ | ⟨f', q', a1, a2, a3, -⟩
    · rw [e, hput _ ho]
    · exact absurd a2 (hgc.apart f q hst v' (possible a1))
    · have hsrc := same_source hgc a1 hst a2
      have : Old S (put d p (some (text, t))) f q := by
        unfold Old at a3 ⊢
        rw [← a2, ← hsrc]
        exact a3
      exact absurd ((old_congr (hput _ ho) (hput _ (Ne.symm hset)) (hput _ hne)).1 this) (hu.2 f q hst hs)
  · have ho : dest S f q ≠ p := fun e => hp (e ▸ hgc.dests f q hst)
    subst hrv
    obtain ⟨x, e1, e2⟩ := (ready_all r clock hr).2 f q hst hs fun u hd => by
      rw [times_put, if_neg ho] at hd
      exact ⟨p, by simp [he], t, hnew, later_of ht (hbase.bound _ _ hd)⟩
    rw [e2]
    rw [he] at e1
    unfold texts at e1
    rw [show put d p (some (text, t)) p = some (text, t) from if_pos rfl] at e1
    rw [← Option.some.inj e1]

/-- If nothing is out of date, and then a file of the output directory is removed, a round
leaves all other outputs. If it succeeds, it makes the one that is missing. -/
theorem restored {now : Int × Int} {d d' seen : Files} {w : Watcher} {w' : Option Watcher} {rv : Int}
    (h : Watched S disk out now d (some w) seen) (hout : Outside S out w.cfg) (hkept : Kept S w seen d)
    (hold : ¬ NewSettings S seen d) (hu : UpToTime S w.cfg seen d) (p : Str) (hp : out p) (clock : Str → Int × Int)
    (hr : S.round disk clock (put d p none) (some w) = some (w', d', rv)) :
    (∀ v, Wants S w.cfg d v →
      (v.output ≠ p → d' v.output = d v.output) ∧ (v.output = p → rv = 0 → ∃ x, d' p = some (x, clock p))) ∧
    ∀ f q, Static w.cfg f q → (seen (source S f q)).isSome →
      (dest S f q ≠ p → d' (dest S f q) = d (dest S f q)) ∧
      (dest S f q = p → rv = 0 → ∃ x, texts d (source S f q) = some x ∧ d' p = some (x, clock p)) := by
  have hput : ∀ q, q ≠ p → put d p none q = d q := fun q hq => if_neg hq
  have hin : ∀ q, ¬ out q → put d p none q = d q := fun q hq => hput q fun e => hq (e ▸ hp)
  have h' : Watched S disk out now (put d p none) (some w) seen := .remove _ _ _ _ _ h
  have hi := (watched_inv h).2 w rfl
  have hg : Good S out w.cfg := hi.good
  have hgc : GoodCopy S out w.cfg := hi.goodCopy
  have hold' : ¬ NewSettings S seen (put d p none) := by
    rintro ⟨a, b, h1, h2, h3⟩
    unfold times at h2
    rw [hin _ hg.settingsFile] at h2
    exact hold ⟨a, b, h1, h2, h3⟩
  have hkept' : Kept S w seen (put d p none) := by
    refine ⟨?_, fun q hq e => hkept.files q hq ?_, fun f q hst hs => ?_⟩
    · rw [hin _ hg.settingsFile]
      exact hkept.settings
    · rw [hin q (hout q hq)] at e
      exact e
    · rw [hin _ (hgc.sources f q hst)]
      exact hkept.static f q hst hs
  have r := ready_old h' hout hkept' hold'
  have hw := ready_only r clock hr
  have hwants : ∀ v, Wants S w.cfg (put d p none) v ↔ Wants S w.cfg d v := by
    intro v
    unfold Wants
    rw [wantedBy_congr hg hin]
  refine ⟨fun v hv => ⟨fun ho => ?_, fun ho hrv => ?_⟩, fun f q hst hs => ⟨fun ho => ?_, fun ho hrv => ?_⟩⟩
  · rcases hw v.output with e | ⟨v', a1, a2, a3, -⟩ | ⟨f, q, a1, a2, -⟩
    · rw [e, hput _ ho]
    · have : v' = v := hg.distinct _ _ (possible a1) (possible hv) a2
      subst this
      rw [stale_congr (hput _ ho) fun i hm => hin i (hg.inputs v' (possible hv) i hm), hu.1 v' hv] at a3
      cases a3
    · exact absurd a2.symm (hgc.apart f q a1 v (possible hv))
  · subst hrv ho
    refine (ready_all r clock hr).1 v ((hwants v).2 hv) ?_
    unfold stale
    rw [times_put, if_pos rfl]
    rfl
  · rcases hw (dest S f q) with e | ⟨v', a1, a2, -⟩ | ⟨f', q', a1, a2, a3, -⟩
    · rw [e, hput _ ho]
    · exact absurd a2 (hgc.apart f q hst v' (possible a1))
    · have hsrc := same_source hgc a1 hst a2
      have : Old S (put d p none) f q := by
        unfold Old at a3 ⊢
        rw [← a2, ← hsrc]
        exact a3
      exact absurd ((old_congr (hput _ ho) (hin _ hg.settingsFile) (hin _ (hgc.sources f q hst))).1 this)
        (hu.2 f q hst hs)
  · subst hrv ho
    obtain ⟨x, e1, e2⟩ := (ready_all r clock hr).2 f q hst hs fun u hd => by
      rw [times_put, if_pos rfl] at hd
      cases hd
    refine ⟨x, ?_, e2⟩
    unfold texts at e1 ⊢
    rw [hin _ (hgc.sources f q hst)] at e1
    exact e1

/-! ## The site of C109

The static file and the page "about" were changed at seconds 3 and 4; a round at second 5
makes their outputs again, and no round after it writes anything. -/

theorem edited_watched :
    Watched staticSite staticDisk isOut (4, 0) twiceEdited (some (startWatcher staticOnce)) staticOnce :=
  .edit _ _ _ _ _ _ _ (.edit _ _ _ _ _ _ _ once_watched (static_notOut [b!"a"]) (by decide))
    (by unfold isOut C109.about; decide) (by decide)

theorem edited_kept : Kept staticSite (startWatcher staticOnce) staticOnce twiceEdited := by
  refine static_kept (by decide +kernel) (by decide +kernel) fun p h => ?_
  unfold twiceEdited put
  split
  · rfl
  · split
    · rfl
    · exact h

theorem edited_old : ¬ NewSettings staticSite staticOnce twiceEdited :=
  not_new (by decide +kernel) (by decide +kernel)

theorem edited_onlyA : OnlyA twiceEdited := by
  have h := onlyA_put staticOnce_onlyA (some (b!"two", (3, 0)))
  intro q hq hne
  obtain ⟨r, e⟩ := under_prefix b!"/site/static" q
  have h := h q hq hne
  rw [e] at h ⊢
  unfold twiceEdited put at *
  rw [if_neg (by intro h; cases h)]
  exact h

theorem edited_there (v : Wanted) (hv : Wants staticSite staticCfg twiceEdited v) :
    ∀ i ∈ v.inputs, (twiceEdited i).isSome := by
  have hw : Possible sampleSite v := possible hv
  have hl : ∀ i ∈ [sampleSite.settingsFile, mainTemplate sampleSite] ++ (listingEntry sampleSite).toList ++
      postSources sampleSite, (twiceEdited i).isSome := by decide +kernel
  rcases sample_cases hw with h | ⟨n, rfl⟩ | ⟨n, rfl⟩
  · exact (show ∀ w ∈ fixed, ∀ i ∈ w.inputs, (twiceEdited i).isSome by decide +kernel) v h
  · exact hl
  · exact hl

theorem bound_after {d d' : Files} {A : Wanted → Prop} {B : Str → List Str → Prop} {p : Str}
    (hb : ∀ p u, times d p = some u → ¬ Later u (4, 0))
    (hw : ∀ p, d' p = d p ∨ (∃ v, A v ∧ v.output = p ∧ stale (times d) v = true ∧ ∃ x, d' p = some (x, (5, 0))) ∨
      ∃ f q, B f q ∧ dest staticSite f q = p ∧ Old staticSite d f q ∧
        ∃ x, texts d (source staticSite f q) = some x ∧ d' p = some (x, (5, 0)))
    (u : Int × Int) (hu : times d' p = some u) : ¬ Later u (5, 0) := by
  have new : ∀ x, d' p = some (x, (5, 0)) → ¬ Later u (5, 0) := by
    intro x e
    unfold times at hu
    rw [e] at hu
    rw [← Option.some.inj hu]
    show ¬ Later (5, 0) (5, 0)
    decide
  rcases hw p with e | ⟨v, -, -, -, x, e⟩ | ⟨f, q, -, -, -, x, -, e⟩
  · have : times d p = some u := by
      rw [← hu]
      unfold times
      rw [e]
    exact not_later_trans (hb p u this) (show ¬ Later (4, 0) (5, 0) by decide)
  · exact new x e
  · exact new x e

/-- The theorems apply to it. -/
theorem sample_quiet : ∃ w' d', roundAt 5 twiceEdited (startWatcher staticOnce) = some (w', d', 0) ∧
    times d' copyA = some (5, 0) ∧ times d' first = some (2, 0) ∧
    ∀ clocks, ∃ w'', watchRounds staticSite staticDisk clocks d' w' = some (some w'', d', clocks.map fun _ => 0) := by
  have h1 : statusOf (roundAt 5 twiceEdited (startWatcher staticOnce)) = some 0 := by decide +kernel
  have h2 : (fileOf (roundAt 5 twiceEdited (startWatcher staticOnce)) copyA).map (·.2) = some (5, 0) := by decide +kernel
  have h3 : (fileOf (roundAt 5 twiceEdited (startWatcher staticOnce)) first).map (·.2) = some (2, 0) := by decide +kernel
  obtain ⟨w', d', hr⟩ := of_statusOf h1
  rw [hr] at h2 h3
  refine ⟨w', d', hr, h2, h3, fun clocks => ?_⟩
  have hb := (watched_inv edited_watched).1
  have hw := only_old edited_watched static_outside edited_kept edited_old _ hr
  have hs : ∀ p, ¬ isOut p → d' p = twiceEdited p := by
    obtain ⟨-, v, d'', rv, e, -, hs, -⟩ :=
      round_partial edited_watched static_outside edited_kept edited_old fun _ => (5, 0)
    rw [show staticSite.round staticDisk _ twiceEdited _ = _ from hr] at e
    injection e with e
    injection e with e1 e2
    injection e2 with e2 e3
    subst e2
    exact hs
  refine quiet (now' := (5, 0)) edited_watched (static_now edited_onlyA)
    (static_now (onlyA_same edited_onlyA hs)) static_outside edited_kept edited_old (fun _ => (5, 0))
    (fun _ => by decide) edited_there hr (by decide) (fun p u hu => ?_) clocks
  exact bound_after hb.bound hw u hu

theorem edited_all (f : Str) (q : List Str) (hst : Static staticCfg f q)
    (h : (twiceEdited (source staticSite f q)).isSome) : (staticOnce (source staticSite f q)).isSome := by
  have e : source staticSite f q = under b!"/site/static" q := by
    rw [static_entry hst]
    unfold source
    rw [show absPath staticSite.root b!"static" = b!"/site/static" by decide +kernel]
  rw [e] at h ⊢
  by_cases hq : q = [b!"a"]
  · subst hq
    decide +kernel
  · rw [edited_onlyA q hst.2 hq] at h
    cases h

/-- A build by hand at second 5 gives the same files. -/
theorem sample_as_build : ∃ w' d', roundAt 5 twiceEdited (startWatcher staticOnce) = some (w', d', 0) ∧
    staticSite.buildAll staticDisk (fun _ => (5, 0)) twiceEdited = some (d', 0) := by
  obtain ⟨w', d', hr⟩ := of_statusOf
    (show statusOf (roundAt 5 twiceEdited (startWatcher staticOnce)) = some 0 by decide +kernel)
  exact ⟨w', d', hr, as_build edited_watched (static_now edited_onlyA) static_outside edited_kept edited_old edited_all _ hr⟩

/-- After that round the page "about" is written at second 6; the conditions of `edited`
are met. -/
theorem sample_edited : ∃ w' d', roundAt 5 twiceEdited (startWatcher staticOnce) = some (some w', d', 0) ∧
    w'.cfg = staticCfg ∧ Watched staticSite staticDisk isOut (5, 0) d' (some w') staticOnce ∧
    Kept staticSite w' staticOnce d' ∧ ¬ NewSettings staticSite staticOnce d' ∧
    UpToTime staticSite staticCfg staticOnce d' ∧
    ∃ w'' d'' rv, roundAt 7 (put d' C109.about (some (b!"newer", (6, 0)))) w' = some (w'', d'', rv) ∧
      d'' copyA = d' copyA := by
  obtain ⟨w', d', hr⟩ := of_statusOf
    (show statusOf (roundAt 5 twiceEdited (startWatcher staticOnce)) = some 0 by decide +kernel)
  have r := ready_old edited_watched static_outside edited_kept edited_old
  obtain ⟨rfl, h1, h2⟩ := ready_next r (fun _ => (5, 0)) hr
  have hb := (watched_inv edited_watched).1
  have hw := only_old edited_watched static_outside edited_kept edited_old _ hr
  have h' : Watched staticSite staticDisk isOut (5, 0) d' _ staticOnce :=
    .round (4, 0) (5, 0) _ d' _ _ _ _ _ 0 edited_watched (static_now edited_onlyA) hr (by decide)
      (fun p u hu => bound_after hb.bound hw u hu) (fun hn => absurd hn edited_old) fun _ => rfl
  have hu := settled edited_watched static_outside edited_kept edited_old _ (fun _ => by decide) edited_there hr
  have hnot : ¬ isOut C109.about := by unfold isOut C109.about; decide
  have hold' : ¬ NewSettings staticSite staticOnce (put d' C109.about (some (b!"newer", (6, 0)))) := by
    rintro ⟨a, b, e1, e2, e3⟩
    rw [times_put, if_neg (show staticSite.settingsFile ≠ C109.about by decide +kernel)] at e2
    exact h2 ⟨a, b, e1, e2, e3⟩
  obtain ⟨-, w'', d'', rv, e, -⟩ := round_partial (.edit _ _ _ _ _ _ _ h' hnot (show Later (6, 0) (5, 0) by decide))
    static_outside (kept_put h1 _ _) hold' fun _ => (7, 0)
  refine ⟨_, d', hr, rfl, h', h1, h2, hu, _, d'', rv, e, ?_⟩
  have hst : Static staticCfg b!"static" [b!"a"] := ⟨by decide, by decide⟩
  have hs := (edited h' static_outside h1 h2 hu C109.about b!"newer" (6, 0) hnot (by decide) (by decide +kernel) _ e).2
    b!"static" [b!"a"] hst (by decide +kernel)
  rw [show dest staticSite b!"static" [b!"a"] = copyA by decide +kernel] at hs
  exact hs.1 (by decide +kernel)

/-- The round at second 7 writes that page and nothing else of these. -/
example : (match roundAt 5 twiceEdited (startWatcher staticOnce) with
    | some (some w, d, _) =>
      let r := roundAt 7 (put d C109.about (some (b!"newer", (6, 0)))) w
      (statusOf r, (fileOf r copyA).map (·.2), (fileOf r b!"/site/_build/about/index.html").map (·.2),
        (fileOf r first).map (·.2))
    | _ => (none, none, none, none)) = (some 0, some (5, 0), some (7, 0), some (2, 0)) := by decide +kernel

/-- In the state of `sample_edited`, the copy of the static file is removed and comes back
at second 7. -/
example : (match roundAt 5 twiceEdited (startWatcher staticOnce) with
    | some (some w, d, _) =>
      let r := roundAt 7 (put d copyA none) w
      (statusOf r, fileOf r copyA, (fileOf r first).map (·.2))
    | _ => (none, none, none)) = (some 0, some (b!"two", (7, 0)), some (2, 0)) := by decide +kernel

/-- The settings file was written at second 4. -/
theorem rewritten_watched :
    Watched staticSite staticDisk isOut (4, 0) rewritten (some (startWatcher staticOnce)) staticOnce :=
  .edit _ _ _ _ _ _ _ (.edit _ _ _ _ _ _ _ once_watched (by unfold isOut C109.about; decide) (by decide))
    (by unfold isOut; decide) (by decide)

theorem rewritten_onlyA : OnlyA rewritten := by
  intro q hq hne
  obtain ⟨r, e⟩ := under_prefix b!"/site/static" q
  have h := staticOnce_onlyA q hq hne
  rw [e] at h ⊢
  unfold rewritten put
  rw [if_neg (by intro h; cases h), if_neg (by intro h; cases h)]
  exact h

theorem rewritten_new : NewSettings staticSite staticOnce rewritten :=
  ⟨(1, 0), (4, 0), show times staticOnce b!"/site/blogcfile" = some (1, 0) by decide +kernel, by decide +kernel, by decide⟩

theorem rewritten_there (v : Wanted) (hv : Wants staticSite staticCfg rewritten v) :
    ∀ i ∈ v.inputs, (rewritten i).isSome := by
  have hw : Possible sampleSite v := possible hv
  have hl : ∀ i ∈ [sampleSite.settingsFile, mainTemplate sampleSite] ++ (listingEntry sampleSite).toList ++
      postSources sampleSite, (rewritten i).isSome := by decide +kernel
  rcases sample_cases hw with h | ⟨n, rfl⟩ | ⟨n, rfl⟩
  · exact (show ∀ w ∈ fixed, ∀ i ∈ w.inputs, (rewritten i).isSome by decide +kernel) v h
  · exact hl
  · exact hl

/-- All is made again at second 5, and nothing after it. -/
theorem sample_reread : ∃ w' d', roundAt 5 rewritten (startWatcher staticOnce) = some (w', d', 0) ∧
    times d' copyA = some (5, 0) ∧ times d' first = some (5, 0) ∧
    ∀ clocks, ∃ w'', watchRounds staticSite staticDisk clocks d' w' = some (some w'', d', clocks.map fun _ => 0) := by
  have h1 : statusOf (roundAt 5 rewritten (startWatcher staticOnce)) = some 0 := by decide +kernel
  have h2 : (fileOf (roundAt 5 rewritten (startWatcher staticOnce)) copyA).map (·.2) = some (5, 0) := by decide +kernel
  have h3 : (fileOf (roundAt 5 rewritten (startWatcher staticOnce)) first).map (·.2) = some (5, 0) := by decide +kernel
  obtain ⟨w', d', hr⟩ := of_statusOf h1
  rw [hr] at h2 h3
  refine ⟨w', d', hr, h2, h3, fun clocks => ?_⟩
  have hnow := static_now rewritten_onlyA
  have hcfg := static_config (d := rewritten) (by decide +kernel)
  have hb := (watched_inv rewritten_watched).1
  have hw := reread_only_old rewritten_watched hnow rewritten_new staticCfg hcfg static_outside _ hr
  have hs : ∀ p, ¬ isOut p → d' p = rewritten p := by
    obtain ⟨v, d'', rv, e, -, hs, -⟩ :=
      reread_partial rewritten_watched hnow rewritten_new staticCfg hcfg static_outside fun _ => (5, 0)
    rw [show staticSite.round staticDisk _ rewritten _ = _ from hr] at e
    injection e with e
    injection e with e1 e2
    injection e2 with e2 e3
    subst e2
    exact hs
  exact reread_quiet (now' := (5, 0)) rewritten_watched hnow rewritten_new staticCfg hcfg static_outside
    (static_now (onlyA_same rewritten_onlyA hs)) (fun _ => (5, 0))
    (fun _ => by decide) rewritten_there hr (by decide) (fun p u hu => bound_after hb.bound hw u hu) clocks

end Blogc.C123
