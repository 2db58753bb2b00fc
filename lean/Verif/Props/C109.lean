import Verif.Lemmas.Watching
import Verif.Lemmas.StaticSample

/-!
# C109: watching keeps a site up to date

The full statement: while `blogc-make watch` runs, whatever the user writes and removes,
a round of its loop that succeeds leaves the output directory as a build would: all pages
and all static files are up to date. It is violated (see the end) by files that are
removed, which goes unnoticed, and by new files in a directory that is copied, which are
not copied until the settings file changes. (C60 has what happens after a mistake in the
settings file: nothing is built any more.)
-/

namespace Blogc.C109

open Blogc Blogc.Make Blogc.Build Blogc.C100 Blogc.C108
open Blogc.Spec.MakeJobs Blogc.Spec.Incremental Blogc.Spec.StaticFiles Blogc.Spec.Watching
open Blogc.Spec.MakeCopy (under)

variable {S : Setup} {disk : Files → Str → Forest} {out : Str → Prop}

/-- What a round is meant to give for the settings `cfg` and the files `d`: it is
defined, goes on watching, and leaves the files of the user. If it succeeds, every page
that is wanted is there with the text that blogc gives for the files as they are, and so
are the copies of the static files that are in `seen`. It fails only if blogc gives no
text for one of the pages. -/
def UpToDate (S : Setup) (out : Str → Prop) (cfg : MakeSettings.Settings) (d seen : Files)
    (r : Option (Option Watcher × Files × Int)) : Prop :=
  ∃ w d' rv, r = some (some w, d', rv) ∧ w.cfg = cfg ∧ (∀ p, ¬ out p → d' p = d p) ∧
    (rv = 0 → (∀ v, Wants S cfg d v → ∃ text t, d' v.output = some (text, t) ∧ Shows S cfg d v text) ∧
      ∀ f q, Static cfg f q → (seen (source S f q)).isSome → ∀ x, texts d (source S f q) = some x →
        texts d' (dest S f q) = some x) ∧
    (rv ≠ 0 → ∃ v, Wants S cfg d v ∧ ∀ text, ¬ Shows S cfg d v text)

theorem of_runs {now : Int × Int} {d seen : Files} {w₀ w : Watcher} (hb : Base S out now d)
    (hi : Inv S out now d w seen ∧ Fresh S out d w) (hw : S.reload disk d w₀ = some w) (clock : Str → Int × Int)
    (hcfg : S.config d = some w.cfg) (hout : Outside S out w.cfg)
    (hmem : ∀ p ∈ S.ctxPaths w.cfg, d p = none → w.mem p = none)
    (hstatic : ∀ f q, Static w.cfg f q → (seen (source S f q)).isSome → (d (source S f q)).isSome) :
    UpToDate S out w.cfg d seen (S.round disk clock d (some w₀)) := by
  obtain ⟨hi, hf⟩ := hi
  obtain ⟨d', rv, e, hs, -, h⟩ := round_runs hb hi hf hw clock
  have hlook : ∀ d', SameInputs out d d' → S.look w d' = times d' := by
    intro d' hs
    funext p
    unfold Setup.look
    split
    · rename_i hp
      rw [same_times hs (hout p hp)]
      cases ht : times d p with
      | none =>
        refine hmem p hp ?_
        unfold times at ht
        simpa using ht
      | some u => exact hf.mem p (hout p hp) u ht
    · rfl
  obtain ⟨h1, h2⟩ := h hcfg hlook (lists_of hi hf (by simpa only [isSome_times] using hstatic))
  refine ⟨w, d', rv, e, rfl, fun p hp => (hs p hp).symm, fun hrv => ⟨(h1 hrv).1, fun f q hst hsm => ?_⟩, h2⟩
  exact (h1 hrv).2 f q hst (by rw [isSome_times]; exact hsm)

theorem same_settings {now : Int × Int} {d seen : Files} {w : Watcher} (h : Watched S disk out now d (some w) seen)
    (hs : (d S.settingsFile).isSome) (hold : ¬ NewSettings S seen d) : S.config d = some w.cfg := by
  obtain ⟨hb, hi⟩ := watched_inv h
  have hi := hi w rfl
  obtain ⟨h1, h2⟩ := again_inv hb hi hold
  rw [← isSome_times] at hs
  obtain ⟨u, hu⟩ := Option.isSome_iff_exists.1 hs
  exact h1.cfg (hu.trans (h2.mem _ hi.good.settingsFile u hu).symm)

/-- Whatever was done before while a site is watched, if the settings file did not change
since it was read and nothing that the program remembers was removed, then a round brings
the pages up to date, and the static files that were there when the settings were
read. -/
theorem round_partial {now : Int × Int} {d seen : Files} {w : Watcher} (h : Watched S disk out now d (some w) seen)
    (hout : Outside S out w.cfg) (hkept : Kept S w seen d) (hold : ¬ NewSettings S seen d)
    (clock : Str → Int × Int) :
    S.config d = some w.cfg ∧ UpToDate S out w.cfg d seen (S.round disk clock d (some w)) := by
  obtain ⟨hb, hi⟩ := watched_inv h
  have hi := hi w rfl
  obtain ⟨h1, h2⟩ := again_inv hb hi hold
  have hcfg := same_settings h hkept.settings hold
  refine ⟨hcfg, of_runs hb ⟨h1, h2⟩ (reload_old hi hold) clock hcfg hout ?_ hkept.static⟩
  intro p hp hd
  show reloadTime (w.mem p) (times d p) = none
  rw [hkept.files p hp hd]
  unfold times
  rw [hd]
  rfl

/-- Whatever was done before, if the settings file is newer than when it was read, then
the next round reads it and brings everything up to date: the pages, and all static
files. -/
theorem reread_partial {now : Int × Int} {d seen : Files} {w : Watcher} (h : Watched S disk out now d (some w) seen)
    (hnow : CopyNow S disk out d) (hnew : NewSettings S seen d) (cfg : MakeSettings.Settings)
    (hcfg : S.config d = some cfg) (hout : Outside S out cfg) (clock : Str → Int × Int) :
    UpToDate S out cfg d d (S.round disk clock d (some w)) := by
  obtain ⟨hb, hi⟩ := watched_inv h
  have hw : S.watcher disk d = some ⟨cfg, times d, (S.copySite (disk d) cfg (times d)).copy⟩ := by
    unfold Setup.watcher
    rw [hcfg]
    rfl
  refine of_runs hb (open_inv hb hnow hw) ((reload_new (hi w rfl) hnew).trans hw) clock hcfg hout ?_ fun _ _ _ h => h
  intro p _ hd
  show times d p = none
  unfold times
  rw [hd]
  rfl

/-- In every state of a watched site, a build by hand finds what C108 says. -/
theorem watched_right {now : Int × Int} {d seen : Files} {w : Option Watcher} (h : Watched S disk out now d w seen)
    (cfg : MakeSettings.Settings) (hcfg : S.config d = some cfg) (hg : Good S out cfg) (hgc : GoodCopy S out cfg) :
    (∀ v, Possible (base S cfg) v → ∀ c t, d v.output = some (c, t) → stale (times d) v = false → Shows S cfg d v c) ∧
      ∀ f q, Static cfg f q → ∀ x, texts d (source S f q) = some x → ¬ Old S d f q → texts d (dest S f q) = some x :=
  (watched_inv h).1.right cfg hcfg hg hgc

theorem copy_status (need : FileCtx → FileCtx → Bool) (d : Files) : ∀ (xs : List FileCtx) (os : List (Option FileCtx)),
    (Site.copyFiles need (fun f _ => copyStatus d f.path) xs os).2 = 0 ∨
      (Site.copyFiles need (fun f _ => copyStatus d f.path) xs os).2 = 1 ∧ ∃ x ∈ xs, d x.path = none
  | [], _ => .inl rfl
  | _ :: _, [] => .inl rfl
  | x :: xs, none :: os => by
    rcases copy_status need d xs os with h | ⟨h, y, hy, h'⟩
    · exact .inl h
    · exact .inr ⟨h, y, List.mem_cons_of_mem _ hy, h'⟩
  | x :: xs, some o :: os => by
    have ih := copy_status need d xs os
    unfold Site.copyFiles
    split
    · split
      next hne =>
        right
        unfold copyStatus texts at hne ⊢
        cases hd : d x.path with
        | none => exact ⟨rfl, x, List.mem_cons_self, hd⟩
        | some v => rw [hd] at hne; exact absurd rfl hne
      · rcases ih with h | ⟨h, y, hy, h'⟩
        · exact .inl h
        · exact .inr ⟨h, y, List.mem_cons_of_mem _ hy, h'⟩
    · rcases ih with h | ⟨h, y, hy, h'⟩
      · exact .inl h
      · exact .inr ⟨h, y, List.mem_cons_of_mem _ hy, h'⟩

/-- Whatever happened before, copying fails only if a file that is to be copied is gone, and
then with status 1. -/
theorem copies_fail (clock : Str → Int × Int) (w : Watcher) (d : Files) :
    (S.watchCopies clock w d).2 = 0 ∨ (S.watchCopies clock w d).2 = 1 ∧ ∃ x ∈ w.copy, d x.path = none :=
  copy_status _ d _ _

/-! ## A site that is watched

It was built at second 2, and then watching began. At second 3 the static file was
changed, and at second 4 the page "about". -/

theorem sampleFiles_times (p : Str) (u : Int × Int) (h : times sampleFiles p = some u) : u = (1, 0) := by
  unfold times sampleFiles at h
  repeat' split at h
  all_goals first | exact (Option.some.inj h).symm | cases h

theorem staticFiles_times (p : Str) (u : Int × Int) (h : times staticFiles p = some u) : u = (1, 0) := by
  unfold staticFiles at h
  rw [times_put] at h
  split at h
  · exact (Option.some.inj h).symm
  · exact sampleFiles_times p u h

theorem static_bound (p : Str) (u : Int × Int) (h : times staticOnce p = some u) : ¬ Later u (2, 0) := by
  by_cases hp : isOut p
  · obtain ⟨v, hv, rfl⟩ := Option.map_eq_some_iff.1 h
    rw [staticOnce_times p v.1 v.2 hp hv]
    decide
  · rw [show times staticOnce p = times staticFiles p by unfold times; rw [staticOnce_same p hp]] at h
    rw [staticFiles_times p u h]
    decide

def startWatcher (d : Files) : Watcher :=
  ⟨staticCfg, times d, (staticSite.copySite (staticDisk d) staticCfg (times d)).copy⟩

theorem start_eq {d : Files} (h : texts d b!"/site/blogcfile" = some b!"settings") :
    staticSite.watcher staticDisk d = some (startWatcher d) := by
  unfold Setup.watcher
  rw [static_config h]
  rfl

theorem once_watched :
    Watched staticSite staticDisk isOut (2, 0) staticOnce (some (startWatcher staticOnce)) staticOnce := by
  rw [← start_eq (d := staticOnce) (by decide +kernel)]
  exact .start _ _ staticOnce_reached (static_now staticOnce_onlyA) (by decide) static_bound

def about : Str := b!"/site/content/about.txt"

def twiceEdited : Files :=
  put (put staticOnce fileA (some (b!"two", (3, 0)))) about (some (b!"new", (4, 0)))

example : Watched staticSite staticDisk isOut (4, 0) twiceEdited (some (startWatcher staticOnce)) staticOnce :=
  .edit _ _ _ _ _ _ _ (.edit _ _ _ _ _ _ _ once_watched (static_notOut [b!"a"]) (by decide))
    (by unfold isOut about; decide) (by decide)

theorem static_outside : Outside staticSite isOut staticCfg := by
  have : ∀ p ∈ staticSite.ctxPaths staticCfg, startsWith p b!"/site/_build/" = false := by decide +kernel
  intro p hp h
  have := this p hp
  rw [h] at this
  cases this

theorem static_kept {d d' : Files} (hset : (d' b!"/site/blogcfile").isSome = true)
    (h : ((staticSite.ctxPaths staticCfg).all fun p => (d' p).isSome || (d p).isNone) = true)
    (hstatic : ∀ p, (d p).isSome → (d' p).isSome) : Kept staticSite (startWatcher d) d d' where
  settings := hset
  files p hp hd := by
    have := List.all_eq_true.1 h p hp
    rw [hd] at this
    show times d p = none
    unfold times
    rw [Option.isNone_iff_eq_none.1 (show (d p).isNone = true from this)]
    rfl
  static f q _ hs := hstatic _ hs

theorem not_new {d d' : Files} (h : times d b!"/site/blogcfile" = some (1, 0))
    (h' : times d' b!"/site/blogcfile" = some (1, 0)) : ¬ NewSettings staticSite d d' := by
  rintro ⟨t, u, h1, h2, h3⟩
  have h1 := Option.some.inj (h.symm.trans h1)
  have h2 := Option.some.inj (h'.symm.trans h2)
  subst h1 h2
  exact absurd h3 (by decide)

example : Outside staticSite isOut (startWatcher staticOnce).cfg ∧
    Kept staticSite (startWatcher staticOnce) staticOnce twiceEdited ∧
    ¬ NewSettings staticSite staticOnce twiceEdited := by
  refine ⟨static_outside, static_kept (by decide +kernel) (by decide +kernel) fun p h => ?_,
    not_new (by decide +kernel) (by decide +kernel)⟩
  unfold twiceEdited put
  split
  · rfl
  · split
    · rfl
    · exact h

/-- A round at a time: its status, and the text and time of a file after it. -/
def roundAt (t : Int) (d : Files) (w : Watcher) : Option (Option Watcher × Files × Int) :=
  staticSite.round staticDisk (fun _ => (t, 0)) d (some w)
def statusOf (r : Option (Option Watcher × Files × Int)) : Option Int := r.map (·.2.2)
def fileOf (r : Option (Option Watcher × Files × Int)) (p : Str) : Option (Str × (Int × Int)) := r.bind (·.2.1 p)

example : statusOf (roundAt 5 twiceEdited (startWatcher staticOnce)) = some 0 ∧
    fileOf (roundAt 5 twiceEdited (startWatcher staticOnce)) copyA = some (b!"two", (5, 0)) ∧
    (fileOf (roundAt 5 twiceEdited (startWatcher staticOnce)) b!"/site/_build/about/index.html").map (·.2) =
      some (5, 0) ∧
    (fileOf (roundAt 5 twiceEdited (startWatcher staticOnce)) first).map (·.2) = some (2, 0) := by decide +kernel

/-- The page and the settings file were changed; the settings are the same. -/
def rewritten : Files :=
  put (put staticOnce about (some (b!"new", (3, 0)))) b!"/site/blogcfile" (some (b!"settings", (4, 0)))

example : Watched staticSite staticDisk isOut (4, 0) rewritten (some (startWatcher staticOnce)) staticOnce :=
  .edit _ _ _ _ _ _ _ (.edit _ _ _ _ _ _ _ once_watched (by unfold isOut about; decide) (by decide))
    (by unfold isOut; decide) (by decide)

example : CopyNow staticSite staticDisk isOut rewritten ∧ NewSettings staticSite staticOnce rewritten ∧
    staticSite.config rewritten = some staticCfg := by
  refine ⟨static_now ?_, ⟨(1, 0), (4, 0), ?_, by decide +kernel, by decide⟩, static_config (by decide +kernel)⟩
  · intro q hq hne
    obtain ⟨r, e⟩ := under_prefix b!"/site/static" q
    have h := staticOnce_onlyA q hq hne
    rw [e] at h ⊢
    unfold rewritten put
    rw [if_neg (by intro h; cases h), if_neg (by intro h; cases h)]
    exact h
  · exact show times staticOnce b!"/site/blogcfile" = some (1, 0) by decide +kernel

example : statusOf (roundAt 5 rewritten (startWatcher staticOnce)) = some 0 ∧
    (fileOf (roundAt 5 rewritten (startWatcher staticOnce)) copyA).map (·.2) = some (5, 0) ∧
    (fileOf (roundAt 5 rewritten (startWatcher staticOnce)) first).map (·.2) = some (5, 0) := by decide +kernel

theorem of_statusOf {r : Option (Option Watcher × Files × Int)} {n : Int} (h : statusOf r = some n) :
    ∃ w d, r = some (w, d, n) := by
  obtain ⟨v, rfl, rfl⟩ := Option.map_eq_some_iff.1 h
  exact ⟨v.1, v.2.1, rfl⟩

/-- A file and its copy are removed. -/
def gone : Files := put (put staticOnce fileA none) copyA none

example : statusOf (roundAt 3 gone (startWatcher staticOnce)) = some 1 := by decide +kernel

/-! ## Violations -/

/-- A new file in a directory that is copied is not copied, although a build by hand
would do so. -/
theorem added_violated : ∃ (S : Setup) (disk : Files → Str → Forest) (out : Str → Prop) (now : Int × Int)
    (d seen : Files) (w : Watcher), Watched S disk out now d (some w) seen ∧ CopyNow S disk out d ∧
    ∃ clock w' d' d'' f q x, S.round disk clock d (some w) = some (w', d', 0) ∧ Static w.cfg f q ∧
      texts d (source S f q) = some x ∧ d' (dest S f q) = none ∧
      S.buildAll disk clock d = some (d'', 0) ∧ texts d'' (dest S f q) = some x := by
  have hw : Watched staticSite staticDisk isOut (1, 0) sampleFiles (some (startWatcher sampleFiles)) sampleFiles := by
    rw [← start_eq (d := sampleFiles) (by decide +kernel)]
    refine .start _ _ (.start _ sampleFiles_out) (static_now onlyA_sample) (by decide) fun p u h => ?_
    rw [sampleFiles_times p u h]
    decide
  obtain ⟨w', d', h⟩ := of_statusOf (show statusOf (roundAt 3 (put sampleFiles fileA (some (b!"one", (2, 0))))
    (startWatcher sampleFiles)) = some 0 by decide +kernel)
  have ht : fileOf (roundAt 3 (put sampleFiles fileA (some (b!"one", (2, 0)))) (startWatcher sampleFiles)) copyA = none := by
    decide +kernel
  obtain ⟨d'', h''⟩ := of_status (show status? (allAt 3 (put sampleFiles fileA (some (b!"one", (2, 0))))) = some 0 by
    decide +kernel)
  have ht'' : text? (allAt 3 (put sampleFiles fileA (some (b!"one", (2, 0))))) copyA = some b!"one" := by decide +kernel
  rw [h] at ht
  rw [h''] at ht''
  refine ⟨staticSite, staticDisk, isOut, (2, 0), put sampleFiles fileA (some (b!"one", (2, 0))), sampleFiles,
    startWatcher sampleFiles, .edit _ _ _ _ _ _ _ hw (static_notOut [b!"a"]) (by decide),
    static_now (onlyA_put onlyA_sample _), _, w', d', d'', b!"static", [b!"a"], b!"one", h,
    ⟨List.mem_singleton.2 rfl, by decide⟩, by decide +kernel, ?_, h'', ?_⟩
  · rw [show dest staticSite b!"static" [b!"a"] = copyA by decide +kernel]
    exact ht
  · rw [show dest staticSite b!"static" [b!"a"] = copyA by decide +kernel]
    exact ht''

/-- If the file `p`, the source of a page, is removed, a round succeeds although there is no text for
the page, and a build by hand fails. -/
def RemovedUnseen (p : Str) : Prop :=
  ∃ (S : Setup) (disk : Files → Str → Forest) (out : Str → Prop) (now : Int × Int)
    (d seen : Files) (w : Watcher), Watched S disk out now d (some w) seen ∧ CopyNow S disk out d ∧
    (seen p).isSome ∧ d = put seen p none ∧
    ∃ clock w' d' d'' rv v, S.round disk clock d (some w) = some (w', d', 0) ∧
      Wants S w.cfg d v ∧ (∀ text, ¬ Shows S w.cfg d v text) ∧ S.buildAll disk clock d = some (d'', rv) ∧ rv ≠ 0

theorem removed_of (p : Str) (hp : (staticOnce p).isSome = true)
    (h1 : statusOf (roundAt 3 (put staticOnce p none) (startWatcher staticOnce)) = some 0)
    (h2 : status? (allAt 3 (put staticOnce p none)) ≠ some 0)
    (h3 : texts (put staticOnce p none) b!"/site/blogcfile" = some b!"settings") : RemovedUnseen p := by
  have hw := Watched.remove _ _ _ _ p once_watched
  have honly : OnlyA (put staticOnce p none) := by
    intro q hq hne
    unfold put
    split
    · rfl
    · exact staticOnce_onlyA q hq hne
  obtain ⟨w', d', h⟩ := of_statusOf h1
  have hr : Reached staticSite staticDisk isOut (put staticOnce p none) := .remove _ _ staticOnce_reached
  have hcfg : staticSite.config (put staticOnce p none) = some staticCfg := static_config h3
  obtain ⟨d'', rv, e, -, -, hfail⟩ := up_to_date_partial hr staticCfg hcfg (static_now honly) fun _ => (3, 0)
  have hrv : rv ≠ 0 := by
    rintro rfl
    unfold allAt at h2
    rw [e] at h2
    exact h2 rfl
  obtain ⟨v, hv, hn⟩ := hfail hrv
  exact ⟨staticSite, staticDisk, isOut, (2, 0), put staticOnce p none, staticOnce, startWatcher staticOnce, hw,
    static_now honly, hp, rfl, _, w', d', d'', rv, v, h, hv, hn, e, hrv⟩

theorem removed_violated : RemovedUnseen about := removed_of _ (by decide +kernel) (by decide +kernel) (by decide +kernel) (by decide +kernel)

/-- The same for a post. -/
theorem removed_post_violated : RemovedUnseen b!"/site/content/post/one.txt" :=
  removed_of _ (by decide +kernel) (by decide +kernel) (by decide +kernel) (by decide +kernel)

end Blogc.C109
