import Verif.Lemmas.StaticFiles
import Verif.Lemmas.IncrementalSample

/-!
# Sites that meet the hypotheses of C108
-/

namespace Blogc.C108

open Blogc Blogc.Make Blogc.Build Blogc.C100
open Blogc.Spec.MakeJobs Blogc.Spec.Incremental Blogc.Spec.StaticFiles
open Blogc.Spec.MakeCopy (Found Below under)
open Blogc.Path

theorem good_copy {S : Setup} {out : Str → Prop} {cfg : MakeSettings.Settings} (h : Good S out cfg)
    (settings : Str → Option MakeSettings.Settings) (copy : Option (List Str)) :
    Good { S with settings } out { cfg with copy } where
  ok := ⟨h.ok.settingsFile, h.ok.outDir, h.ok.contentDir, h.ok.templateDir, h.ok.mainTemplate, h.ok.htmlExt, h.ok.atomExt,
    h.ok.dateFormat, h.ok.perPage, h.ok.atomPerPage, h.ok.listingEntry, h.ok.posts, h.ok.pages, h.ok.tags⟩
  clean := ⟨h.clean.exe, h.clean.locale, h.clean.tags, h.clean.filled, h.clean.global⟩
  runs := h.runs
  perPage := h.perPage
  posts := h.posts
  settingsFile := h.settingsFile
  outputs := h.outputs
  inputs := h.inputs
  distinct := h.distinct

/-- The way down from a path can be read back. -/
theorem under_comps (f : Str) (q : List Str) (h : ∀ n ∈ q, Proper n) : comps (under f q) = comps f ++ q := by
  induction q generalizing f with
  | nil => simp [under]
  | cons n q ih =>
    rw [show under f (n :: q) = under (f ++ b!"/" ++ n) q from rfl, ih _ fun m hm => h m (by simp [hm]),
      List.append_assoc f]
    show comps (f ++ c!"/" :: n) ++ q = _
    rw [comps_append_slash, C89.comps_single n (h n (by simp)).2.2.2, List.append_assoc]
    rfl

theorem under_inj {f : Str} {q q' : List Str} (h : ∀ n ∈ q, Proper n) (h' : ∀ n ∈ q', Proper n)
    (e : under f q = under f q') : q = q' := by
  have := congrArg comps e
  rw [under_comps f q h, under_comps f q' h'] at this
  exact List.append_cancel_left this

theorem under_prefix (f : Str) (q : List Str) : ∃ r, under f q = f ++ r := by
  cases q with
  | nil => exact ⟨[], (List.append_nil f).symm⟩
  | cons n q => exact ⟨b!"/" ++ under n q, by rw [C89.under_cons, List.append_assoc]⟩

/-! ## A site with a directory of static files -/

/-- The site of C100, which also copies the directory "static". -/
def staticCfg : MakeSettings.Settings := { sampleCfg with copy := some [b!"static"] }
def staticSite : Setup :=
  { sample with settings := fun t => if t = b!"settings" then some staticCfg else none }

/-- The static file of the site, and its copy. -/
def fileA : Str := b!"/site/static/a"
def copyA : Str := b!"/site/_build/static/a"

/-- The directory has at most one file. -/
def staticDisk (d : Files) (p : Str) : Forest :=
  if p = b!"/site/static" then
    match times d fileA with
    | none => .dir b!"static" .nil .nil
    | some t => .dir b!"static" (.file b!"a" t.1 t.2 .nil) .nil
  else .nil

/-- The files below the directory. -/
def OnlyA (d : Files) : Prop :=
  ∀ q, (∀ n ∈ q, Proper n) → q ≠ [b!"a"] → d (under b!"/site/static" q) = none

theorem static_sees {d : Files} (h : OnlyA d) : Sees (staticDisk d) d b!"/site/static" := by
  intro q t
  unfold staticDisk
  rw [if_pos rfl]
  have ha : ∀ n ∈ [b!"a"], Proper n := by decide
  have hq : ∀ u, times d (under b!"/site/static" q) = some u → (∀ n ∈ q, Proper n) → q = [b!"a"] := by
    intro u hu hp
    by_contra hne
    unfold times at hu
    rw [h q hp hne] at hu
    cases hu
  cases ht : times d fileA with
  | none =>
    constructor
    · intro hf
      cases hf with
      | dir _ _ _ _ _ hb => cases hb
    · rintro ⟨hp, hu⟩
      have := hq t hu hp
      subst this
      rw [show under b!"/site/static" [b!"a"] = fileA from rfl, ht] at hu
      cases hu
  | some v =>
    constructor
    · intro hf
      cases hf with
      | dir _ _ _ _ _ hb =>
        cases hb with
        | file => exact ⟨ha, ht⟩
        | nextFile _ _ _ _ _ _ hb => cases hb
    · rintro ⟨hp, hu⟩
      have := hq t hu hp
      subst this
      rw [show under b!"/site/static" [b!"a"] = fileA from rfl, ht] at hu
      injection hu with hu
      subst hu
      exact .dir _ _ _ _ _ (.file _ _ _ _ (by decide))

theorem static_good : Good staticSite isOut staticCfg := good_copy sample_good _ _

theorem static_entry {f : Str} {q : List Str} (h : Static staticCfg f q) : f = b!"static" := List.mem_singleton.1 h.1

theorem static_goodCopy : GoodCopy staticSite isOut staticCfg where
  entries := show ∀ f ∈ [b!"static"], f ≠ [] by decide
  sources := by
    intro f q h
    rw [static_entry h]
    obtain ⟨r, e⟩ := under_prefix b!"/site/static" q
    unfold isOut source
    rw [show absPath staticSite.root b!"static" = b!"/site/static" by decide +kernel, e]
    simp [startsWith]
  dests := by
    intro f q h
    exact (rfl : startsWith (b!"/site/_build" ++ b!"/" ++ under f q) b!"/site/_build/" = true)
  apart := by
    intro f q h w hw
    rw [static_entry h]
    obtain ⟨r, e⟩ := under_prefix b!"static" q
    unfold dest
    rw [e]
    have hs : startsWith (b!"/site/_build" ++ b!"/" ++ (b!"static" ++ r)) b!"/site/_build/s" = true := rfl
    have hw : Possible sampleSite w := hw
    have hn : startsWith w.output b!"/site/_build/s" = false := by
      rcases sample_cases hw with h | ⟨n, rfl⟩ | ⟨n, rfl⟩
      · exact (show ∀ w ∈ fixed, startsWith w.output b!"/site/_build/s" = false by decide +kernel) w h
      · rfl
      · rfl
    intro he
    rw [he] at hn
    rw [show absPath staticSite.root staticSite.outDir = b!"/site/_build" by decide +kernel, hs] at hn
    cases hn

theorem static_config {d : Files} (h : texts d b!"/site/blogcfile" = some b!"settings") :
    staticSite.config d = some staticCfg := by
  show (texts d b!"/site/blogcfile").bind _ = _
  rw [h]
  rfl

theorem static_now {d : Files} (h : OnlyA d) : CopyNow staticSite staticDisk isOut d := by
  intro cfg hcfg
  obtain ⟨text, -, h'⟩ := Option.bind_eq_some_iff.1 hcfg
  have h' : (if text = b!"settings" then some staticCfg else none) = some cfg := h'
  split at h'
  · injection h' with h'
    subst h'
    refine ⟨static_good, static_goodCopy, fun f hf => ?_⟩
    rw [List.mem_singleton.1 (show f ∈ [b!"static"] from hf)]
    exact static_sees h
  · cases h'

/-- The files of the site. -/
def staticFiles : Files := put sampleFiles fileA (some (b!"one", (1, 0)))

theorem static_notOut (q : List Str) : ¬ isOut (under b!"/site/static" q) := by
  obtain ⟨r, e⟩ := under_prefix b!"/site/static" q
  unfold isOut
  rw [e]
  simp [startsWith]

theorem onlyA_put {d : Files} (h : OnlyA d) (v : Option (Str × (Int × Int))) : OnlyA (put d fileA v) := by
  intro q hq hne
  unfold put
  rw [if_neg, h q hq hne]
  intro e
  exact hne (under_inj hq (by decide) (show under b!"/site/static" q = under b!"/site/static" [b!"a"] from e))

theorem onlyA_same {d d' : Files} (h : OnlyA d) (hs : ∀ p, ¬ isOut p → d' p = d p) : OnlyA d' := by
  intro q hq hne
  rw [hs _ (static_notOut q), h q hq hne]

theorem onlyA_sample : OnlyA sampleFiles := by
  intro q hq _
  obtain ⟨r, e⟩ := under_prefix b!"/site/static" q
  rw [e]
  unfold sampleFiles
  rw [if_neg (by intro h; cases h), if_neg (by intro h; cases h), if_neg (by intro h; cases h),
    if_neg (by intro h; cases h), if_neg (by intro h; cases h)]

theorem static_onlyA : OnlyA staticFiles := onlyA_put onlyA_sample _

theorem static_start : Reached staticSite staticDisk isOut staticFiles := by
  refine .start _ fun p hp => ?_
  unfold staticFiles put
  rw [if_neg, sampleFiles_out p hp]
  rintro rfl
  exact static_notOut [b!"a"] hp

/-- Build at a time. -/
def allAt (t : Int) (d : Files) : Option (Files × Int) := staticSite.buildAll staticDisk (fun _ => (t, 0)) d

/-- The files after a first build at second 2. -/
def staticOnce : Files := ((allAt 2 staticFiles).map (·.1)).getD fun _ => none

theorem static_first : allAt 2 staticFiles = some (staticOnce, 0) := by
  have h : status? (allAt 2 staticFiles) = some 0 := by decide +kernel
  obtain ⟨d, h⟩ := of_status h
  unfold staticOnce
  rw [h]
  rfl

theorem staticOnce_reached : Reached staticSite staticDisk isOut staticOnce :=
  .build _ _ _ _ static_start (static_now static_onlyA) static_first

/-! ## A site whose output directory is inside a directory that it copies -/

def nestedCfg : MakeSettings.Settings := ⟨.nil, .nil, none, none, some [b!"www"], none⟩
def nestedSite : Setup :=
  { sample with outDir := b!"www/out", settings := fun t => if t = b!"settings" then some nestedCfg else none }

def nestedFiles : Files := fun p =>
  if p = b!"/site/blogcfile" then some (b!"settings", (1, 0))
  else if p = b!"/site/www/a" then some (b!"x", (1, 0))
  else none

/-- The copy, and the copy of the copy. -/
def copy1 : Str := b!"/site/www/out/www/a"
def copy2 : Str := b!"/site/www/out/www/out/www/a"

def nestedDisk (d : Files) (p : Str) : Forest :=
  if p = b!"/site/www" then
    .dir b!"www" (.file b!"a" 1 0 (if (d copy1).isSome then
      .dir b!"out" (.dir b!"www" (.file b!"a" 2 0 .nil) .nil) .nil else .nil)) .nil
  else .nil

def nested1 : Files := put nestedFiles copy1 (some (b!"x", (2, 0)))
def nested2 : Files := put nested1 copy2 (some (b!"x", (3, 0)))

theorem nested_build1 : nestedSite.buildAll nestedDisk (fun _ => (2, 0)) nestedFiles = some (nested1, 0) := by
  rfl
theorem nested_build2 : nestedSite.buildAll nestedDisk (fun _ => (3, 0)) nested1 = some (nested2, 0) := by
  rfl

theorem nested_sees1 : Sees (nestedDisk nestedFiles) nestedFiles b!"/site/www" := by
  intro q t
  have ha : ∀ n ∈ [b!"a"], Proper n := by decide
  show Found (.dir b!"www" (.file b!"a" 1 0 .nil) .nil) q t ↔ _
  constructor
  · intro h
    cases h with
    | dir _ _ _ _ _ h =>
      cases h with
      | file => exact ⟨ha, rfl⟩
      | nextFile _ _ _ _ _ _ h => cases h
  · rintro ⟨hq, ht⟩
    unfold times nestedFiles at ht
    split at ht
    · rename_i e
      obtain ⟨r, e'⟩ := under_prefix b!"/site/www" q
      rw [e'] at e
      cases e
    · split at ht
      · rename_i e
        have := under_inj hq ha (show under b!"/site/www" q = under b!"/site/www" [b!"a"] from e)
        subst this
        cases ht
        exact .dir _ _ _ _ _ (.file _ _ _ _ (by decide))
      · cases ht

theorem nested_sees2 : Sees (nestedDisk nested1) nested1 b!"/site/www" := by
  intro q t
  have ha : ∀ n ∈ [b!"out", b!"www", b!"a"], Proper n := by decide
  show Found (.dir b!"www" (.file b!"a" 1 0 (.dir b!"out" (.dir b!"www" (.file b!"a" 2 0 .nil) .nil) .nil)) .nil) q t ↔ _
  constructor
  · intro h
    cases h with
    | dir _ _ _ _ _ h =>
      cases h with
      | file => exact ⟨by decide, rfl⟩
      | nextFile _ _ _ _ _ _ h =>
        cases h with
        | nextDir _ _ _ _ _ h => cases h
        | inside _ _ _ _ _ _ h =>
          cases h with
          | nextDir _ _ _ _ _ h => cases h
          | inside _ _ _ _ _ _ h =>
            cases h with
            | file => exact ⟨ha, rfl⟩
            | nextFile _ _ _ _ _ _ h => cases h
  · rintro ⟨hq, ht⟩
    by_cases hc : under b!"/site/www" q = copy1
    · have := under_inj hq ha (show under b!"/site/www" q = under b!"/site/www" [b!"out", b!"www", b!"a"] from hc)
      subst this
      cases ht
      exact .dir _ _ _ _ _ (.nextFile _ _ _ _ _ _ (.inside _ _ _ _ _ (by decide) (.inside _ _ _ _ _ (by decide)
        (.file _ _ _ _ (by decide)))))
    · have ht' : times nestedFiles (under b!"/site/www" q) = some t := by
        unfold times nested1 put at ht
        rw [if_neg hc] at ht
        exact ht
      have := (nested_sees1 q t).2 ⟨hq, ht'⟩
      cases (show Found (.dir b!"www" (.file b!"a" 1 0 .nil) .nil) q t from this) with
      | dir _ _ _ _ _ h =>
        cases h with
        | file _ _ _ _ h => exact .dir _ _ _ _ _ (.file _ _ _ _ h)
        | nextFile _ _ _ _ _ _ h => cases h

end Blogc.C108
