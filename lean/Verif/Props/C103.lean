import Verif.Lemmas.SitePages
import Verif.Lemmas.SettingsSample
import Verif.Props.C90
import Verif.Props.C100
import Verif.Props.C102
import Verif.Props.C109
import Verif.Props.C108

/-!
# C103: from the files of a site to its pages

blogc-make with blogc as a whole: when a build is done, every file of the site is the page that the manuals describe
for it, whatever was edited and built before.
-/

namespace Blogc.C103

open Blogc Blogc.Make Blogc.Spec Blogc.Spec.Page Blogc.Spec.MakeJobs Blogc.Spec.MakeRun Blogc.Spec.Entries Blogc.Doc
open Blogc.Spec.SitePages Blogc.Spec.Incremental Blogc.Build Blogc.SitePages
open Blogc.Spec.StaticFiles Blogc.Spec.Watching

variable {S : Setup} {out : Str → Prop}

/-- The site is written as described in the manuals, with the posts `post f`, and with the template `tree w` for the run
`w`, and shown on `count` pages, `counts tag` for a tag. The settings are good, and no template shows a variable that may
be left from another post (`NoLeak`, see C24). -/
structure SiteOk (S : Setup) (out : Str → Prop) (h : Program.Host) (cfg : MakeSettings.Settings) (d : Files)
    (post : Str → Post) (time : Str → Int) (m : Int) (count : Nat) (counts : Str → Nat) (tree : Wanted → T) : Prop where
  good : Good S out cfg
  written : Written (base S cfg) (S.seen cfg d) (PageRun.seconds h) post time m
  counted : Counted (base S cfg) post count counts
  templates : ∀ w ∈ runs (base S cfg) count counts, ∃ ts, TemplateWritten (S.seen cfg d) w.template ts (tree w)
  noLeak : ∀ w ∈ runs (base S cfg) count counts, ∃ used : List Str → Prop, ∀ pg l n,
    Request.Paged (vars (base S cfg) h.version w) pg →
    Request.Listed (vars (base S cfg) h.version w) post time w.sources l n pg →
    NoLeak ⟨l, w.listing⟩ (PageRun.Apart (l ++ w.entry.toList) post) (used l) false (tree w)

/-- The files `d'` have the page meant for every run. -/
def PagesOf (S : Setup) (h : Program.Host) (cfg : MakeSettings.Settings) (post : Str → Post) (time : Str → Int) (m : Int)
    (count : Nat) (counts : Str → Nat) (tree : Wanted → T) (d' : Files) : Prop :=
  ∀ w ∈ runs (base S cfg) count counts, ∃ text t, d' w.output = some (text, t) ∧
    RunPage (base S cfg) h post time m (tree w) w text

variable {cfg : MakeSettings.Settings} {d : Files} {post : Str → Post} {time : Str → Int} {m : Int} {count : Nat}
  {counts : Str → Nat} {tree : Wanted → T}

/-- Enough depth and fuel: the settings are read, no page fails, and files with what blogc gives for all that is wanted
have the pages. -/
theorem site_shows (h : Program.Host) (hcfg : ReadAs (texts d) S.settingsFile cfg)
    (hok : SiteOk S out h cfg d post time m count counts tree) :
    ∃ b, ∀ depth ≥ b, ∃ n, ∀ fuel ≥ n, (S.real h depth fuel).config d = some cfg ∧
      (∀ w, Wants (S.real h depth fuel) cfg d w → ∃ text, Shows (S.real h depth fuel) cfg d w text) ∧
      ∀ d' : Files, (∀ w, Wants (S.real h depth fuel) cfg d w →
        ∃ text t, d' w.output = some (text, t) ∧ Shows (S.real h depth fuel) cfg d w text) →
        PagesOf S h cfg post time m count counts tree d' := by
  obtain ⟨hg, hw, hc, ht, hn⟩ := hok
  obtain ⟨b0, hb0⟩ := config_real hcfg
  obtain ⟨b1, hb1⟩ := wants hg h hw hc
  have hex : ∀ w, ∃ b, w ∈ runs (base S cfg) count counts → ∀ depth ≥ b, ∃ text n,
      RunPage (base S cfg) h post time m (tree w) w text ∧
      ∀ fuel ≥ n, ∀ text', Shows (S.real h depth fuel) cfg d w text' ↔ text' = text := by
    intro w
    by_cases hr : w ∈ runs (base S cfg) count counts
    · obtain ⟨ts, hts⟩ := ht w hr
      obtain ⟨used, hu⟩ := hn w hr
      obtain ⟨b, hb⟩ := run_shows hg h hw hc hr hts used hu
      exact ⟨b, fun _ => hb⟩
    · exact ⟨0, fun h => absurd h hr⟩
  choose f hf using hex
  obtain ⟨b2, hb2⟩ := PageRun.bound f (runs (base S cfg) count counts)
  refine ⟨b1 + b2, fun depth hdep => ?_⟩
  have hex : ∀ w, ∃ text n, w ∈ runs (base S cfg) count counts →
      RunPage (base S cfg) h post time m (tree w) w text ∧
      ∀ fuel ≥ n, ∀ text', Shows (S.real h depth fuel) cfg d w text' ↔ text' = text := by
    intro w
    by_cases hr : w ∈ runs (base S cfg) count counts
    · obtain ⟨text, n, h1⟩ := hf w hr depth (by have := hb2 w hr; omega)
      exact ⟨text, n, fun _ => h1⟩
    · exact ⟨[], 0, fun h => absurd h hr⟩
  choose text n hx using hex
  obtain ⟨b3, hb3⟩ := PageRun.bound n (runs (base S cfg) count counts)
  refine ⟨b0 + b1 + b3, fun fuel hfuel => ?_⟩
  have hwants := hb1 depth (by omega) fuel (by omega)
  refine ⟨hb0 fuel (by omega) h depth, fun w hw1 => ?_, fun d' hd' w hr => ?_⟩
  · have hr := (hwants w).1 hw1
    exact ⟨text w, ((hx w hr).2 fuel (by have := hb3 w hr; omega) _).2 rfl⟩
  · obtain ⟨text', t, e, hshow⟩ := hd' w ((hwants w).2 hr)
    rw [((hx w hr).2 fuel (by have := hb3 w hr; omega) _).1 hshow] at e
    exact ⟨text w, t, e, (hx w hr).1⟩

/-- The theorem `site_partial` below, for settings that have been read. -/
theorem site_read (h : Program.Host) (hcfg : ReadAs (texts d) S.settingsFile cfg)
    (hok : SiteOk S out h cfg d post time m count counts tree) :
    ∃ b, ∀ depth ≥ b, ∃ n, ∀ fuel ≥ n, ∀ clock, Reachable (S.real h depth fuel) out d →
      ∃ d', (S.real h depth fuel).build clock d = some (d', 0) ∧ (∀ p, ¬ out p → d' p = d p) ∧
        PagesOf S h cfg post time m count counts tree d' := by
  obtain ⟨b, hb⟩ := site_shows h hcfg hok
  refine ⟨b, fun depth hdep => ?_⟩
  obtain ⟨n, hn⟩ := hb depth hdep
  refine ⟨n, fun fuel hfuel clock hreach => ?_⟩
  obtain ⟨k1, k2, k3⟩ := hn fuel hfuel
  obtain ⟨d', rv, h1, h2, h3, h4⟩ := C100.up_to_date hreach cfg k1 (good_real hok.good h depth fuel) clock
  have hrv : rv = 0 := by
    by_contra hne
    obtain ⟨w, hw1, hw2⟩ := h4 hne
    obtain ⟨text, ht⟩ := k2 w hw1
    exact hw2 text ht
  subst hrv
  exact ⟨d', h1, h2, k3 d' (h3 rfl)⟩

/-- The settings file is written with the sections and lines of `doc`, and gives the settings `cfg`. If the site is
written as described in the manuals (`SiteOk`), then a build succeeds, changes nothing but outputs, and leaves the page
meant for every run (`RunPage`): the listings, the feeds, the numbered pages, the posts and the other pages. -/
theorem site_partial (h : Program.Host) {d : Files} {doc : Spec.Config.Doc}
    (hset : SettingsWritten (texts d) S.settingsFile doc) :
    ∃ cfg, SettingsOf doc cfg ∧ ∀ post time m count counts tree,
      SiteOk S out h cfg d post time m count counts tree →
      ∃ b, ∀ depth ≥ b, ∃ n, ∀ fuel ≥ n, ∀ clock, Reachable (S.real h depth fuel) out d →
        ∃ d', (S.real h depth fuel).build clock d = some (d', 0) ∧ (∀ p, ¬ out p → d' p = d p) ∧
          PagesOf S h cfg post time m count counts tree d' := by
  obtain ⟨cfg, h1, h2⟩ := settings_read hset
  exact ⟨cfg, h1, fun _ _ _ _ _ _ hok => site_read h h2 hok⟩

/-! ## With static files -/

/-- The directories that are copied are seen, and can be copied. -/
def CopyOk (S : Setup) (disk : Files → Str → Forest) (out : Str → Prop) (cfg : MakeSettings.Settings) (d : Files) : Prop :=
  GoodCopy S out cfg ∧ ∀ f ∈ cfg.copy.getD [], Sees (disk d) d (absPath S.root f)

/-- The static files of `d` have copies in `d'`, with the same contents. -/
def CopiesOf (S : Setup) (cfg : MakeSettings.Settings) (d d' : Files) : Prop :=
  ∀ f q, Static cfg f q → ∀ x, texts d (source S f q) = some x → texts d' (dest S f q) = some x

theorem now_real {disk : Files → Str → Forest} {h : Program.Host} {depth fuel : Nat} (hg : Good S out cfg)
    (hc : CopyOk S disk out cfg d) (hcfg : (S.real h depth fuel).config d = some cfg) :
    CopyNow (S.real h depth fuel) disk out d := by
  intro cfg' e
  rw [hcfg] at e
  injection e with e
  subst e
  exact ⟨good_real hg h depth fuel, ⟨hc.1.entries, hc.1.sources, hc.1.dests, hc.1.apart⟩, hc.2⟩

theorem static_read (h : Program.Host) (hcfg : ReadAs (texts d) S.settingsFile cfg)
    (hok : SiteOk S out h cfg d post time m count counts tree) {disk : Files → Str → Forest}
    (hcopy : CopyOk S disk out cfg d) :
    ∃ b, ∀ depth ≥ b, ∃ n, ∀ fuel ≥ n, ∀ clock, Reached (S.real h depth fuel) disk out d →
      ∃ d', (S.real h depth fuel).buildAll disk clock d = some (d', 0) ∧ (∀ p, ¬ out p → d' p = d p) ∧
        PagesOf S h cfg post time m count counts tree d' ∧ CopiesOf S cfg d d' := by
  obtain ⟨b, hb⟩ := site_shows h hcfg hok
  refine ⟨b, fun depth hdep => ?_⟩
  obtain ⟨n, hn⟩ := hb depth hdep
  refine ⟨n, fun fuel hfuel clock hreach => ?_⟩
  obtain ⟨k1, k2, k3⟩ := hn fuel hfuel
  obtain ⟨d', rv, h1, h2, h3, h4⟩ := C108.up_to_date_partial hreach cfg k1 (now_real hok.good hcopy k1) clock
  have hrv : rv = 0 := by
    by_contra hne
    obtain ⟨w, hw1, hw2⟩ := h4 hne
    obtain ⟨text, ht⟩ := k2 w hw1
    exact hw2 text ht
  subst hrv
  exact ⟨d', h1, h2, k3 d' (h3 rfl).1, (h3 rfl).2⟩

/-- The same with the section `[copy]`, whatever was edited and built before: the static files have their copies, too. -/
theorem static_partial (h : Program.Host) {d : Files} {doc : Spec.Config.Doc}
    (hset : SettingsWritten (texts d) S.settingsFile doc) :
    ∃ cfg, SettingsOf doc cfg ∧ ∀ post time m count counts tree,
      SiteOk S out h cfg d post time m count counts tree → ∀ disk, CopyOk S disk out cfg d →
      ∃ b, ∀ depth ≥ b, ∃ n, ∀ fuel ≥ n, ∀ clock, Reached (S.real h depth fuel) disk out d →
        ∃ d', (S.real h depth fuel).buildAll disk clock d = some (d', 0) ∧ (∀ p, ¬ out p → d' p = d p) ∧
          PagesOf S h cfg post time m count counts tree d' ∧ CopiesOf S cfg d d' := by
  obtain ⟨cfg, h1, h2⟩ := settings_read hset
  exact ⟨cfg, h1, fun _ _ _ _ _ _ hok _ hcopy => static_read h h2 hok hcopy⟩

/-! ## While it is watched -/

theorem watch_read (h : Program.Host) (hcfg : ReadAs (texts d) S.settingsFile cfg)
    (hok : SiteOk S out h cfg d post time m count counts tree) {disk : Files → Str → Forest}
    (hcopy : CopyOk S disk out cfg d) (hout : Outside S out cfg) :
    ∃ b, ∀ depth ≥ b, ∃ n, ∀ fuel ≥ n, ∀ clock now w seen, Watched (S.real h depth fuel) disk out now d (some w) seen →
      (¬ NewSettings S seen d → Kept (S.real h depth fuel) w seen d) →
      ∃ w' d', (S.real h depth fuel).round disk clock d (some w) = some (some w', d', 0) ∧ w'.cfg = cfg ∧
        (∀ p, ¬ out p → d' p = d p) ∧ PagesOf S h cfg post time m count counts tree d' ∧
        (NewSettings S seen d → CopiesOf S cfg d d') ∧
        ∀ f q, Static cfg f q → (seen (source S f q)).isSome → ∀ x, texts d (source S f q) = some x →
          texts d' (dest S f q) = some x := by
  obtain ⟨b, hb⟩ := site_shows h hcfg hok
  refine ⟨b, fun depth hdep => ?_⟩
  obtain ⟨n, hn⟩ := hb depth hdep
  refine ⟨n, fun fuel hfuel clock now w seen hwatch hkept => ?_⟩
  obtain ⟨k1, k2, k3⟩ := hn fuel hfuel
  have key : ∀ seen', C109.UpToDate (S.real h depth fuel) out cfg d seen' ((S.real h depth fuel).round disk clock d (some w)) →
      ∃ w' d', (S.real h depth fuel).round disk clock d (some w) = some (some w', d', 0) ∧ w'.cfg = cfg ∧
        (∀ p, ¬ out p → d' p = d p) ∧ PagesOf S h cfg post time m count counts tree d' ∧
        ∀ f q, Static cfg f q → (seen' (source S f q)).isSome → ∀ x, texts d (source S f q) = some x →
          texts d' (dest S f q) = some x := by
    rintro seen' ⟨w', d', rv, h1, h2, h3, h4, h5⟩
    have hrv : rv = 0 := by
      by_contra hne
      obtain ⟨w, hw1, hw2⟩ := h5 hne
      obtain ⟨text, ht⟩ := k2 w hw1
      exact hw2 text ht
    subst hrv
    exact ⟨w', d', h1, h2, h3, k3 d' (h4 rfl).1, (h4 rfl).2⟩
  by_cases hnew : NewSettings S seen d
  · obtain ⟨w', d', h1, h2, h3, h4, h5⟩ := key d (C109.reread_partial hwatch (now_real hok.good hcopy k1) hnew cfg k1 hout clock)
    have h6 : CopiesOf S cfg d d' := by
      intro f q hst x hx
      refine h5 f q hst ?_ x hx
      unfold texts at hx
      cases hd : d (source S f q) with
      | none => rw [hd] at hx; cases hx
      | some v => rfl
    exact ⟨w', d', h1, h2, h3, h4, fun _ => h6, fun f q hst _ => h6 f q hst⟩
  · have hcw : w.cfg = cfg := by
      have := C109.same_settings hwatch (hkept hnew).settings hnew
      rw [k1] at this
      exact (Option.some.inj this).symm
    subst hcw
    obtain ⟨w', d', h1, h2, h3, h4, h5⟩ := key seen (C109.round_partial hwatch hout (hkept hnew) hnew clock).2
    exact ⟨w', d', h1, h2, h3, h4, fun h => absurd h hnew, h5⟩

/-- A watched site, whatever was written, removed and built before: if nothing that the program remembers was removed, or
the settings file was changed after it was read, then the next round succeeds, and leaves the pages, and the copies of
the static files that were there when the settings were read; all of them if they are read in this round. -/
theorem watch_partial (h : Program.Host) {d : Files} {doc : Spec.Config.Doc}
    (hset : SettingsWritten (texts d) S.settingsFile doc) :
    ∃ cfg, SettingsOf doc cfg ∧ ∀ post time m count counts tree,
      SiteOk S out h cfg d post time m count counts tree → ∀ disk, CopyOk S disk out cfg d → Outside S out cfg →
      ∃ b, ∀ depth ≥ b, ∃ n, ∀ fuel ≥ n, ∀ clock now w seen, Watched (S.real h depth fuel) disk out now d (some w) seen →
        (¬ NewSettings S seen d → Kept (S.real h depth fuel) w seen d) →
        ∃ w' d', (S.real h depth fuel).round disk clock d (some w) = some (some w', d', 0) ∧ w'.cfg = cfg ∧
          (∀ p, ¬ out p → d' p = d p) ∧ PagesOf S h cfg post time m count counts tree d' ∧
          (NewSettings S seen d → CopiesOf S cfg d d') ∧
          ∀ f q, Static cfg f q → (seen (source S f q)).isSome → ∀ x, texts d (source S f q) = some x →
            texts d' (dest S f q) = some x := by
  obtain ⟨cfg, h1, h2⟩ := settings_read hset
  exact ⟨cfg, h1, fun _ _ _ _ _ _ hok _ hcopy hout => watch_read h h2 hok hcopy hout⟩

/-! ## An example -/

open _root_.Blogc.C100 (sample sampleCfg sampleSite isOut tmpl)
open _root_.Blogc.C102 (hello other)

def one : Str := b!"/site/content/post/one.txt"
def about : Str := b!"/site/content/about.txt"

def oneText : Str := b!"TITLE: Hello\nDATE: 2020-01-02\nTAGS: x y\n---\n# Hi\n\na\n<b\n\n..\n\n> q\n"
def aboutText : Str := bom ++ b!"TITLE: Other\nDATE: 2021-03-04\nTAGS: y\n---\n# Hi\n\na\n<b\n\n..\n\n> q\n"
def mainText : Str :=
  b!"{{ SITE }}{% block entry %}{{ TITLE }}{% endblock %}{% block listing %}[{{ EXCERPT }}]{% endblock %}"

/-- A post, a page and a template. -/
def SampleTexts (d : Files) : Prop :=
  texts d one = some oneText ∧ texts d about = some aboutText ∧ texts d tmpl = some mainText

/-- With the settings file. -/
def sampleFiles : Files := fun p =>
  if p = b!"/site/blogcfile" then some (SettingsSample.blogcfile, (1, 0))
  else if p = one then some (oneText, (1, 0))
  else if p = about then some (aboutText, (1, 0))
  else if p = tmpl then some (mainText, (1, 0))
  else none

theorem sampleFiles_texts : SampleTexts sampleFiles := ⟨rfl, rfl, rfl⟩

/-- Any entries may be copied. -/
def cfgWith (copy : Option (List Str)) : MakeSettings.Settings := { sampleCfg with copy }

def samplePosts (f : Str) : Post := if f = one then hello else other

def mainTokens : List Tokens.Tok :=
  [.var b!" " b!"SITE" b!" ", .stmt false b!" " (.block b!" " b!"entry" b!" ") false, .var b!" " b!"TITLE" b!" ",
    .stmt false b!" " (.endblock b!" ") false, .stmt false b!" " (.block b!" " b!"listing" b!" ") false,
    .text b!"[", .var b!" " b!"EXCERPT" b!" ", .text b!"]", .stmt false b!" " (.endblock b!" ") false]

def mainTree : T :=
  .var b!"SITE" (.block b!"entry" (.var b!"TITLE" .done)
    (.block b!"listing" (.text b!"[" (.var b!"EXCERPT" (.text b!"]" .done))) .done))

/-- The default feed, with the default settings. -/
def feedTokens : List Tokens.Tok := C90.toks b!"/atom" false b!".xml" b!"/post" b!"/index.html"
def feedTree : T := C90.tree b!"/atom" false b!".xml" b!"/post" b!"/index.html"

def sampleTokens (f : Str) : List Tokens.Tok := if f = tmpl then mainTokens else feedTokens
def sampleTree (f : Str) : T := if f = tmpl then mainTree else feedTree

theorem sample_sources : siteSources sampleSite = [one, about] := by decide +kernel

theorem seen_file {copy : Option (List Str)} {d : Files} {f : Str} (h : f ≠ b!"/tmp/feed") :
    sample.seen (cfgWith copy) d f = texts d f := by
  unfold Setup.seen
  rw [if_neg fun hf => h (hf.2.trans (by decide +kernel))]

theorem sample_size : SizeOk sampleSite b!"posts_per_page" :=
  ⟨⟨by decide +kernel, by unfold Digit; decide +kernel⟩, by decide +kernel, by decide +kernel⟩

theorem sample_feedSize : SizeOk sampleSite b!"atom_posts_per_page" :=
  ⟨⟨by decide +kernel, by unfold Digit; decide +kernel⟩, by decide +kernel, by decide +kernel⟩

theorem sample_written {copy : Option (List Str)} {d : Files} (hd : SampleTexts d) :
    Written (base sample (cfgWith copy)) (sample.seen (cfgWith copy) d) (PageRun.seconds C102.sampleHost)
    samplePosts (fun _ => 0) (-1) where
  depth := .none
  global := show ∀ k ∈ _, sampleSite.cfg.global.lookup k = none by decide +kernel
  size := sample_size
  feedSize := sample_feedSize
  few := show (postSources sampleSite).length < 2 ^ 24 by decide +kernel
  posts := by
    intro f hf
    rw [show siteSources (base sample (cfgWith copy)) = [one, about] from sample_sources] at hf
    simp only [List.mem_cons, List.not_mem_nil, or_false] at hf
    rcases hf with rfl | rfl
    · refine ⟨by decide, _, (seen_file (by decide)).trans hd.1, ?_⟩
      exact C102.hello_written
    · refine ⟨by decide, _, (seen_file (by decide)).trans hd.2.1, ?_⟩
      exact C102.other_written
  dates := by
    left
    intro f hf
    have hf : f ∈ postSources sampleSite := hf
    rw [C100.sample_sources] at hf
    rw [List.mem_singleton.1 hf]
    decide +kernel
  sorted := by
    intro v hv
    have hv : sampleSite.get b!"posts_sort" = some v := hv
    exact absurd hv (by rw [show sampleSite.get b!"posts_sort" = none by decide +kernel]; simp)

theorem one_tagged : HasTag samplePosts b!"x" one :=
  ⟨b!"x y", by decide +kernel, by decide, by decide, [], b!" y", rfl, .inl rfl, .inr ⟨b!"y", rfl⟩⟩

theorem sample_counted : Counted sampleSite samplePosts 1 fun _ => 1 where
  all := by
    have h1 : numeral (sampleSite.getStr b!"posts_per_page") = 2 := by decide +kernel
    rw [h1, C100.sample_sources]
    exact ⟨by decide, fun m hm => by simp at hm; omega⟩
  tag := by
    intro tag ht
    have h1 : numeral (sampleSite.getStr b!"posts_per_page") = 2 := by decide +kernel
    have h2 : siteTags sampleSite = [b!"x"] := by decide +kernel
    rw [h2, List.mem_singleton] at ht
    subst ht
    have h3 : withTag samplePosts b!"x" [one] = [one] := by
      unfold withTag
      rw [List.filter_eq_self]
      intro f hf
      rw [List.mem_singleton.1 hf]
      simp [one_tagged]
    rw [h1, C100.sample_sources, show [b!"/site/content/post/one.txt"] = [one] from rfl, h3]
    exact ⟨by decide, fun m hm => by simp at hm; omega⟩

theorem main_written {copy : Option (List Str)} {d : Files} (hd : SampleTexts d) :
    TemplateWritten (sample.seen (cfgWith copy) d) tmpl mainTokens mainTree where
  text := ⟨_, (seen_file (by decide)).trans hd.2.2, by decide +kernel⟩
  utf8 := C102.ascii _ (by decide +kernel)
  tokens := by
    refine C90.ok_var (by decide +kernel) (C90.ok_st (s := .block b!" " b!"entry" b!" ") ⟨C90.gap, by decide +kernel, C90.gap⟩
      (C90.ok_var (by decide +kernel) (C90.ok_st (s := .endblock b!" ") C90.gap
      (C90.ok_st (s := .block b!" " b!"listing" b!" ") ⟨C90.gap, by decide +kernel, C90.gap⟩
      (C90.ok_text (by decide) (by decide) (by intro x h; cases h) (C90.ok_var (by decide +kernel)
      (C90.ok_text (by decide) (by decide) (by intro x h; cases h) (C90.ok_st (s := .endblock b!" ") C90.gap trivial))))))))
  ok := by simp [mainTree, Doc.Ok, Template.blockTypes]
  meaning := by rfl

theorem feed_written (copy : Option (List Str)) (d : Files) : TemplateWritten (sample.seen (cfgWith copy) d) b!"/tmp/feed" feedTokens feedTree where
  text := by
    have ok : Spec.Feed.Ok (sampleCfg.settings.lookup ·) :=
      ⟨fun b hb => absurd hb (by rw [show sampleCfg.settings.lookup b!"blog_prefix" = none by decide +kernel]; simp),
        ⟨b!"atom", by decide +kernel, by decide⟩, ⟨b!".xml", by decide +kernel, by decide⟩,
        fun b hb => by
          rw [show sampleCfg.settings.lookup b!"post_prefix" = some b!"post" by decide +kernel] at hb
          cases hb; decide,
        fun b hb => by
          rw [show sampleCfg.settings.lookup b!"html_ext" = some b!"/index.html" by decide +kernel] at hb
          cases hb; decide⟩
    have h1 := C90.generated _ ok
    have h2 : C90.feedPre (sampleCfg.settings.lookup ·) = b!"/atom" := by decide +kernel
    have h3 : C90.isIndex (sampleCfg.settings.lookup ·) = false := by decide +kernel
    have h4 : Make.text (sampleCfg.settings.lookup b!"atom_ext") = b!".xml" := by decide +kernel
    have h5 : C90.postPre (sampleCfg.settings.lookup ·) = b!"/post" := by decide +kernel
    have h6 : Make.text (sampleCfg.settings.lookup b!"html_ext") = b!"/index.html" := by decide +kernel
    refine ⟨Tokens.print feedTokens, ?_, by decide +kernel⟩
    show sample.seen sampleCfg d b!"/tmp/feed" = _
    unfold Setup.seen
    rw [if_pos ⟨by decide +kernel, by decide +kernel⟩, h1, h2, h3, h4, h5, h6]
    rfl
  utf8 := C102.ascii _ (by decide +kernel)
  tokens := C90.toks_ok _ (by decide) (by decide) (by decide) (by decide)
  ok := C90.tree_ok _ _ _ _ _
  meaning := C90.toks_meaning _ _ _ _ _

theorem run_templates : ∀ w ∈ runs sampleSite 1 (fun _ => 1), w.template = tmpl ∨ (w.template = b!"/tmp/feed" ∧
    w.listing = true ∧ w.sources = [one] ∧ w.entry = none ∧
    vars sampleSite C102.sampleHost.version w b!"FILTER_PAGE" = some b!"1" ∧
    (vars sampleSite C102.sampleHost.version w b!"FILTER_TAG" = none ∨
    vars sampleSite C102.sampleHost.version w b!"FILTER_TAG" = some b!"x")) := by decide +kernel

theorem main_noLeak (l : List Str) (listing : Bool) :
    NoLeak ⟨l, listing⟩ (PageRun.Apart l samplePosts) False false mainTree := by
  refine ⟨.inr (.inr ⟨⟨by decide, by decide, fun f _ => ?_⟩, ⟨?_, by decide, by decide⟩⟩), fun h => h.elim,
    fun h => absurd h (by decide), fun h => h.elim, fun h => absurd h (by decide), trivial⟩
  · unfold samplePosts
    split <;> decide +kernel
  · intro p c e
    have : c = c!"E" := by
      have := congrArg List.getLast? e
      simpa using this.symm
    rw [this]; rfl

theorem noLeak_used {L : Type} {c : Render.Ctx L} {N : Str → Prop} (hl : c.listing = true) (hs : c.sources ≠ []) :
    NoLeak c N True false feedTree := by
  simp [feedTree, C90.tree, C90.urlT, C90.txtT, NoLeak, Used, hl, hs, Plain, Cond.names]

theorem feed_listed {w : Wanted} {pg : Option (Nat × Nat)} {l : List Str} {n : Nat} (h2 : w.sources = [one])
    (h3 : vars sampleSite C102.sampleHost.version w b!"FILTER_PAGE" = some b!"1")
    (h4 : vars sampleSite C102.sampleHost.version w b!"FILTER_TAG" = none ∨
      vars sampleSite C102.sampleHost.version w b!"FILTER_TAG" = some b!"x")
    (hpg : Request.Paged (vars sampleSite C102.sampleHost.version w) pg)
    (hl : Request.Listed (vars sampleSite C102.sampleHost.version w) samplePosts (fun _ => 0) w.sources l n pg) : l ≠ [] := by
  have key : ∀ all, all.Perm w.sources →
      Request.tagged (vars sampleSite C102.sampleHost.version w) samplePosts all = [one] := by
    intro all hp
    rw [h2, List.perm_singleton] at hp
    rw [hp]
    have : Request.Tagged (vars sampleSite C102.sampleHost.version w) (samplePosts one) := by
      intro tag ht
      rcases h4 with h4 | h4
      · rw [h4] at ht; cases ht
      · rw [h4] at ht; cases ht; exact one_tagged
    simp [Request.tagged, this]
  cases hpg with
  | all h => rw [h3] at h; cases h
  | page hv hd hs hb =>
    rw [h3] at hv
    cases hv
    obtain ⟨all, ha, rfl, -⟩ := hl
    rw [key all ha.perm]
    generalize vars sampleSite C102.sampleHost.version w b!"FILTER_PER_PAGE" = per at hs
    cases hs with
    | default => decide
    | given hd hp =>
      have e : max 1 (numeral b!"1") = 1 := by decide
      rw [e]
      simp [page, Nat.ne_of_gt hp]

theorem sampleFiles_out (p : Str) (hp : isOut p) : sampleFiles p = none := by
  unfold sampleFiles
  rw [if_neg (by rintro rfl; exact absurd hp (by unfold isOut; decide)),
    if_neg (by rintro rfl; exact absurd hp (by unfold isOut; decide)),
    if_neg (by rintro rfl; exact absurd hp (by unfold isOut; decide)),
    if_neg (by rintro rfl; exact absurd hp (by unfold isOut; decide))]

theorem settings_utf8 : WellFormedUtf8 SettingsSample.blogcfile := C102.ascii _ (by decide +kernel)

theorem settings_ok : ReadAs (texts sampleFiles) sample.settingsFile sampleCfg := SettingsSample.read rfl settings_utf8

example : SettingsWritten (texts sampleFiles) sample.settingsFile SettingsSample.doc :=
  SettingsSample.written rfl settings_utf8

/-- The site meets the conditions. -/
theorem sample_ok (copy : Option (List Str)) {d : Files} (hd : SampleTexts d) :
    SiteOk sample isOut C102.sampleHost (cfgWith copy) d samplePosts (fun _ => 0) (-1) 1 (fun _ => 1)
      fun w => sampleTree w.template where
  good := C108.good_copy C100.sample_good sample.settings copy
  written := sample_written hd
  counted := ⟨sample_counted.all, sample_counted.tag⟩
  templates := by
    intro w hw
    refine ⟨sampleTokens w.template, ?_⟩
    rcases run_templates w hw with h | ⟨h, -⟩
    · rw [h]; exact main_written hd
    · rw [h]; exact feed_written copy d
  noLeak := by
    intro w hw
    have hw : w ∈ runs sampleSite 1 fun _ => 1 := hw
    refine ⟨fun _ => w.template ≠ tmpl, fun pg l n hpg hl => ?_⟩
    have he : w.entry.toList = [] := by
      have : ∀ w ∈ runs sampleSite 1 (fun _ => 1), w.entry = none := by decide +kernel
      rw [this w hw]; rfl
    rw [he, List.append_nil]
    rcases run_templates w hw with h | ⟨h, h1, h2, -, h3, h4⟩
    · rw [h]
      have e : ((tmpl : Str) ≠ tmpl) = False := by simp
      rw [e]
      exact main_noLeak l w.listing
    · rw [h]
      have e : ((b!"/tmp/feed" : Str) ≠ tmpl) = True := by simp [tmpl]
      rw [e]
      refine noLeak_used h1 ?_
      exact feed_listed h2 h3 h4 hpg hl

/-- A build leaves its pages. -/
theorem sample_built : ∃ b, ∀ depth ≥ b, ∃ n, ∀ fuel ≥ n, ∀ clock,
      ∃ d', (sample.real C102.sampleHost depth fuel).build clock sampleFiles = some (d', 0) ∧
        (∀ p, ¬ isOut p → d' p = sampleFiles p) ∧
        PagesOf sample C102.sampleHost sampleCfg samplePosts (fun _ => 0) (-1) 1 (fun _ => 1)
          (fun w => sampleTree w.template) d' := by
  obtain ⟨b, hb⟩ := site_read C102.sampleHost settings_ok (sample_ok none sampleFiles_texts)
  refine ⟨b, fun depth hd => ?_⟩
  obtain ⟨n, hn⟩ := hb depth hd
  exact ⟨n, fun fuel hf clock => hn fuel hf clock (.start _ sampleFiles_out)⟩

/-! The same site with a section `[copy]`, which names a directory with one file. -/

open _root_.Blogc.C108 (staticCfg staticDisk fileA copyA OnlyA)
open Blogc.Spec.MakeCopy (under)

def copyFiles : Files :=
  put (put sampleFiles b!"/site/blogcfile" (some (SettingsSample.copyfile, (1, 0)))) fileA (some (b!"one", (1, 0)))

theorem copyFiles_texts : SampleTexts copyFiles := ⟨rfl, rfl, rfl⟩

theorem copy_utf8 : WellFormedUtf8 SettingsSample.copyfile := C102.ascii _ (by decide +kernel)

example : SettingsWritten (texts copyFiles) sample.settingsFile SettingsSample.copyDoc :=
  SettingsSample.copy_written rfl copy_utf8

theorem copy_settings : ReadAs (texts copyFiles) sample.settingsFile staticCfg := SettingsSample.copy_read rfl copy_utf8

theorem copyFiles_out (p : Str) (hp : isOut p) : copyFiles p = none := by
  unfold copyFiles put
  rw [if_neg (by rintro rfl; exact absurd hp (by unfold isOut; decide)),
    if_neg (by rintro rfl; exact absurd hp (by unfold isOut; decide)), sampleFiles_out p hp]

theorem copyFiles_onlyA : OnlyA copyFiles := by
  refine C108.onlyA_put ?_ _
  intro q hq _
  obtain ⟨r, e⟩ := C108.under_prefix b!"/site/static" q
  rw [e]
  unfold put sampleFiles
  rw [if_neg (by intro h; cases h), if_neg (by intro h; cases h), if_neg (by intro h; cases h),
    if_neg (by intro h; cases h), if_neg (by intro h; cases h)]

theorem copy_ok : CopyOk sample staticDisk isOut staticCfg copyFiles := by
  have h := C108.static_goodCopy
  refine ⟨⟨h.entries, h.sources, h.dests, h.apart⟩, fun f hf => ?_⟩
  rw [List.mem_singleton.1 (show f ∈ [b!"static"] from hf)]
  exact C108.static_sees copyFiles_onlyA

theorem copy_built : ∃ b, ∀ depth ≥ b, ∃ n, ∀ fuel ≥ n, ∀ clock,
      ∃ d', (sample.real C102.sampleHost depth fuel).buildAll staticDisk clock copyFiles = some (d', 0) ∧
        (∀ p, ¬ isOut p → d' p = copyFiles p) ∧
        PagesOf sample C102.sampleHost staticCfg samplePosts (fun _ => 0) (-1) 1 (fun _ => 1)
          (fun w => sampleTree w.template) d' ∧ CopiesOf sample staticCfg copyFiles d' := by
  obtain ⟨b, hb⟩ := static_read C102.sampleHost copy_settings (sample_ok _ copyFiles_texts) copy_ok
  refine ⟨b, fun depth hd => ?_⟩
  obtain ⟨n, hn⟩ := hb depth hd
  exact ⟨n, fun fuel hf clock => hn fuel hf clock (.start _ copyFiles_out)⟩

/-- The file is one of those that have a copy. -/
example {d' : Files} (h : CopiesOf sample staticCfg copyFiles d') : texts d' copyA = some b!"one" :=
  h b!"static" [b!"a"] ⟨by decide, by decide⟩ _ rfl

/-- Watching begins with these files; then the post is changed. -/
def editedFiles : Files := put copyFiles one (some (oneText, (2, 0)))

theorem edited_times (p : Str) (u : Int × Int) (h : times copyFiles p = some u) : u = (1, 0) := by
  unfold times copyFiles put sampleFiles at h
  repeat' split at h
  all_goals first | exact (Option.some.inj h).symm | cases h

theorem edited_ok : CopyOk sample staticDisk isOut staticCfg editedFiles := by
  refine ⟨copy_ok.1, fun f hf => ?_⟩
  rw [List.mem_singleton.1 (show f ∈ [b!"static"] from hf)]
  refine C108.static_sees fun q hq hne => ?_
  have h := copyFiles_onlyA q hq hne
  obtain ⟨r, e⟩ := C108.under_prefix b!"/site/static" q
  rw [e] at h ⊢
  unfold editedFiles put
  rw [if_neg (by intro h; cases h)]
  exact h

theorem edited_watched {depth fuel : Nat}
    (hcfg : (sample.real C102.sampleHost depth fuel).config copyFiles = some staticCfg) :
    ∃ w, Watched (sample.real C102.sampleHost depth fuel) staticDisk isOut (2, 0) editedFiles (some w) copyFiles ∧
      Kept (sample.real C102.sampleHost depth fuel) w copyFiles editedFiles := by
  have h : (sample.real C102.sampleHost depth fuel).watcher staticDisk copyFiles =
      some (C109.startWatcher copyFiles) := by
    unfold Setup.watcher
    rw [hcfg]
    rfl
  refine ⟨C109.startWatcher copyFiles, .edit (1, 0) _ _ _ _ _ _ ?_ (by unfold isOut; decide) (by decide), ?_⟩
  · rw [← h]
    refine .start _ _ (.start _ copyFiles_out) ?_ (by decide) ?_
    · exact now_real (C108.good_copy C100.sample_good sample.settings _) copy_ok hcfg
    · intro p u hu
      rw [edited_times p u hu]
      decide
  · have hsome : ∀ p, (copyFiles p).isSome → (editedFiles p).isSome := by
      intro p hp
      unfold editedFiles put
      split
      · rfl
      · exact hp
    refine ⟨show (editedFiles b!"/site/blogcfile").isSome = true from rfl, fun p _ hd => ?_, fun f q _ hs => hsome _ hs⟩
    show times copyFiles p = none
    unfold times
    cases hc : copyFiles p with
    | none => rfl
    | some v =>
      have := hsome p (by rw [hc]; rfl)
      rw [hd] at this
      cases this

theorem watch_built : ∃ b, ∀ depth ≥ b, ∃ n, ∀ fuel ≥ n, ∀ clock, ∃ now w seen,
      Watched (sample.real C102.sampleHost depth fuel) staticDisk isOut now editedFiles (some w) seen ∧
      ∃ w' d', (sample.real C102.sampleHost depth fuel).round staticDisk clock editedFiles (some w) = some (some w', d', 0) ∧
        PagesOf sample C102.sampleHost staticCfg samplePosts (fun _ => 0) (-1) 1 (fun _ => 1)
          (fun w => sampleTree w.template) d' := by
  have hread : ReadAs (texts editedFiles) sample.settingsFile staticCfg := SettingsSample.copy_read rfl copy_utf8
  obtain ⟨b, hb⟩ := watch_read C102.sampleHost hread (sample_ok _ ⟨rfl, rfl, rfl⟩) edited_ok C109.static_outside
  obtain ⟨c, hc⟩ := config_real copy_settings
  refine ⟨b, fun depth hd => ?_⟩
  obtain ⟨n, hn⟩ := hb depth hd
  refine ⟨n + c, fun fuel hf clock => ?_⟩
  obtain ⟨w, h1, h2⟩ := edited_watched (hc fuel (by omega) C102.sampleHost depth)
  obtain ⟨w', d', h3, -, -, h4, -⟩ := hn fuel (by omega) clock _ w _ h1 fun _ => h2
  exact ⟨_, w, _, h1, w', d', h3, h4⟩

/-- There are eight runs. -/
example : (runs sampleSite 1 fun _ => 1).map (·.output) =
    [b!"/site/_build/index.html", b!"/site/_build/atom.xml", b!"/site/_build/atom/x.xml",
      b!"/site/_build/page/1/index.html", b!"/site/_build/tag/x/page/1/index.html",
      b!"/site/_build/post/one/index.html", b!"/site/_build/tag/x/index.html", b!"/site/_build/about/index.html"] := by
  decide +kernel

end Blogc.C103
