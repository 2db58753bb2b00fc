import Verif.Lemmas.SiteFeed
import Verif.Props.C103

/-!
# C104: the feeds of a site

When the settings of a site name no template for feeds, a build writes Atom feeds of the newest posts, and the links in
them lead to the pages that the build wrote.
-/

namespace Blogc.C104

open Blogc Blogc.Make Blogc.Spec Blogc.Spec.Page Blogc.Spec.MakeJobs Blogc.Spec.MakeRun Blogc.Spec.Entries Blogc.Doc
open Blogc.Spec.SitePages Blogc.Spec.SiteFeed Blogc.Spec.Incremental Blogc.Build Blogc.SitePages Blogc.SiteFeed
open Blogc.Spec.Feed (feedPath postPath)

variable {S : Setup} {out : Str → Prop}

open Classical in
/-- The theorem `feeds_partial` below, for settings that have been read. -/
theorem feeds_read (h : Program.Host) {cfg : MakeSettings.Settings} {d : Files}
    (hcfg : ReadAs (texts d) S.settingsFile cfg) (hg : Good S out cfg) {post : Str → Post} {time : Str → Int} {m : Int}
    (hw : Written (base S cfg) (S.seen cfg d) (PageRun.seconds h) post time m) {count : Nat} {counts : Str → Nat}
    (hc : Counted (base S cfg) post count counts) (hu : Usual (base S cfg) post)
    (tokens : Wanted → List Tokens.Tok) (tree : Wanted → T)
    (ht : ∀ w ∈ runs (base S cfg) count counts, w ∉ atom (base S cfg) ++ atomTags (base S cfg) →
      TemplateWritten (S.seen cfg d) w.template (tokens w) (tree w))
    (used : Wanted → List Str → Prop)
    (hn : ∀ w ∈ runs (base S cfg) count counts, w ∉ atom (base S cfg) ++ atomTags (base S cfg) →
      ∀ pg l n, Request.Paged (vars (base S cfg) h.version w) pg →
        Request.Listed (vars (base S cfg) h.version w) post time w.sources l n pg →
        NoLeak ⟨l, w.listing⟩ (PageRun.Apart (l ++ w.entry.toList) post) (used w l) false (tree w)) :
    ∃ b, ∀ depth ≥ b, ∃ n, ∀ fuel ≥ n, ∀ clock, Reachable (S.real h depth fuel) out d →
      ∃ d', (S.real h depth fuel).build clock d = some (d', 0) ∧
        ((base S cfg).cfg.posts ≠ none → ∃ text t, d' (outDir (base S cfg) ++ feedPath (base S cfg).get none) = some (text, t) ∧
          IsFeed (base S cfg) h.sys post time none text) ∧
        (∀ tag ∈ siteTags (base S cfg), ∃ text t,
          d' (outDir (base S cfg) ++ feedPath (base S cfg).get (some tag)) = some (text, t) ∧
          IsFeed (base S cfg) h.sys post time (some tag) text) ∧
        ∀ slug ∈ (base S cfg).cfg.posts.getD [], ∃ text t,
          d' (outDir (base S cfg) ++ postPath (base S cfg).get slug) = some (text, t) := by
  have hpg := paged hw hg.perPage fun f hf => (hg.posts f hf).1
  have hfeed : ∀ w ∈ atom (base S cfg) ++ atomTags (base S cfg), ∃ tag, w = feedRun (base S cfg) tag := by
    intro w hm
    rcases List.mem_append.1 hm with hm | hm
    · by_cases hp : (base S cfg).cfg.posts = none
      · unfold atom at hm
        rw [if_pos (.inl hp)] at hm
        cases hm
      · rw [atom_eq hw.feedSize hp] at hm
        exact ⟨none, List.mem_singleton.1 hm⟩
    · rw [atomTags_eq hw.feedSize] at hm
      obtain ⟨t, -, rfl⟩ := List.mem_map.1 hm
      exact ⟨some t, rfl⟩
  obtain ⟨b, hb⟩ := C103.site_read h hcfg
    (tree := fun w => if w ∈ atom (base S cfg) ++ atomTags (base S cfg) then siteTree (base S cfg) else tree w)
    ⟨hg, hw, hc, by
      intro w hr
      by_cases hm : w ∈ atom (base S cfg) ++ atomTags (base S cfg)
      · simp only [if_pos hm]
        obtain ⟨tag, rfl⟩ := hfeed w hm
        exact ⟨_, template_written S cfg d tag hu⟩
      · simp only [if_neg hm]
        exact ⟨_, ht w hr hm⟩, by
      intro w hr
      refine ⟨fun l => if w ∈ atom (base S cfg) ++ atomTags (base S cfg) then l ≠ [] else used w l, ?_⟩
      intro pg l n h1 h2
      by_cases hm : w ∈ atom (base S cfg) ++ atomTags (base S cfg)
      · simp only [if_pos hm]
        obtain ⟨tag, rfl⟩ := hfeed w hm
        have e : l ++ (feedRun (base S cfg) tag).entry.toList = l := List.append_nil l
        rw [e]
        exact tree_apart l
      · simp only [if_neg hm]
        exact hn w hr hm pg l n h1 h2⟩
  refine ⟨b, fun depth hd => ?_⟩
  obtain ⟨n, hn⟩ := hb depth hd
  refine ⟨n, fun fuel hf clock hreach => ?_⟩
  obtain ⟨d', h1, -, h2⟩ := hn fuel hf clock hreach
  refine ⟨d', h1, fun hp => ?_, fun tag htag => ?_, fun slug hslug => ?_⟩
  · have hm : feedRun (base S cfg) none ∈ atom (base S cfg) := by rw [atom_eq hw.feedSize hp]; simp
    obtain ⟨text, t, e, hpage⟩ := h2 (feedRun (base S cfg) none) (by unfold runs; simp [hm])
    simp only [if_pos (List.mem_append_left _ hm)] at hpage
    exact ⟨text, t, e, is_feed h hu hpg hw.feedSize (by intro t e; cases e) hpage⟩
  · have hm : feedRun (base S cfg) (some tag) ∈ atomTags (base S cfg) := by
      rw [atomTags_eq hw.feedSize]; exact List.mem_map_of_mem htag
    obtain ⟨text, t, e, hpage⟩ := h2 (feedRun (base S cfg) (some tag)) (by unfold runs; simp [hm])
    simp only [if_pos (List.mem_append_right _ hm)] at hpage
    exact ⟨text, t, e, is_feed h hu hpg hw.feedSize (by intro t e; cases e; exact htag) hpage⟩
  · have hm : ∃ w ∈ MakeJobs.posts (base S cfg), w.output = outDir (base S cfg) ++ postPath (base S cfg).get slug := by
      refine ⟨_, List.mem_map_of_mem hslug, ?_⟩
      simp [single, postPath, C53.pathOf]
    obtain ⟨w, hm, e⟩ := hm
    obtain ⟨text, t, e', -⟩ := h2 w (by unfold runs; simp [hm])
    exact ⟨text, t, by rw [← e]; exact e'⟩

open Classical in
/-- The settings file is written with the sections and lines of `doc`, and the site is written as described in the manuals
(as in C103; nothing is asked about the template of the feeds). Then a build succeeds; the feed of all posts and the feed
of every tag are in their files, with the posts that the settings ask for, in the order that they ask for (`IsFeed`); and
there is a file at the path that the link of a post has. -/
theorem feeds_partial (h : Program.Host) {d : Files} {doc : Spec.Config.Doc}
    (hset : SettingsWritten (texts d) S.settingsFile doc) :
    ∃ cfg, SettingsOf doc cfg ∧ ∀ post time m count counts (tokens : Wanted → List Tokens.Tok) (tree : Wanted → T)
      (used : Wanted → List Str → Prop), Good S out cfg →
      Written (base S cfg) (S.seen cfg d) (PageRun.seconds h) post time m → Counted (base S cfg) post count counts →
      Usual (base S cfg) post →
      (∀ w ∈ runs (base S cfg) count counts, w ∉ atom (base S cfg) ++ atomTags (base S cfg) →
        TemplateWritten (S.seen cfg d) w.template (tokens w) (tree w)) →
      (∀ w ∈ runs (base S cfg) count counts, w ∉ atom (base S cfg) ++ atomTags (base S cfg) →
        ∀ pg l n, Request.Paged (vars (base S cfg) h.version w) pg →
          Request.Listed (vars (base S cfg) h.version w) post time w.sources l n pg →
          NoLeak ⟨l, w.listing⟩ (PageRun.Apart (l ++ w.entry.toList) post) (used w l) false (tree w)) →
      ∃ b, ∀ depth ≥ b, ∃ n, ∀ fuel ≥ n, ∀ clock, Reachable (S.real h depth fuel) out d →
        ∃ d', (S.real h depth fuel).build clock d = some (d', 0) ∧
          ((base S cfg).cfg.posts ≠ none →
            ∃ text t, d' (outDir (base S cfg) ++ feedPath (base S cfg).get none) = some (text, t) ∧
              IsFeed (base S cfg) h.sys post time none text) ∧
          (∀ tag ∈ siteTags (base S cfg), ∃ text t,
            d' (outDir (base S cfg) ++ feedPath (base S cfg).get (some tag)) = some (text, t) ∧
            IsFeed (base S cfg) h.sys post time (some tag) text) ∧
          ∀ slug ∈ (base S cfg).cfg.posts.getD [], ∃ text t,
            d' (outDir (base S cfg) ++ postPath (base S cfg).get slug) = some (text, t) := by
  obtain ⟨cfg, h1, h2⟩ := settings_read hset
  exact ⟨cfg, h1, fun _ _ _ _ _ tokens tree used hg hw hc hu ht hn =>
    feeds_read h h2 hg hw hc hu tokens tree ht used hn⟩

/-! ## What is missing -/

/-- The page of a post whose slug has a slash is not where the link in the feed leads to: the link is made of the last
part of the slug. -/
theorem nested_slug_violated : ∃ get slug name, Spec.Feed.Ok get ∧
    BaseName (C53.pathOf b!"content" none (get b!"post_prefix") slug (get b!"source_ext")) name ∧
    postPath get slug = b!"/post/2020/one/index.html" ∧
    ∀ sys (l g : Render.Table), g.lookup b!"FILTER_TAG" = none → l.lookup b!"FILENAME" = some name →
      ∃ src tmpl n, atomGenerate get = .ok src ∧ Template.parse src = .ok (.ok tmpl) ∧
        ∀ m, n ≤ m → Render.render (Render.evaluator sys) m tmpl ⟨[l], true⟩ [] g =
          .ok (Spec.Feed.feed (Spec.Feed.shown sys g none) none b!"/atom.xml"
            [Spec.Feed.entry (Spec.Feed.shown sys g (some l)) b!"/post/one/index.html"]) := by
  let get : Str → Option Str := fun k => if k = b!"source_ext" then some b!".txt" else C90.defaults k
  have hget : Spec.Feed.Ok get := by
    obtain ⟨h1, h2, h3, h4, h5⟩ := C90.defaults_ok
    exact ⟨h1, h2, h3, h4, h5⟩
  refine ⟨get, b!"2020/one", b!"one", hget, ⟨b!"content/post/2020/", b!"one.txt", by decide +kernel, ?_, ?_, .inr ⟨b!"txt", by decide, rfl⟩⟩,
    by decide +kernel, ?_⟩
  · intro c hc; cases hc; exact .inl rfl
  · unfold Separator; decide
  · intro sys l g hg hl
    obtain ⟨src, tmpl, n, h1, h2, h3⟩ := C90.default_feed_partial get hget sys [l] g
      (by intro t e; rw [hg] at e; cases e) (fun _ => b!"one")
      (by
        intro l' hl'
        rw [List.mem_singleton.1 hl']
        exact ⟨hl, by decide, by rintro ⟨h, -⟩; exact absurd h (by decide)⟩)
    refine ⟨src, tmpl, n, h1, h2, fun m hm => ?_⟩
    rw [h3 m hm, hg]
    have e1 : feedPath get none = b!"/atom.xml" := by decide +kernel
    have e2 : postPath get b!"one" = b!"/post/one/index.html" := by decide +kernel
    rw [e1, List.map_singleton, e2]

/-- A post that has a header DATE_FORMAT has its date in that format in the feed too. -/
theorem own_format_violated (sys : Render.Sys) (g l : Render.Table) (d out : Str) (tm : DateTime.Tm)
    (h1 : Render.getVariable b!"DATE_FORMATTED" g (some l) = none) (h2 : l.lookup b!"DATE" = some d)
    (h3 : l.lookup b!"DATE_FORMAT" = some b!"%Y") (h4 : DateTime.parse d = some tm)
    (h5 : sys.strftime b!"%Y" tm = some out) : Spec.Feed.shown sys g (some l) b!"DATE_FORMATTED" = out := by
  have hd : Render.getVariable b!"DATE" g (some l) = some d := by
    unfold Render.getVariable; simp only [h2]
  have hf : Render.getVariable b!"DATE_FORMAT" g (some l) = some b!"%Y" := by
    unfold Render.getVariable; simp only [h3]
  obtain ⟨g', o, e, ho, -⟩ := C76.formats sys g (some l) ⟨none, none⟩ b!"DATE" d h1 hd (.inl rfl)
  have e' : Render.formatVariable sys g (some l) ⟨none, none⟩ b!"DATE_FORMATTED" = .ok (g', some o) := e
  unfold Spec.Feed.shown
  rw [e']
  rw [hf] at ho
  exact C76.formatted_unique sys _ _ _ _ _ ho (.date (by decide) ⟨tm, h4, h5⟩)

/-! ## An example -/

open _root_.Blogc.C100 (sample sampleCfg sampleSite isOut tmpl)
open _root_.Blogc.C103 (samplePosts sampleFiles mainTokens mainTree)

theorem sample_usual : Usual sampleSite samplePosts where
  noTemplate := by decide +kernel
  settings := by
    refine ⟨fun b hb => absurd hb (by rw [show sampleSite.get b!"blog_prefix" = none by decide +kernel]; simp),
        ⟨b!"atom", by decide +kernel, by decide⟩, ⟨b!".xml", by decide +kernel, by decide⟩, fun b hb => ?_, fun b hb => ?_⟩
    · rw [show sampleSite.get b!"post_prefix" = some b!"post" by decide +kernel] at hb
      cases hb; decide
    · rw [show sampleSite.get b!"html_ext" = some b!"/index.html" by decide +kernel] at hb
      cases hb; decide
  utf8 := by
    intro k hk
    refine C102.ascii _ ?_
    have : ∀ k ∈ [b!"blog_prefix", b!"atom_prefix", b!"atom_ext", b!"post_prefix", b!"html_ext"],
      ∀ c ∈ sampleSite.getStr k, c.toNat < 0x80 := by decide +kernel
    exact this k hk
  tags := by
    have h2 : siteTags sampleSite = [b!"x"] := by decide +kernel
    rw [h2]
    intro t ht
    rw [List.mem_singleton.1 ht]
    exact ⟨by decide, by rintro ⟨h, -⟩; exact absurd h (by decide)⟩
  slugs := by
    have h2 : sampleSite.cfg.posts.getD [] = [b!"one"] := by decide +kernel
    rw [h2]
    intro t ht
    rw [List.mem_singleton.1 ht]
    exact ⟨by decide, by rintro ⟨h, -⟩; exact absurd h (by decide), by unfold Separator; decide⟩
  ext := ⟨b!"txt", by decide +kernel, by decide, by unfold Separator; decide⟩
  global := by decide +kernel
  headers := by
    rw [C100.sample_sources]
    intro f hf
    rw [List.mem_singleton.1 hf]
    decide +kernel

/-- The site of C103 meets the conditions: its feeds are as they should be. -/
theorem sample_feeds : ∃ b, ∀ depth ≥ b, ∃ n, ∀ fuel ≥ n, ∀ clock,
      ∃ d', (sample.real C102.sampleHost depth fuel).build clock sampleFiles = some (d', 0) ∧
        (∃ text t, d' b!"/site/_build/atom.xml" = some (text, t) ∧
          IsFeed sampleSite C102.sampleHost.sys samplePosts (fun _ => 0) none text) ∧
        (∃ text t, d' b!"/site/_build/atom/x.xml" = some (text, t) ∧
          IsFeed sampleSite C102.sampleHost.sys samplePosts (fun _ => 0) (some b!"x") text) ∧
        ∃ text t, d' b!"/site/_build/post/one/index.html" = some (text, t) := by
  have main : ∀ w ∈ runs sampleSite 1 (fun _ => 1), w ∉ atom sampleSite ++ atomTags sampleSite → w.template = tmpl := by
    decide +kernel
  have noEntry : ∀ w ∈ runs sampleSite 1 (fun _ => 1), w.entry = none := by decide +kernel
  obtain ⟨b, hb⟩ := feeds_read C102.sampleHost (d := sampleFiles) (cfg := sampleCfg) C103.settings_ok C100.sample_good
    (C103.sample_written C103.sampleFiles_texts) C103.sample_counted sample_usual (fun _ => mainTokens) (fun _ => mainTree)
    (fun w hw hm => by rw [main w hw hm]; exact C103.main_written C103.sampleFiles_texts) (fun _ _ => False)
    (fun w hw hm pg l n hpg hl => by
      rw [noEntry w hw, Option.toList_none, List.append_nil]
      exact C103.main_noLeak l w.listing)
  refine ⟨b, fun depth hd => ?_⟩
  obtain ⟨n, hn⟩ := hb depth hd
  refine ⟨n, fun fuel hf clock => ?_⟩
  obtain ⟨d', h1, h2, h3, h4⟩ := hn fuel hf clock (.start _ C103.sampleFiles_out)
  have e1 : outDir sampleSite ++ feedPath sampleSite.get none = b!"/site/_build/atom.xml" := by decide +kernel
  have e2 : outDir sampleSite ++ feedPath sampleSite.get (some b!"x") = b!"/site/_build/atom/x.xml" := by decide +kernel
  have e3 : outDir sampleSite ++ postPath sampleSite.get b!"one" = b!"/site/_build/post/one/index.html" := by decide +kernel
  refine ⟨d', h1, ?_, ?_, ?_⟩
  · rw [← e1]; exact h2 (by decide +kernel)
  · rw [← e2]; exact h3 b!"x" (by decide +kernel)
  · rw [← e3]; exact h4 b!"one" (by decide +kernel)

end Blogc.C104
