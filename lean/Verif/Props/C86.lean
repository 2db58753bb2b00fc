import Verif.Lemmas.MakeSite
import Verif.Props.C67
import Verif.Model.SysInfo

/-!
# C86: each rule of blogc-make makes the documented runs of blogc
-/

namespace Blogc.C86

open Blogc Blogc.Make
open Blogc.Spec.MakeJobs
open Blogc.C53 (slashed pathOf tagPathOf)

/-! ## The files of the context -/

theorem pathOf_abs (root dir : Str) (hd : dir ≠ []) (g pre : Option Str) (slug : Str) (ext : Option Str) :
    absPath root (pathOf dir g pre slug ext) = pathOf (absPath root dir) g pre slug ext := by
  unfold pathOf
  rw [List.append_assoc, absPath_append _ _ _ hd, List.append_assoc]

theorem tagPathOf_abs (root dir : Str) (hd : dir ≠ []) (g t p : Option Str) (tag : Str) (n : Nat)
    (ext : Option Str) :
    absPath root (tagPathOf dir g t p tag n ext) = tagPathOf (absPath root dir) g t p tag n ext := by
  unfold tagPathOf
  rw [List.append_assoc, absPath_append _ _ _ hd, List.append_assoc]

theorem listingPath_abs (root dir : Str) (hd : dir ≠ []) (g pre ext : Option Str) :
    absPath root (listingPath dir g pre ext) = listingPath (absPath root dir) g pre ext := by
  unfold listingPath
  rw [List.append_assoc, List.append_assoc, absPath_append _ _ _ hd, List.append_assoc, List.append_assoc]

section
variable {s : Site} (h : Ok s)
include h

/-- The names and slugs of the posts. -/
theorem posts_eq : s.posts =
    ((s.cfg.posts.getD []).map fun g => (pathOf (s.getStr b!"content_dir") (s.get b!"blog_prefix")
      (s.get b!"post_prefix") g (s.get b!"source_ext"), some g)).map fun p => some (s.at p.1 p.2) := by
  obtain ⟨d, hd, hd0⟩ := h.contentDir
  have e : s.getStr b!"content_dir" = d := by rw [Site.getStr, hd]; rfl
  unfold Site.posts
  rw [List.map_map, e]
  apply List.map_congr_left
  intro g hg
  obtain ⟨h1, h2⟩ := h.posts g hg
  rw [hd, C53.as_meant d _ _ g _ h1 (fun _ => h2)]
  rfl

theorem pages_eq : s.pages =
    (s.cfg.pages.getD []).map fun g => some (s.at (pathOf (s.getStr b!"content_dir") none none g
      (s.get b!"source_ext")) (some g)) := by
  obtain ⟨d, hd, hd0⟩ := h.contentDir
  have e : s.getStr b!"content_dir" = d := by rw [Site.getStr, hd]; rfl
  unfold Site.pages
  rw [e]
  apply List.map_congr_left
  intro g hg
  obtain ⟨h1, h2⟩ := h.pages g hg
  rw [hd, C53.as_meant d _ _ g _ h1 (fun _ => h2)]
  rfl

theorem contentDir_ne : s.getStr b!"content_dir" ≠ [] := by
  obtain ⟨d, hd, hd0⟩ := h.contentDir
  rw [Site.getStr, hd]
  exact hd0

theorem posts_paths :
    ((s.cfg.posts.getD []).map fun g => (pathOf (s.getStr b!"content_dir") (s.get b!"blog_prefix")
      (s.get b!"post_prefix") g (s.get b!"source_ext"), some g)).map (fun p => absPath s.root p.1) =
    postSources s := by
  rw [List.map_map]
  apply List.map_congr_left
  intro g _
  exact pathOf_abs _ _ (contentDir_ne h) _ _ _ _

theorem listingEntry_eq : s.listingEntry = (s.get b!"listing_entry").map fun e =>
    s.at (pathOf (s.getStr b!"content_dir") (s.get b!"blog_prefix") none e (s.get b!"source_ext")) (some e) := by
  obtain ⟨d, hd, hd0⟩ := h.contentDir
  have e : s.getStr b!"content_dir" = d := by rw [Site.getStr, hd]; rfl
  unfold Site.listingEntry
  cases he : s.get b!"listing_entry" with
  | none => rfl
  | some x =>
    have hx : x ≠ [] := by
      rintro rfl
      exact h.listingEntry he
    simp only [hd, C53.as_meant d _ none x _ hx (fun h' => by cases h'), e]
    rfl

theorem entry_path : s.listingEntry.map (·.path) = listingEntry s := by
  rw [listingEntry_eq h, Option.map_map]
  unfold listingEntry
  congr 1
  funext e
  show (s.at _ _).path = _
  rw [at_path, pathOf_abs _ _ (contentDir_ne h)]
  rfl

theorem template_dir (name : Str) :
    absPath s.root (s.templatePath name) = inDir s (s.getStr b!"template_dir") name := by
  unfold Site.templatePath inDir
  rw [List.append_assoc, absPath_append _ _ _ h.templateDir, List.append_assoc]

theorem mainTemplate_eq : s.mainTemplate = some (s.at (s.templatePath (s.getStr b!"main_template")) none) := by
  obtain ⟨t, ht⟩ := Option.isSome_iff_exists.1 h.mainTemplate
  unfold Site.mainTemplate
  rw [Site.getStr, ht]
  rfl

theorem mainTemplate_path : s.mainTemplate.map (·.path) = some (mainTemplate s) := by
  rw [mainTemplate_eq h, Option.map_some, at_path, template_dir h]
  rfl

theorem atomTemplate_path : s.atomTemplate.map (·.path) = some (atomTemplate s) := by
  unfold Site.atomTemplate atomTemplate
  cases s.get b!"atom_template" with
  | none => simp only [file_eq, Option.map_some, at_path]
  | some t => simp only [file_eq, Option.map_some, at_path, template_dir h]

theorem settings_abs : absPath s.root s.settingsFile = s.settingsFile := by
  unfold absPath
  rw [h.settingsFile]
  simp

theorem posts_input : (sourcePaths false s.posts).bind (fun ps => .ok (sourceInput false ps)) =
    .ok ((postSources s).flatMap (· ++ b!"\n")) := by
  rw [posts_eq h, sourcePaths_all, posts_paths h]
  show Res.ok _ = _
  rw [sourceInput_eq]

/-! ## Listings, feeds, posts and pages -/

theorem listing_fits (f : Str) (vars : Trie Str) (l : List (Str × Str)) (hd : Describes vars l) :
    Fits (listing s (absPath s.root f) l) (s.listingJob vars (s.at f none)) :=
  ⟨at_path s f none, hd, rfl, rfl, entry_path h, mainTemplate_path h, posts_input h⟩

theorem listing_stale (f : Str) (l : List (Str × Str)) :
    s.needListing (s.at f none) = stale s.stat (listing s (absPath s.root f) l) := by
  refine stale_eq s f _ ([(s.settingsFile, none), (s.templatePath (s.getStr b!"main_template"), none)] ++
    ((s.get b!"listing_entry").map fun e => (pathOf (s.getStr b!"content_dir") (s.get b!"blog_prefix") none e
      (s.get b!"source_ext"), some e)).toList ++
    ((s.cfg.posts.getD []).map fun g => (pathOf (s.getStr b!"content_dir") (s.get b!"blog_prefix")
      (s.get b!"post_prefix") g (s.get b!"source_ext"), some g))) rfl ?_ _ _ _ _ _ ?_
  · rw [List.map_append, List.map_append, posts_paths h]
    simp only [listing, List.map_cons, List.map_nil, settings_abs h, template_dir h]
    congr 2
    unfold listingEntry
    cases s.get b!"listing_entry" with
    | none => rfl
    | some e => simp [pathOf_abs _ _ (contentDir_ne h), contentDir]
  · rw [relevant_all, posts_eq h, mainTemplate_eq h, listingEntry_eq h, List.map_append, List.map_append]
    congr 1
    cases s.get b!"listing_entry" <;> rfl

theorem feed_fits (f : Str) (vars : Trie Str) (l : List (Str × Str)) (hd : Describes vars l) :
    Fits (feed s (absPath s.root f) l) (s.atomJob vars (s.at f none)) :=
  ⟨at_path s f none, hd, rfl, rfl, rfl, atomTemplate_path h, posts_input h⟩

theorem feed_stale (f : Str) (l : List (Str × Str)) :
    s.needAtom (s.at f none) = stale s.stat (feed s (absPath s.root f) l) := by
  refine stale_eq s f _ ([(s.settingsFile, none)] ++
    ((s.get b!"atom_template").map fun t => (s.templatePath t, none)).toList ++
    ((s.cfg.posts.getD []).map fun g => (pathOf (s.getStr b!"content_dir") (s.get b!"blog_prefix")
      (s.get b!"post_prefix") g (s.get b!"source_ext"), some g))) rfl ?_ _ _ _ _ _ ?_
  · rw [List.map_append, List.map_append, posts_paths h]
    simp only [feed, List.map_cons, List.map_nil, settings_abs h]
    congr 2
    unfold atomTemplate
    cases s.get b!"atom_template" with
    | none => rfl
    | some e => simp [template_dir h]
  · rw [relevant_all, posts_eq h, List.map_append, List.map_append]
    unfold Site.atomTemplateTmp Site.atomTemplate
    cases s.get b!"atom_template" <;> simp [one, file_eq, Site.settings]

theorem single_fits (f src slug : Str) (rest : List (Option FileCtx)) (vars : Trie Str) (l : List (Str × Str))
    (hd : Describes vars l) :
    Fits (single s (absPath s.root f) (absPath s.root src) slug l)
      (s.entryJob vars (some (s.at src (some slug)) :: rest) (s.at f none)) := by
  refine ⟨at_path s f none, hd, ?_, rfl, rfl, mainTemplate_path h, ?_⟩
  · refine ⟨_, rfl, ?_⟩
    simp only [List.head?_cons, Option.bind_some, id, at_slug]
    exact describes_set describes_nil _ _ (by decide)
  · show (sourcePaths true (some (s.at src (some slug)) :: rest)).bind _ = _
    rw [sourcePaths, if_pos rfl, at_path]
    rfl

theorem single_stale (f src slug : Str) (rest : List (Option FileCtx)) (l : List (Str × Str)) :
    s.needEntry (some (s.at src (some slug)) :: rest) (s.at f none) =
      stale s.stat (single s (absPath s.root f) (absPath s.root src) slug l) := by
  refine stale_eq s f _ [(s.settingsFile, none), (s.templatePath (s.getStr b!"main_template"), none),
    (src, some slug)] rfl ?_ _ _ _ _ _ ?_
  · simp only [single, List.map_cons, List.map_nil, settings_abs h, template_dir h]
    rfl
  · rw [mainTemplate_eq h]
    rfl

end

/-! ## The rules -/

theorem enabled_iff (s : Site) (option : Str) :
    paginationEnabled s.cfg.settings option = true ↔ perPage s option ≠ 0 := by
  simp only [paginationEnabled, bne_iff_ne, perPage]
  rfl

theorem isNone_iff {α : Type} (x : Option α) : x.isNone = true ↔ x = none := by
  cases x <;> simp

/-- The conditions of the output lists and of the specification. -/
theorem cond_eq (s : Site) (option : Str) :
    ((s.cfg.posts.isNone || !paginationEnabled s.cfg.settings option) = true) ↔
      (s.cfg.posts = none ∨ perPage s option = 0) := by
  have := enabled_iff s option
  rw [Bool.or_eq_true, isNone_iff, Bool.not_eq_true', ← Bool.not_eq_true, this, not_not]

/-- The loop of the rules with one output, for the main template or for feeds. -/
theorem one_output (s : Site) (exec : Job → Int) (need : FileCtx → Bool) (job : Trie Str → FileCtx → Job)
    (f : Str) (vars : Trie Str) (w : Wanted) (h1 : need (s.at f none) = stale s.stat w)
    (h2 : Fits w (job vars (s.at f none))) :
    Does s.stat exec [w] (jobLoop (fun _ v _ => some v) id need job exec () vars [s.file (some f) none]) :=
  jobLoop_does s exec _ _ _ _ (fun _ v l => v = vars ∧ ∀ p ∈ l, p = (w, f))
    (fun i v w' f' l hR => by
      obtain ⟨rfl, hR⟩ := hR
      have e := hR (w', f') (by simp)
      simp only [Prod.mk.injEq] at e
      obtain ⟨rfl, rfl⟩ := e
      exact ⟨v, rfl, h1, h2, rfl, fun p hp => hR p (by simp [hp])⟩)
    [(w, f)] () vars ⟨rfl, by simp⟩

/-- The index of the site. -/
theorem index_rule (s : Site) (h : Ok s) (exec : Job → Int) :
    Does s.stat exec (index s) (s.indexExec exec s.indexOutputs) := by
  unfold Site.indexExec index Site.indexOutputs
  by_cases hc : s.cfg.posts = none ∨ perPage s b!"posts_per_page" = 0
  · rw [if_pos hc, if_pos ((cond_eq s _).2 hc)]
    split <;> exact does_nil _ _
  · rw [if_neg hc, if_neg (fun h' => hc ((cond_eq s _).1 h')),
      if_neg (fun h' => hc (.inl ((isNone_iff _).1 h')))]
    have hd := describes_names (s.getStr b!"date_format") b!"index" b!"post"
      (describes_ordering s b!"html_order" (describes_page s b!"posts_per_page" h.perPage describes_nil))
    rw [List.append_nil, ← List.append_assoc] at hd
    unfold Site.out
    rw [listing_name _ _ _ _ h.htmlExt, outDir, ← listingPath_abs _ _ h.outDir]
    exact one_output s exec _ _ _ _ _ (listing_stale h _ _) (listing_fits h _ _ _ hd)

/-- The feed of the site. -/
theorem atom_rule (s : Site) (h : Ok s) (exec : Job → Int) :
    Does s.stat exec (atom s) (s.atomExec exec s.atomOutputs) := by
  unfold Site.atomExec atom Site.atomOutputs
  by_cases hc : s.cfg.posts = none ∨ perPage s b!"atom_posts_per_page" = 0
  · rw [if_pos hc, if_pos ((cond_eq s _).2 hc)]
    split <;> exact does_nil _ _
  · rw [if_neg hc, if_neg (fun h' => hc ((cond_eq s _).1 h')),
      if_neg (fun h' => hc (.inl ((isNone_iff _).1 h')))]
    have hd := describes_names Site.atomDate b!"atom" b!"atom"
      (describes_ordering s b!"atom_order" (describes_page s b!"atom_posts_per_page" h.atomPerPage describes_nil))
    rw [List.append_nil, ← List.append_assoc] at hd
    unfold Site.out
    rw [listing_name _ _ _ _ h.atomExt, outDir, ← listingPath_abs _ _ h.outDir]
    exact one_output s exec _ _ _ _ _ (feed_stale h _ _) (feed_fits h _ _ _ hd)

/-! ### Tags -/

/-- The table agrees with the list, apart from some variables. -/
def Except (ks : List Str) (t : Trie Str) (l : List (Str × Str)) : Prop :=
  Filled t ∧ ∀ k, NulFree k → k ∉ ks → t.lookup k = l.lookup k

theorem except_of (ks : List Str) {t : Trie Str} {l : List (Str × Str)} (h : Describes t l) : Except ks t l :=
  ⟨h.filled, fun k hk _ => h.lookup k hk⟩

theorem except_set {ks : List Str} {t : Trie Str} {l : List (Str × Str)} (h : Except ks t l) (k v : Str)
    (hk : NulFree k) (hm : k ∈ ks) : Except ks (set t k v) l := by
  refine ⟨filled_set h.1 k v hk, ?_⟩
  intro k' hk' hn
  rw [Make.set, Loader.lookup_set t k k' v hk hk', if_neg (by rintro rfl; exact hn hm)]
  exact h.2 k' hk' hn

theorem except_cons {k v : Str} {ks : List Str} {t : Trie Str} {l : List (Str × Str)} (h : Except (k :: ks) t l)
    (hk : NulFree k) : Except ks (set t k v) ((k, v) :: l) := by
  refine ⟨filled_set h.1 k v hk, ?_⟩
  intro k' hk' hn
  rw [Make.set, Loader.lookup_set t k k' v hk hk', List.lookup_cons]
  by_cases e : k' = k
  · simp [e]
  · rw [if_neg e, show (k' == k) = false from by simpa using e]
    exact h.2 k' hk' (by simp [e, hn])

theorem describes_of {t : Trie Str} {l : List (Str × Str)} (h : Except [] t l) : Describes t l :=
  ⟨h.1, fun k hk => h.2 k hk (by simp)⟩

/-- The loop of the rules with one output for each tag. -/
theorem tag_outputs (s : Site) (exec : Job → Int) (need : FileCtx → Bool) (job : Trie Str → FileCtx → Job)
    (f : Str → Str) (w : Str → Wanted) (base : List (Str × Str))
    (h1 : ∀ tag, need (s.at (f tag) none) = stale s.stat (w tag))
    (h2 : ∀ tag vars, Describes vars ((b!"FILTER_TAG", tag) :: base) → Fits (w tag) (job vars (s.at (f tag) none)))
    (tags : List Str) (vars : Trie Str) (hv : Describes vars base) :
    Does s.stat exec (tags.map w)
      (jobLoop Site.setTag List.tail need job exec tags vars (tags.map fun t => s.file (some (f t)) none)) := by
  have key := jobLoop_does s exec Site.setTag List.tail need job
    (fun (ts : List Str) v l => Except [b!"FILTER_TAG"] v base ∧ l = ts.map fun t => (w t, f t))
    (fun ts v w' f' l hR => by
      obtain ⟨hv, hl⟩ := hR
      cases ts with
      | nil => cases hl
      | cons t ts =>
        simp only [List.map_cons, List.cons.injEq, Prod.mk.injEq] at hl
        obtain ⟨⟨rfl, rfl⟩, rfl⟩ := hl
        exact ⟨_, rfl, h1 t, h2 t _ (describes_of (except_cons hv (by decide))),
          except_set hv _ _ (by decide) (by simp), rfl⟩)
    (tags.map fun t => (w t, f t)) tags vars ⟨except_of _ hv, rfl⟩
  simp only [List.map_map] at key
  exact key

theorem tagsIfPosts_eq (s : Site) : s.tagsIfPosts = siteTags s := by
  unfold Site.tagsIfPosts siteTags
  cases s.cfg.posts <;> rfl

theorem siteTags_ok {s : Site} (h : Ok s) (tag : Str) (ht : tag ∈ siteTags s) :
    tag ≠ [] ∧ slashFirst (some tag) = false := by
  unfold siteTags at ht
  split at ht
  · simp at ht
  · exact h.tags tag ht

/-- The output of a tag. -/
theorem tag_output {s : Site} (h : Ok s) (g pre ext : Option Str) (l : List Str)
    (hl : ∀ x ∈ l, x ≠ [] ∧ slashFirst (some x) = false) :
    (l.map fun t => s.out g pre (some t) ext) =
      l.map fun t => s.file (some (pathOf s.outDir g pre t ext)) none := by
  apply List.map_congr_left
  intro t ht
  obtain ⟨h1, h2⟩ := hl t ht
  unfold Site.out
  rw [C53.as_meant _ _ _ _ _ h1 (fun _ => h2)]

theorem noTags_eq (s : Site) (hn : (s.cfg.posts.isNone || s.cfg.tags.isNone) = true) : siteTags s = [] := by
  unfold siteTags
  cases hp : s.cfg.posts with
  | none => rfl
  | some p =>
    rw [hp] at hn
    simp only [Option.isNone_some, Bool.false_or, isNone_iff] at hn
    simp [hn]

theorem tags_eq (s : Site) (hn : (s.cfg.posts.isNone || s.cfg.tags.isNone) = false) :
    s.cfg.tags.getD [] = siteTags s := by
  unfold siteTags
  cases hp : s.cfg.posts with
  | none => rw [hp] at hn; simp at hn
  | some p => rfl

/-- The listings of the tags. -/
theorem tags_rule (s : Site) (h : Ok s) (exec : Job → Int) :
    Does s.stat exec (tags s) (s.tagsExec exec s.tagsOutputs) := by
  unfold Site.tagsExec tags Site.tagsOutputs
  rw [tagsIfPosts_eq]
  cases hn : (s.cfg.posts.isNone || s.cfg.tags.isNone) with
  | true =>
    rw [if_pos (show true = true from rfl), noTags_eq s hn]
    split <;> exact does_nil _ _
  | false =>
    rw [if_neg (show ¬ (false = true) by simp), tags_eq s hn]
    have he := enabled_iff s b!"posts_per_page"
    by_cases hc : perPage s b!"posts_per_page" = 0
    · rw [if_pos hc, if_pos (by simpa using fun h' => he.1 h' hc)]
      exact does_nil _ _
    · rw [if_neg hc, if_neg (by simpa using he.2 hc), tag_output h _ _ _ _ (siteTags_ok h)]
      have hd := describes_names (s.getStr b!"date_format") b!"tags" b!"post"
        (describes_ordering s b!"html_order" (describes_page s b!"posts_per_page" h.perPage describes_nil))
      rw [List.append_nil, ← List.append_assoc] at hd
      refine tag_outputs s exec _ _ _ _ _ ?_ ?_ (siteTags s) _ hd
      · intro tag
        rw [outDir, ← pathOf_abs _ _ h.outDir]
        exact listing_stale h _ _
      · intro tag vars hv
        rw [outDir, ← pathOf_abs _ _ h.outDir]
        exact listing_fits h _ _ _ hv

/-- The feeds of the tags. -/
theorem atom_tags_rule (s : Site) (h : Ok s) (exec : Job → Int) :
    Does s.stat exec (atomTags s) (s.atomTagsExec exec s.atomTagsOutputs) := by
  unfold Site.atomTagsExec atomTags Site.atomTagsOutputs
  rw [tagsIfPosts_eq]
  cases hn : (s.cfg.posts.isNone || s.cfg.tags.isNone) with
  | true =>
    rw [if_pos (show true = true from rfl), noTags_eq s hn]
    split <;> exact does_nil _ _
  | false =>
    rw [if_neg (show ¬ (false = true) by simp), tags_eq s hn]
    have he := enabled_iff s b!"atom_posts_per_page"
    by_cases hc : perPage s b!"atom_posts_per_page" = 0
    · rw [if_pos hc, if_pos (by simpa using fun h' => he.1 h' hc)]
      exact does_nil _ _
    · rw [if_neg hc, if_neg (by simpa using he.2 hc), tag_output h _ _ _ _ (siteTags_ok h)]
      have hd := describes_names Site.atomDate b!"atom_tags" b!"atom"
        (describes_ordering s b!"atom_order" (describes_page s b!"atom_posts_per_page" h.atomPerPage describes_nil))
      rw [List.append_nil, ← List.append_assoc] at hd
      refine tag_outputs s exec _ _ _ _ _ ?_ ?_ (siteTags s) _ hd
      · intro tag
        rw [outDir, ← pathOf_abs _ _ h.outDir]
        exact feed_stale h _ _
      · intro tag vars hv
        rw [outDir, ← pathOf_abs _ _ h.outDir]
        exact feed_fits h _ _ _ hv

/-! ### Pages of listings -/

/-- The variables of the rules with pages, before the page is set. -/
theorem paginationVars_eq (s : Site) (rule : Str) : Describes (s.paginationVars rule)
    (naming (s.getStr b!"date_format") rule b!"post" ++ ordering s b!"html_order" ++
      [(b!"FILTER_PER_PAGE", s.getStr b!"posts_per_page")]) := by
  have := describes_names (s.getStr b!"date_format") rule b!"post"
    (describes_ordering s b!"html_order" (describes_set describes_nil b!"FILTER_PER_PAGE"
      (s.getStr b!"posts_per_page") (by decide)))
  rw [← List.append_assoc] at this
  exact this

/-- The pages of the listing of all posts: page `n` has `FILTER_PAGE=n`. The number
of pages is what blogc printed for LAST_PAGE. -/
theorem pagination_rule (s : Site) (h : Ok s) (run : Shell) (exec : Job → Int) (v : Option Str)
    (hv : s.lastPage run = .ok v) :
    ∃ outputs, s.paginationOutputs run = .ok outputs ∧
      Does s.stat exec (pagination s (pageRounds v)) (s.paginationExec exec outputs) := by
  unfold Site.paginationOutputs pagination Site.paginationExec
  by_cases hc : s.cfg.posts = none ∨ perPage s b!"posts_per_page" = 0
  · rw [if_pos hc, if_pos ((cond_eq s _).2 hc)]
    refine ⟨[], rfl, ?_⟩
    split <;> exact does_nil _ _
  · rw [if_neg hc, if_neg (fun h' => hc ((cond_eq s _).1 h')), hv]
    refine ⟨_, rfl, ?_⟩
    rw [if_neg (fun h' => hc (.inl ((isNone_iff _).1 h')))]
    have key := jobLoop_does s exec (fun page v _ => some (set v b!"FILTER_PAGE" (decNat page))) (· + 1)
      s.needListing s.listingJob
      (fun i v l => Except [b!"FILTER_PAGE"] v (naming (s.getStr b!"date_format") b!"pagination" b!"post" ++
          ordering s b!"html_order" ++ [(b!"FILTER_PER_PAGE", s.getStr b!"posts_per_page")]) ∧
        ∃ n, l = (List.range' i n).map fun k => (listing s (pathOf (outDir s) (s.get b!"blog_prefix")
          (s.get b!"pagination_prefix") (decNat k) (s.get b!"html_ext")) (pageVars s b!"pagination" k),
          pathOf s.outDir (s.get b!"blog_prefix") (s.get b!"pagination_prefix") (decNat k) (s.get b!"html_ext")))
      (fun i v w' f' l hR => by
        obtain ⟨hv, n, hl⟩ := hR
        cases n with
        | zero => cases hl
        | succ n =>
          simp only [List.range'_succ, List.map_cons, List.cons.injEq, Prod.mk.injEq] at hl
          obtain ⟨⟨rfl, rfl⟩, rfl⟩ := hl
          rw [outDir, ← pathOf_abs _ _ h.outDir]
          exact ⟨_, rfl, listing_stale h _ _, listing_fits h _ _ _ (describes_of (except_cons hv (by decide))),
            except_set hv _ _ (by decide) (by simp), n, rfl⟩)
      _ 1 _ ⟨except_of _ (paginationVars_eq s b!"pagination"), pageRounds v, rfl⟩
    rw [List.map_map, List.map_map] at key
    have e1 : (List.range (pageRounds v)).map (fun i => s.out (s.get b!"blog_prefix")
        (s.get b!"pagination_prefix") (some (decNat (i + 1))) (s.get b!"html_ext")) =
        (List.range' 1 (pageRounds v)).map fun k => s.file (some (pathOf s.outDir (s.get b!"blog_prefix")
          (s.get b!"pagination_prefix") (decNat k) (s.get b!"html_ext"))) none := by
      rw [List.range'_eq_map_range, List.map_map]
      apply List.map_congr_left
      intro i _
      unfold Site.out
      rw [C53.as_meant _ _ _ _ _ (decNat_ne_nil _) (fun _ => C53.slashFirst_decNat _)]
      simp only [Function.comp, Nat.add_comm]
    have e2 : (List.range (pageRounds v)).map (fun i => listing s (pathOf (outDir s) (s.get b!"blog_prefix")
        (s.get b!"pagination_prefix") (decNat (i + 1)) (s.get b!"html_ext")) (pageVars s b!"pagination" (i + 1))) =
        (List.range' 1 (pageRounds v)).map fun k => listing s (pathOf (outDir s) (s.get b!"blog_prefix")
          (s.get b!"pagination_prefix") (decNat k) (s.get b!"html_ext")) (pageVars s b!"pagination" k) := by
      rw [List.range'_eq_map_range, List.map_map]
      apply List.map_congr_left
      intro i _
      simp only [Function.comp, Nat.add_comm]
    rw [e1, e2]
    exact key

/-- The outputs of the pages of tags. -/
theorem tagPages_eq (s : Site) (run : Shell) (v : Str → Option Str) (tags : List Str)
    (hv : ∀ t ∈ tags, s.lastPageOf run t = .ok (v t)) :
    s.tagPagesLoop run tags =
      .ok ((tagOutputs s.tagPageName (fun t => pageRounds (v t)) tags).map fun f => s.file f none) := by
  induction tags with
  | nil => rfl
  | cons t l ih =>
    rw [Site.tagPagesLoop, hv t (by simp), ih fun x hx => hv x (by simp [hx])]
    show Res.ok _ = _
    rw [tagOutputs, List.map_append, List.map_map]
    rfl

theorem tagOutputs_eq (name : Str → Nat → Option Str) (pages : Str → Nat) (tags : List Str) :
    tagOutputs name pages tags = tags.flatMap fun t => (List.range (pages t)).map fun i => name t (i + 1) := by
  induction tags with
  | nil => rfl
  | cons t l ih => rw [tagOutputs, ih, List.flatMap_cons]

/-- The pages of the listing of a tag: page `n` has `FILTER_PAGE=n`, and
`FILTER_TAG` is the tag in the path. The number of pages is what blogc printed for
LAST_PAGE with that tag. -/
theorem pagination_tags_rule (s : Site) (h : Ok s) (run : Shell) (exec : Job → Int) (v : Str → Option Str)
    (hv : ∀ t ∈ siteTags s, s.lastPageOf run t = .ok (v t)) :
    ∃ outputs, s.paginationTagsOutputs run = .ok outputs ∧
      Does s.stat exec (paginationTags s fun t => pageRounds (v t)) (s.paginationTagsExec exec outputs) := by
  unfold Site.paginationTagsOutputs paginationTags Site.paginationTagsExec
  rw [tagsIfPosts_eq]
  have he := enabled_iff s b!"posts_per_page"
  by_cases hc : perPage s b!"posts_per_page" = 0
  · rw [if_pos hc, if_pos (by simpa using fun h' => he.1 h' hc)]
    refine ⟨[], rfl, ?_⟩
    split <;> exact does_nil _ _
  · rw [if_neg hc, if_neg (by simpa using he.2 hc), tagPages_eq s run v _ hv]
    refine ⟨_, rfl, ?_⟩
    cases hn : (s.cfg.posts.isNone || s.cfg.tags.isNone) with
    | true =>
      rw [if_pos (show true = true from rfl), noTags_eq s hn]
      exact does_nil _ _
    | false =>
      rw [if_neg (show ¬ (false = true) by simp)]
      have key := jobLoop_does s exec (fun (_ : Unit) => s.setTagPage
          (tagOutputs s.tagPageName (fun t => pageRounds (v t)) (siteTags s)).length) id s.needListing s.listingJob
        (fun _ vs l => Except [b!"FILTER_PAGE", b!"FILTER_TAG"] vs
            (naming (s.getStr b!"date_format") b!"pagination_tags" b!"post" ++
              ordering s b!"html_order" ++ [(b!"FILTER_PER_PAGE", s.getStr b!"posts_per_page")]) ∧
          ∀ p ∈ l, ∃ tag ∈ siteTags s, ∃ i < pageRounds (v tag),
            p = (listing s (tagPathOf (outDir s) (s.get b!"blog_prefix") (s.get b!"tag_prefix")
                (s.get b!"pagination_prefix") tag (i + 1) (s.get b!"html_ext"))
                ((b!"FILTER_TAG", tag) :: pageVars s b!"pagination_tags" (i + 1)),
              tagPathOf s.outDir (s.get b!"blog_prefix") (s.get b!"tag_prefix") (s.get b!"pagination_prefix") tag
                (i + 1) (s.get b!"html_ext")))
        (fun i vs w' f' l hR => by
          obtain ⟨hvs, hl⟩ := hR
          obtain ⟨tag, ht, i, hi, e⟩ := hl (w', f') (by simp)
          simp only [Prod.mk.injEq] at e
          obtain ⟨rfl, rfl⟩ := e
          have hfound := C67.found s.outDir (s.get b!"blog_prefix") (s.get b!"tag_prefix")
            (s.get b!"pagination_prefix") (s.get b!"html_ext") (siteTags s) (fun t => pageRounds (v t))
            (fun t ht => (siteTags_ok h t ht).1) tag ht (i + 1) (by omega) hi _
            (C53.tagPage_eq _ _ _ _ _ _ _ (siteTags_ok h tag ht).1)
          refine ⟨set (set vs b!"FILTER_TAG" tag) b!"FILTER_PAGE" (decNat (i + 1)), ?_, ?_, ?_, ?_, ?_⟩
          · unfold Site.setTagPage
            rw [at_shortPath, tags_eq s hn]
            exact congrArg (Option.map fun x : Str × Nat =>
              set (set vs b!"FILTER_TAG" x.1) b!"FILTER_PAGE" (decNat x.2)) hfound
          · rw [outDir, ← tagPathOf_abs _ _ h.outDir]
            exact listing_stale h _ _
          · rw [outDir, ← tagPathOf_abs _ _ h.outDir]
            refine listing_fits h _ _ _ (describes_congr (describes_of (except_cons (k := b!"FILTER_PAGE")
              (except_cons (k := b!"FILTER_TAG") (ks := [b!"FILTER_PAGE"])
                (l := naming (s.getStr b!"date_format") b!"pagination_tags" b!"post" ++ ordering s b!"html_order" ++
                  [(b!"FILTER_PER_PAGE", s.getStr b!"posts_per_page")]) ?_ (by decide)) (by decide))) ?_)
            · refine ⟨hvs.1, ?_⟩
              intro k hk hm
              exact hvs.2 k hk (by simpa [and_comm] using hm)
            · intro k
              unfold pageVars
              simp only [List.lookup_cons]
              by_cases e : k = b!"FILTER_PAGE"
              · subst e; rfl
              · rw [show (k == b!"FILTER_PAGE") = false from by simpa using e]
          · exact except_set (except_set hvs _ _ (by decide) (by simp)) _ _ (by decide) (by simp)
          · exact fun p hp => hl p (by simp [hp]))
        ((siteTags s).flatMap fun tag => (List.range (pageRounds (v tag))).map fun i =>
          (listing s (tagPathOf (outDir s) (s.get b!"blog_prefix") (s.get b!"tag_prefix")
            (s.get b!"pagination_prefix") tag (i + 1) (s.get b!"html_ext"))
            ((b!"FILTER_TAG", tag) :: pageVars s b!"pagination_tags" (i + 1)),
          tagPathOf s.outDir (s.get b!"blog_prefix") (s.get b!"tag_prefix") (s.get b!"pagination_prefix") tag
            (i + 1) (s.get b!"html_ext"))) () (s.paginationVars b!"pagination_tags")
        ⟨except_of _ (paginationVars_eq s b!"pagination_tags"), by
          intro p hp
          obtain ⟨tag, ht, hp⟩ := List.mem_flatMap.1 hp
          obtain ⟨i, hi, rfl⟩ := List.mem_map.1 hp
          exact ⟨tag, ht, i, List.mem_range.1 hi, rfl⟩⟩
      have e : (tagOutputs s.tagPageName (fun t => pageRounds (v t)) (siteTags s)).map (fun f => s.file f none) =
          ((siteTags s).flatMap fun tag => (List.range (pageRounds (v tag))).map fun i =>
            (listing s (tagPathOf (outDir s) (s.get b!"blog_prefix") (s.get b!"tag_prefix")
              (s.get b!"pagination_prefix") tag (i + 1) (s.get b!"html_ext"))
              ((b!"FILTER_TAG", tag) :: pageVars s b!"pagination_tags" (i + 1)),
            tagPathOf s.outDir (s.get b!"blog_prefix") (s.get b!"tag_prefix") (s.get b!"pagination_prefix") tag
              (i + 1) (s.get b!"html_ext"))).map fun p => s.file (some p.2) none := by
        rw [tagOutputs_eq, List.map_flatMap, List.map_flatMap]
        apply List.flatMap_congr
        intro tag ht
        rw [List.map_map, List.map_map]
        apply List.map_congr_left
        intro i _
        simp only [Function.comp]
        rw [show s.tagPageName tag (i + 1) = some _ from
          C53.tagPage_eq _ _ _ _ _ _ _ (siteTags_ok h tag ht).1]
      rw [List.length_map, e]
      rw [List.map_flatMap] at key
      simp only [List.map_map] at key
      exact key

/-! ### Posts and pages -/

theorem setOpt_eq {s : Site} (h : Ok s) (t : Trie Str) :
    Site.setOpt t b!"DATE_FORMAT" (s.get b!"date_format") = set t b!"DATE_FORMAT" (s.getStr b!"date_format") := by
  obtain ⟨d, hd⟩ := Option.isSome_iff_exists.1 h.dateFormat
  rw [Site.getStr, hd]
  rfl

/-- The pages of the site. -/
theorem pages_rule (s : Site) (h : Ok s) (exec : Job → Int) :
    Does s.stat exec (pages s) (s.pagesExec exec s.pagesOutputs) := by
  unfold Site.pagesExec pages Site.pagesOutputs
  cases hp : s.cfg.pages with
  | none => exact does_nil _ _
  | some slugs =>
    rw [if_neg (show ¬ ((some slugs).isNone = true) by simp), setOpt_eq h, pages_eq h, hp, Option.getD_some]
    have hs := h.pages
    rw [hp, Option.getD_some] at hs
    rw [tag_output h _ _ _ _ hs]
    have hd := describes_names (s.getStr b!"date_format") b!"pages" b!"page" describes_nil
    rw [List.append_nil] at hd
    have key := pairJobs_does s exec s.needEntry (s.entryJob (Site.names (s.getStr b!"date_format") b!"pages"
        b!"page" .nil))
      (slugs.map fun g => (single s (pathOf (outDir s) none none g (s.get b!"html_ext")) (pageSource s g) g
        (naming (s.getStr b!"date_format") b!"pages" b!"page"),
        s.at (pathOf (s.getStr b!"content_dir") none none g (s.get b!"source_ext")) (some g),
        pathOf s.outDir none none g (s.get b!"html_ext"))) (by
      intro p hp rest
      obtain ⟨g, hg, rfl⟩ := List.mem_map.1 hp
      simp only
      rw [outDir, ← pathOf_abs _ _ h.outDir, pageSource, contentDir, ← pathOf_abs _ _ (contentDir_ne h)]
      exact ⟨single_stale h _ _ _ _ _, single_fits h _ _ _ _ _ _ hd⟩)
    simp only [List.map_map] at key
    exact key

/-- The posts of the site. -/
theorem posts_rule (s : Site) (h : Ok s) (exec : Job → Int) :
    Does s.stat exec (posts s) (s.postsExec exec s.postsOutputs) := by
  unfold Site.postsExec posts Site.postsOutputs
  cases hp : s.cfg.posts with
  | none => exact does_nil _ _
  | some slugs =>
    rw [if_neg (show ¬ ((some slugs).isNone = true) by simp), setOpt_eq h, posts_eq h, hp, Option.getD_some]
    have hs := h.posts
    rw [hp, Option.getD_some] at hs
    rw [tag_output h _ _ _ _ hs]
    have hd : Describes (set (set (postsOrdering s.cfg.settings b!"html_order"
        (set (set .nil b!"IS_POST" b!"1") b!"DATE_FORMAT" (s.getStr b!"date_format")))
        b!"MAKE_RULE" b!"posts") b!"MAKE_TYPE" b!"post")
        (naming (s.getStr b!"date_format") b!"posts" b!"post" ++ ordering s b!"html_order" ++
          [(b!"IS_POST", b!"1")]) := by
      refine describes_congr (describes_set (describes_set (describes_ordering s b!"html_order"
        (describes_set (describes_set describes_nil _ _ (by decide)) _ _ (by decide))) _ _ (by decide))
        _ _ (by decide)) ?_
      intro k
      unfold ordering naming
      by_cases e : k = b!"DATE_FORMAT"
      · subst e
        cases strToBool (s.get b!"posts_sort") <;> cases C54.OldestFirst (s.get b!"html_order") <;> rfl
      · simp only [List.lookup_append, List.lookup_cons, List.cons_append, List.nil_append, List.lookup_nil,
          show (k == b!"DATE_FORMAT") = false from by simpa using e, List.append_assoc]
    have key := pairJobs_does s exec s.needEntry (s.entryJob _)
      (slugs.map fun g => (single s (pathOf (outDir s) (s.get b!"blog_prefix") (s.get b!"post_prefix") g
        (s.get b!"html_ext")) (postSource s g) g _,
        s.at (pathOf (s.getStr b!"content_dir") (s.get b!"blog_prefix") (s.get b!"post_prefix") g
          (s.get b!"source_ext")) (some g),
        pathOf s.outDir (s.get b!"blog_prefix") (s.get b!"post_prefix") g (s.get b!"html_ext"))) (by
      intro p hp rest
      obtain ⟨g, hg, rfl⟩ := List.mem_map.1 hp
      simp only
      rw [outDir, ← pathOf_abs _ _ h.outDir, postSource, contentDir, ← pathOf_abs _ _ (contentDir_ne h)]
      exact ⟨single_stale h _ _ _ _ _, single_fits h _ _ _ _ _ _ hd⟩)
    simp only [List.map_map] at key
    rw [List.map_map]
    exact key

/-! ### The outputs of the rules, whether they have to be built or not -/

/-- The paths of outputs. -/
def paths (l : List (Option FileCtx)) : List (Option Str) := l.map fun o => o.map (·.path)

/-- The paths of the outputs wanted. -/
def outputs (l : List Wanted) : List (Option Str) := l.map fun w => some w.output

theorem paths_slugs {s : Site} (h : Ok s) (g pre ext : Option Str) (l : List Str)
    (hl : ∀ x ∈ l, x ≠ [] ∧ slashFirst (some x) = false) :
    paths (l.map fun t => s.out g pre (some t) ext) = l.map fun t => some (pathOf (outDir s) g pre t ext) := by
  rw [tag_output h g pre ext l hl, paths, List.map_map]
  apply List.map_congr_left
  intro t _
  simp only [Function.comp, file_eq, Option.map_some, at_path]
  rw [outDir, pathOf_abs _ _ h.outDir]

/-- The rules without pages list the outputs wanted. -/
theorem lists_outputs (s : Site) (h : Ok s) :
    paths s.indexOutputs = outputs (index s) ∧ paths s.atomOutputs = outputs (atom s) ∧
      paths s.atomTagsOutputs = outputs (atomTags s) ∧ paths s.tagsOutputs = outputs (tags s) ∧
      paths s.postsOutputs = outputs (posts s) ∧ paths s.pagesOutputs = outputs (pages s) := by
  have one : ∀ option pre ext (_ : have? (s.get ext) = true) (w : Wanted),
      w.output = listingPath (outDir s) (s.get b!"blog_prefix") (s.get pre) (s.get ext) →
      paths (if s.cfg.posts.isNone || !paginationEnabled s.cfg.settings option then []
        else [s.out (s.get b!"blog_prefix") (s.get pre) none (s.get ext)]) =
      outputs (if s.cfg.posts = none ∨ perPage s option = 0 then [] else [w]) := by
    intro option pre ext he w hw
    by_cases hc : s.cfg.posts = none ∨ perPage s option = 0
    · rw [if_pos hc, if_pos ((cond_eq s _).2 hc)]
      rfl
    · rw [if_neg hc, if_neg (fun h' => hc ((cond_eq s _).1 h')), Site.out, listing_name _ _ _ _ he]
      simp only [paths, outputs, List.map_cons, List.map_nil, file_eq, Option.map_some, at_path, hw]
      rw [outDir, listingPath_abs _ _ h.outDir]
  have tag : ∀ option pre ext (w : Str → Wanted),
      (∀ t, (w t).output = pathOf (outDir s) (s.get b!"blog_prefix") (s.get pre) t (s.get ext)) →
      paths (if !paginationEnabled s.cfg.settings option then []
        else s.tagsIfPosts.map fun t => s.out (s.get b!"blog_prefix") (s.get pre) (some t) (s.get ext)) =
      outputs (if perPage s option = 0 then [] else (siteTags s).map w) := by
    intro option pre ext w hw
    have he := enabled_iff s option
    by_cases hc : perPage s option = 0
    · rw [if_pos hc, if_pos (by simpa using fun h' => he.1 h' hc)]
      rfl
    · rw [if_neg hc, if_neg (by simpa using he.2 hc), tagsIfPosts_eq, paths_slugs h _ _ _ _ (siteTags_ok h),
        outputs, List.map_map]
      exact List.map_congr_left fun t _ => congrArg some (hw t).symm
  refine ⟨one _ _ _ h.htmlExt _ rfl, one _ _ _ h.atomExt _ rfl, tag _ _ _ _ fun _ => rfl,
    tag _ _ _ _ fun _ => rfl, ?_, ?_⟩
  · rw [Site.postsOutputs, paths_slugs h _ _ _ _ h.posts, posts, outputs, List.map_map]
    rfl
  · rw [Site.pagesOutputs, paths_slugs h _ _ _ _ h.pages, pages, outputs, List.map_map]
    rfl

/-- So do the rules with pages. -/
theorem lists_pages (s : Site) (h : Ok s) (run : Shell) (v : Option Str) (vt : Str → Option Str)
    (hv : s.lastPage run = .ok v) (ht : ∀ t ∈ siteTags s, s.lastPageOf run t = .ok (vt t)) :
    (∃ l, s.paginationOutputs run = .ok l ∧ paths l = outputs (pagination s (pageRounds v))) ∧
      ∃ l, s.paginationTagsOutputs run = .ok l ∧ paths l = outputs (paginationTags s fun t => pageRounds (vt t)) := by
  constructor
  · unfold Site.paginationOutputs pagination
    by_cases hc : s.cfg.posts = none ∨ perPage s b!"posts_per_page" = 0
    · rw [if_pos hc, if_pos ((cond_eq s _).2 hc)]
      exact ⟨[], rfl, rfl⟩
    · rw [if_neg hc, if_neg (fun h' => hc ((cond_eq s _).1 h')), hv]
      refine ⟨_, rfl, ?_⟩
      have e := paths_slugs h (s.get b!"blog_prefix") (s.get b!"pagination_prefix") (s.get b!"html_ext")
        ((List.range (pageRounds v)).map fun i => decNat (i + 1)) (by
          intro x hx
          obtain ⟨i, _, rfl⟩ := List.mem_map.1 hx
          exact ⟨decNat_ne_nil _, C53.slashFirst_decNat _⟩)
      rw [List.map_map, List.map_map] at e
      rw [outputs, List.map_map]
      exact e
  · unfold Site.paginationTagsOutputs paginationTags
    rw [tagsIfPosts_eq]
    have he := enabled_iff s b!"posts_per_page"
    by_cases hc : perPage s b!"posts_per_page" = 0
    · rw [if_pos hc, if_pos (by simpa using fun h' => he.1 h' hc)]
      exact ⟨[], rfl, rfl⟩
    · rw [if_neg hc, if_neg (by simpa using he.2 hc), tagPages_eq s run vt _ ht]
      refine ⟨_, rfl, ?_⟩
      rw [paths, outputs, tagOutputs_eq, List.map_map, List.map_flatMap, List.map_flatMap]
      apply List.flatMap_congr
      intro tag htag
      rw [List.map_map, List.map_map]
      apply List.map_congr_left
      intro i _
      simp only [Function.comp]
      rw [show s.tagPageName tag (i + 1) = some _ from C53.tagPage_eq _ _ _ _ _ _ _ (siteTags_ok h tag htag).1,
        file_eq, Option.map_some, at_path, outDir, tagPathOf_abs _ _ h.outDir]
      rfl

/-! ## A site -/

/-- The defaults, with two posts on a page. -/
def table : Trie Str :=
  MakeSettings.defaultSettings.foldl (fun t p => match p.2 with
    | none => t
    | some v => set t p.1 (if p.1 = b!"posts_per_page" then b!"2" else v)) .nil

/-- Three posts and a page. The listing of the tag "x" is up to date. -/
def site (outDir : Str) : Site where
  cfg := ⟨.nil, table, some [b!"one", b!"two", b!"three"], some [b!"about"], none, some [b!"x", b!"y"]⟩
  root := b!"/site"
  settingsFile := b!"/site/blogcfile"
  outDir := outDir
  blogc := b!"'blogc'"
  dev := false
  deployed := b!"/tmp/feed"
  stat := fun p => if p = b!"/site/_build/tag/x/index.html" then some (2, 0) else
    if p ∈ [b!"/site/blogcfile", b!"/site/templates/main.tmpl", b!"/site/content/post/one.txt",
      b!"/site/content/post/two.txt", b!"/site/content/post/three.txt"] then some (1, 0) else none
  disk := fun _ => .nil

theorem site_ok (d : Str) (hd : d ≠ []) : Ok (site d) where
  settingsFile := rfl
  outDir := hd
  contentDir := ⟨b!"content", rfl, by decide⟩
  templateDir := show table.lookup b!"template_dir" |>.getD [] |> (· ≠ []) by decide +kernel
  mainTemplate := rfl
  htmlExt := rfl
  atomExt := rfl
  dateFormat := rfl
  perPage := rfl
  atomPerPage := rfl
  listingEntry := show table.lookup b!"listing_entry" ≠ _ by decide +kernel
  posts := show ∀ x ∈ [b!"one", b!"two", b!"three"], x ≠ [] ∧ slashFirst (some x) = false by decide
  pages := show ∀ x ∈ [b!"about"], x ≠ [] ∧ slashFirst (some x) = false by decide
  tags := show ∀ x ∈ [b!"x", b!"y"], x ≠ [] ∧ slashFirst (some x) = false by decide

/-- The runs wanted for two pages. -/
example : (pagination (site b!"_build") 2).map (·.output) =
    [b!"/site/_build/page/1/index.html", b!"/site/_build/page/2/index.html"] := by decide +kernel

example : ((pagination (site b!"_build") 2).map fun w => w.vars.lookup b!"FILTER_PAGE") =
    [some b!"1", some b!"2"] := by decide +kernel

/-- Only the listing of "y" has to be built. -/
example : (tags (site b!"_build")).map (fun w => (w.output, stale (site b!"_build").stat w)) =
    [(b!"/site/_build/tag/x/index.html", false), (b!"/site/_build/tag/y/index.html", true)] := by decide +kernel

example : ((site b!"_build").tagsExec (fun _ => 0) (site b!"_build").tagsOutputs).1.map (fun j =>
    (j.output.path, j.vars.lookup b!"FILTER_TAG", j.sources.filterMap fun o => o.map (·.path))) =
    [(b!"/site/_build/tag/y/index.html", some b!"y",
      [b!"/site/content/post/one.txt", b!"/site/content/post/two.txt", b!"/site/content/post/three.txt"])] := by
  decide +kernel

/-- blogc prints 1 for a tag and 2 for all posts. -/
def shell : Shell := fun cmd _ =>
  if SysInfo.contains b!"FILTER_TAG" cmd then some (0, some b!"1\n") else some (0, some b!"2\n")

example : (site b!"_build").lastPage shell = .ok (some b!"2") := by rfl

example : ∀ t ∈ siteTags (site b!"_build"), (site b!"_build").lastPageOf shell t = .ok (some b!"1") := by
  intro t ht
  have : t = b!"x" ∨ t = b!"y" := by simpa [siteTags, site] using ht
  rcases this with rfl | rfl <;> rfl

/-- The rule ends at the first run that fails. -/
example : ((site b!"_build").postsExec (fun j => if j.output.path = b!"/site/_build/post/two/index.html" then 1
    else 0) (site b!"_build").postsOutputs).1.map (fun j => j.output.path) =
    [b!"/site/_build/post/one/index.html", b!"/site/_build/post/two/index.html"] := by decide +kernel

/-- With an empty OUTPUT_DIR, outputs go to the root of the filesystem, not to the
directory of the settings file. -/
theorem empty_output_violated :
    (site b!"").indexOutputs.map (fun o => o.map (·.path)) = [some b!"/index.html"] ∧
      (index (site b!"")).map (·.output) = [b!"/site//index.html"] := by
  constructor <;> decide +kernel

end Blogc.C86
