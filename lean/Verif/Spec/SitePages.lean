import Verif.Spec.Incremental
import Verif.Spec.Request
import Verif.Spec.NoLeak
import Verif.Spec.MakeSettings
import Verif.Spec.ConfigLayout
import Verif.Model.BuildProgram

/-!
# The pages of a site
-/

namespace Blogc.Spec.SitePages

open Blogc Blogc.Make Blogc.Spec Blogc.Spec.Page Blogc.Spec.MakeJobs Blogc.Spec.MakeRun Blogc.Spec.Entries Blogc.Doc

/-- The settings file is written as blogcfile(5) describes, in any layout, with the sections and lines of `doc`. -/
structure SettingsWritten (files : Str → Option Str) (f : Str) (doc : Config.Doc) : Prop where
  text : ∃ bytes, files f = some bytes ∧ WellFormedUtf8 (dropBom bytes) ∧ Config.WrittenDoc doc (dropBom bytes)
  ok : doc.Ok MakeSettings.lists
  acceptable : MakeSettings.Acceptable doc

/-- The settings are those of a document: its variables, its settings or their documented defaults, and its lists. -/
structure SettingsOf (doc : Config.Doc) (cfg : Blogc.MakeSettings.Settings) : Prop where
  global : ∀ k, NulFree k → cfg.global.lookup k = lastValue (MakeSettings.globals doc) k
  settings : ∀ k dflt, (k, dflt) ∈ MakeSettings.documented →
    cfg.settings.lookup k = (doc.get MakeSettings.lists b!"settings" k).or dflt
  posts : cfg.posts = doc.getList MakeSettings.lists b!"posts"
  pages : cfg.pages = doc.getList MakeSettings.lists b!"pages"
  tags : cfg.tags = doc.getList MakeSettings.lists b!"tags"
  copy : cfg.copy = (doc.getList MakeSettings.lists b!"copy").or (doc.getList MakeSettings.lists b!"copy_files")

/-- The sources of the pages of a site. -/
def pageSources (s : Site) : List Str := (s.cfg.pages.getD []).map (pageSource s)

/-- The source files of a site. -/
def siteSources (s : Site) : List Str := postSources s ++ pageSources s ++ (listingEntry s).toList

/-- A number of posts per page is a positive number. -/
def SizeOk (s : Site) (option : Str) : Prop :=
  Digits (s.getStr option) ∧ 0 < numeral (s.getStr option) ∧ numeral (s.getStr option) < 2 ^ 62

/-- The site is written as the manuals describe: `files` are the texts of the files, and `f` is written as `post f`. `m`
is the limit for tables of contents. -/
structure Written (s : Site) (files seconds : Str → Option Str) (post : Str → Post) (time : Str → Int) (m : Int) :
    Prop where
  depth : Depth (s.cfg.global.lookup b!"TOCTREE_MAXDEPTH") m
  /-- the user defines none of the variables by which blogc-make tells blogc what to list -/
  global : ∀ k ∈ [b!"FILTER_SORT", b!"FILTER_REVERSE", b!"FILTER_TAG", b!"FILTER_PAGE", b!"FILTER_PER_PAGE",
    b!"LAST_PAGE"], s.cfg.global.lookup k = none
  size : SizeOk s b!"posts_per_page"
  feedSize : SizeOk s b!"atom_posts_per_page"
  few : (postSources s).length < 2 ^ 24
  posts : ∀ f ∈ siteSources s, f ≠ [] ∧ ∃ bytes, files f = some bytes ∧ (post f).Written bytes
  /-- all posts have a date, or none -/
  dates : (∀ f ∈ postSources s, (post f).header b!"DATE" ≠ none) ∨ ∀ f ∈ postSources s, (post f).header b!"DATE" = none
  sorted : ∀ v, s.get b!"posts_sort" = some v → TrueWord v → Request.Timed seconds post time (postSources s)

/-- The posts with a tag. -/
def HasTag (post : Str → Post) (tag f : Str) : Prop := ∃ tags, (post f).header b!"TAGS" = some tags ∧ Word tag tags

open Classical in
noncomputable def withTag (post : Str → Post) (tag : Str) (l : List Str) : List Str := l.filter fun f => decide (HasTag post tag f)

/-- The numbers of pages, for all posts and for those with a tag. -/
structure Counted (s : Site) (post : Str → Post) (count : Nat) (counts : Str → Nat) : Prop where
  all : IsPageCount (numeral (s.getStr b!"posts_per_page")) (postSources s).length count
  tag : ∀ tag ∈ siteTags s, IsPageCount (numeral (s.getStr b!"posts_per_page")) (withTag post tag (postSources s)).length
    (counts tag)

/-- The runs of blogc that make up the site. -/
def runs (s : Site) (count : Nat) (counts : Str → Nat) : List Wanted :=
  index s ++ atom s ++ atomTags s ++ pagination s count ++ paginationTags s counts ++ posts s ++ tags s ++ pages s

/-- A template file is written with the items `ts`, which mean `t`. -/
structure TemplateWritten (files : Str → Option Str) (f : Str) (ts : List Tokens.Tok) (t : T) : Prop where
  text : ∃ bytes, files f = some bytes ∧ dropBom bytes = Tokens.print ts
  utf8 : WellFormedUtf8 (Tokens.print ts)
  tokens : Tokens.Ok ts
  ok : Doc.Ok false false t
  meaning : Tokens.meaning false ts = nodes t

/-- The global variables of a run. -/
def vars (s : Site) (version : Str) (w : Wanted) : Str → Option Str := value s version (ownVars w)

/-- The text is the page that a run of blogc is meant to write. -/
def RunPage (s : Site) (h : Program.Host) (post : Str → Post) (time : Str → Int) (m : Int) (t : T) (w : Wanted) (text : Str) :
    Prop :=
  ∃ pg, Request.Paged (vars s h.version w) pg ∧
    Request.IsPage h.sys (vars s h.version w) w.listing w.sources w.entry.toList post time m pg t text

end Blogc.Spec.SitePages
