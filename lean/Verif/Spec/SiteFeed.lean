import Verif.Spec.SitePages
import Verif.Spec.Feed

/-!
# The feeds of a site

What a user expects in the feeds of a site whose settings name no template for feeds.
-/

namespace Blogc.Spec.SiteFeed

open Blogc Blogc.Make Blogc.Spec Blogc.Spec.Page Blogc.Spec.MakeJobs Blogc.Spec.SitePages Blogc.Spec.Feed

/-- The posts in the order that the settings ask for: by their dates if `posts_sort` is true, as in the settings file
otherwise; the newest first, unless the option (`html_order` or `atom_order`) is `ASC`. Posts of the same date keep the
order of the settings file, where the oldest come first. -/
structure InOrder (s : Site) (option : Str) (time : Str → Int) (l : List Str) : Prop where
  perm : l.Perm (postSources s)
  fileOldest : ¬ Request.On s.get b!"posts_sort" → C54.OldestFirst (s.get option) = true → l = postSources s
  fileNewest : ¬ Request.On s.get b!"posts_sort" → C54.OldestFirst (s.get option) = false → l = (postSources s).reverse
  dateOldest : Request.On s.get b!"posts_sort" → C54.OldestFirst (s.get option) = true →
    l.Pairwise fun f g => time f ≤ time g
  dateNewest : Request.On s.get b!"posts_sort" → C54.OldestFirst (s.get option) = false →
    l.Pairwise fun f g => time g ≤ time f
  stable : Request.On s.get b!"posts_sort" → ∀ t : Int, l.filter (time · == t) = (postSources s).filter (time · == t)

/-- All posts, or those with a tag. -/
noncomputable def having (post : Str → Post) (l : List Str) : Option Str → List Str
  | none => l
  | some tag => withTag post tag l

/-- The value of a variable of the site: what the `[global]` section of the settings file says. -/
def siteValue (s : Site) (k : Str) : Option Str := s.cfg.global.lookup k

/-- The value of a variable for a post: its header, or else the variable of the site. -/
def postValue (s : Site) (p : Post) (k : Str) : Option Str := (p.header k).or (siteValue s k)

/-- How a date is written in a feed. What cannot be formatted is left as it is. -/
inductive Stamp (sys : Render.Sys) : Option Str → Str → Prop where
  | none : Stamp sys none []
  | date {d out : Str} {tm : DateTime.Tm} : DateTime.parse d = some tm →
      sys.strftime b!"%Y-%m-%dT%H:%M:%SZ" tm = some out → Stamp sys (some d) out
  | invalid {d : Str} :
      (∀ out tm, DateTime.parse d = some tm → sys.strftime b!"%Y-%m-%dT%H:%M:%SZ" tm ≠ some out) → Stamp sys (some d) d

/-- The variables of the site that are shown in a feed. -/
def siteNames : List Str :=
  [b!"SITE_TITLE", b!"SITE_TAGLINE", b!"BASE_DOMAIN", b!"BASE_URL", b!"AUTHOR_NAME", b!"AUTHOR_EMAIL"]

/-- The variables of a post that are shown in a feed, besides its date and its content. -/
def postNames : List Str := [b!"TITLE", b!"BASE_DOMAIN", b!"BASE_URL", b!"AUTHOR_NAME", b!"AUTHOR_EMAIL"]

/-- `text` is the feed of all posts, or of those with a tag: `l` are the first posts, as many as the settings ask for;
`v` are the values for the site, `e f` those for a post, and `link f` is the path of its page. -/
def IsFeed (s : Site) (sys : Render.Sys) (post : Str → Post) (time : Str → Int) (tag : Option Str) (text : Str) : Prop :=
  ∃ (all l : List Str) (v : Str → Str) (e : Str → Str → Str) (link : Str → Str),
    InOrder s b!"atom_order" time all ∧
    l = (having post all tag).take (numeral (s.getStr b!"atom_posts_per_page")) ∧
    (∀ k ∈ siteNames, v k = (siteValue s k).getD []) ∧
    Stamp sys (l.head?.bind fun f => (post f).header b!"DATE") (v b!"DATE_FIRST_FORMATTED") ∧
    (∀ f ∈ l, (∀ k ∈ postNames, e f k = (postValue s (post f) k).getD []) ∧
      e f b!"CONTENT" = docHtml (post f).ending (post f).parts ∧
      Stamp sys ((post f).header b!"DATE") (e f b!"DATE_FORMATTED")) ∧
    (∀ slug ∈ s.cfg.posts.getD [], link (postSource s slug) = postPath s.get slug) ∧
    text = Feed.feed v tag (feedPath s.get tag) (l.map fun f => Feed.entry (e f) (link f))

/-- Sites for which the feeds can be told: -/
structure Usual (s : Site) (post : Str → Post) : Prop where
  noTemplate : s.get b!"atom_template" = none
  settings : Feed.Ok s.get
  utf8 : ∀ k ∈ [b!"blog_prefix", b!"atom_prefix", b!"atom_ext", b!"post_prefix", b!"html_ext"],
    WellFormedUtf8 (s.getStr k)
  /-- a tag has a feed of its own, and a post a page of its own -/
  tags : ∀ t ∈ siteTags s, t ≠ [] ∧ ¬ C53.IsIndex (s.get b!"atom_prefix") t (s.get b!"atom_ext")
  slugs : ∀ g ∈ s.cfg.posts.getD [], g ≠ [] ∧ ¬ C53.IsIndex (s.get b!"post_prefix") g (s.get b!"html_ext") ∧
    (∀ c ∈ g, ¬ Separator c)
  /-- the extension of source files is one extension -/
  ext : ∃ e, s.get b!"source_ext" = some (c!"." :: e) ∧ c!"." ∉ e ∧ ∀ c ∈ e, ¬ Separator c
  /-- no one but blogc gives values to the variables about dates -/
  global : ∀ k ∈ [b!"DATE", b!"DATE_FORMATTED", b!"DATE_FIRST", b!"DATE_FIRST_FORMATTED"], siteValue s k = none
  headers : ∀ f ∈ postSources s, ∀ k ∈ [b!"DATE_FORMAT", b!"DATE_FORMATTED"], (post f).header k = none

end Blogc.Spec.SiteFeed
