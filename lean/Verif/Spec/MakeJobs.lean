import Verif.Model.MakeSite
import Verif.Spec.Map
import Verif.Props.C53
import Verif.Props.C54

/-!
# The runs of blogc that a build is meant to make, from blogc-make(1) and
blogcfile(5)
-/

namespace Blogc.Spec.MakeJobs

open Blogc Blogc.Make
open Blogc.C53 (slashed pathOf tagPathOf)
open Blogc.C54 (OldestFirst)

/-- A run of blogc. -/
structure Wanted where
  /-- The file written. -/
  output : Str
  /-- The variables of the rule. -/
  vars : List (Str × Str)
  /-- The slug, for posts and pages. -/
  slug : Option Str
  /-- Whether it lists entries. -/
  listing : Bool
  /-- The entry shown on listings. -/
  entry : Option Str
  template : Str
  sources : List Str
  /-- The output has to be built again if one of these files is newer. -/
  inputs : List Str
  deriving DecidableEq

/-! ## Files -/

/-- A file of a directory given in the settings, relative to the settings file. -/
def inDir (s : Site) (dir name : Str) : Str := absPath s.root dir ++ b!"/" ++ name

/-- The directory of outputs. -/
def outDir (s : Site) : Str := absPath s.root s.outDir

/-- The directory of sources. -/
def contentDir (s : Site) : Str := absPath s.root (s.getStr b!"content_dir")

def mainTemplate (s : Site) : Str := inDir s (s.getStr b!"template_dir") (s.getStr b!"main_template")

/-- The template of feeds: the one of the settings, or the default one. -/
def atomTemplate (s : Site) : Str :=
  match s.get b!"atom_template" with
  | some t => inDir s (s.getStr b!"template_dir") t
  | none => absPath s.root s.deployed

/-- The source of a post. -/
def postSource (s : Site) (slug : Str) : Str :=
  pathOf (contentDir s) (s.get b!"blog_prefix") (s.get b!"post_prefix") slug (s.get b!"source_ext")

/-- The source of a page. -/
def pageSource (s : Site) (slug : Str) : Str :=
  pathOf (contentDir s) none none slug (s.get b!"source_ext")

def postSources (s : Site) : List Str := (s.cfg.posts.getD []).map (postSource s)

def listingEntry (s : Site) : Option Str :=
  (s.get b!"listing_entry").map fun e =>
    pathOf (contentDir s) (s.get b!"blog_prefix") none e (s.get b!"source_ext")

/-- The path of a listing without a slug: the prefixes and the extension. If the
extension is not a file of a directory, and there is no prefix of the listing, the
file is called "index". -/
def listingPath (dir : Str) (gprefix pre ext : Option Str) : Str :=
  dir ++ slashed [gprefix] ++
    (if have? pre then slashed [pre] else if slashFirst ext then [] else b!"/index") ++ text ext

/-! ## Variables -/

/-- The number of posts per page of a setting. -/
def perPage (s : Site) (option : Str) : Int := (strtol (s.getStr option)).1

/-- The first page, unless the number of posts per page is negative. -/
def firstPage (s : Site) (option : Str) : List (Str × Str) :=
  if perPage s option < 0 then [] else [(b!"FILTER_PER_PAGE", s.getStr option), (b!"FILTER_PAGE", b!"1")]

/-- The order of the posts: blogc(1) sorts with the newest first, and the settings
file lists the posts with the oldest first. -/
def ordering (s : Site) (option : Str) : List (Str × Str) :=
  let sort := strToBool (s.get b!"posts_sort")
  (if sort = OldestFirst (s.get option) then [(b!"FILTER_REVERSE", b!"1")] else []) ++
    if sort then [(b!"FILTER_SORT", b!"1")] else []

def naming (date rule type : Str) : List (Str × Str) :=
  [(b!"MAKE_TYPE", type), (b!"MAKE_RULE", rule), (b!"DATE_FORMAT", date)]

/-! ## Rules -/

/-- A listing of all posts with the main template. -/
def listing (s : Site) (output : Str) (vars : List (Str × Str)) : Wanted where
  output := output
  vars := vars
  slug := none
  listing := true
  entry := listingEntry s
  template := mainTemplate s
  sources := postSources s
  inputs := [s.settingsFile, mainTemplate s] ++ (listingEntry s).toList ++ postSources s

/-- A feed. -/
def feed (s : Site) (output : Str) (vars : List (Str × Str)) : Wanted where
  output := output
  vars := vars
  slug := none
  listing := true
  entry := none
  template := atomTemplate s
  sources := postSources s
  inputs := [s.settingsFile] ++ (if (s.get b!"atom_template").isSome then [atomTemplate s] else []) ++
    postSources s

/-- A post or a page. -/
def single (s : Site) (output source slug : Str) (vars : List (Str × Str)) : Wanted where
  output := output
  vars := vars
  slug := some slug
  listing := false
  entry := none
  template := mainTemplate s
  sources := [source]
  inputs := [s.settingsFile, mainTemplate s, source]

def index (s : Site) : List Wanted :=
  if s.cfg.posts = none ∨ perPage s b!"posts_per_page" = 0 then []
  else [listing s (listingPath (outDir s) (s.get b!"blog_prefix") (s.get b!"index_prefix") (s.get b!"html_ext"))
    (naming (s.getStr b!"date_format") b!"index" b!"post" ++ ordering s b!"html_order" ++
      firstPage s b!"posts_per_page")]

def atom (s : Site) : List Wanted :=
  if s.cfg.posts = none ∨ perPage s b!"atom_posts_per_page" = 0 then []
  else [feed s (listingPath (outDir s) (s.get b!"blog_prefix") (s.get b!"atom_prefix") (s.get b!"atom_ext"))
    (naming b!"%Y-%m-%dT%H:%M:%SZ" b!"atom" b!"atom" ++ ordering s b!"atom_order" ++
      firstPage s b!"atom_posts_per_page")]

/-- The tags of the site. -/
def siteTags (s : Site) : List Str := if s.cfg.posts = none then [] else s.cfg.tags.getD []

def atomTags (s : Site) : List Wanted :=
  if perPage s b!"atom_posts_per_page" = 0 then []
  else (siteTags s).map fun tag =>
    feed s (pathOf (outDir s) (s.get b!"blog_prefix") (s.get b!"atom_prefix") tag (s.get b!"atom_ext"))
      ((b!"FILTER_TAG", tag) :: (naming b!"%Y-%m-%dT%H:%M:%SZ" b!"atom_tags" b!"atom" ++
        ordering s b!"atom_order" ++ firstPage s b!"atom_posts_per_page"))

def tags (s : Site) : List Wanted :=
  if perPage s b!"posts_per_page" = 0 then []
  else (siteTags s).map fun tag =>
    listing s (pathOf (outDir s) (s.get b!"blog_prefix") (s.get b!"tag_prefix") tag (s.get b!"html_ext"))
      ((b!"FILTER_TAG", tag) :: (naming (s.getStr b!"date_format") b!"tags" b!"post" ++
        ordering s b!"html_order" ++ firstPage s b!"posts_per_page"))

/-- The variables of page `n`. -/
def pageVars (s : Site) (rule : Str) (n : Nat) : List (Str × Str) :=
  (b!"FILTER_PAGE", decNat n) :: (naming (s.getStr b!"date_format") rule b!"post" ++
    ordering s b!"html_order" ++ [(b!"FILTER_PER_PAGE", s.getStr b!"posts_per_page")])

/-- `count` pages. -/
def pagination (s : Site) (count : Nat) : List Wanted :=
  if s.cfg.posts = none ∨ perPage s b!"posts_per_page" = 0 then []
  else (List.range count).map fun i =>
    listing s (pathOf (outDir s) (s.get b!"blog_prefix") (s.get b!"pagination_prefix") (decNat (i + 1))
      (s.get b!"html_ext")) (pageVars s b!"pagination" (i + 1))

/-- `count tag` pages for each tag. -/
def paginationTags (s : Site) (count : Str → Nat) : List Wanted :=
  if perPage s b!"posts_per_page" = 0 then []
  else (siteTags s).flatMap fun tag => (List.range (count tag)).map fun i =>
    listing s (tagPathOf (outDir s) (s.get b!"blog_prefix") (s.get b!"tag_prefix") (s.get b!"pagination_prefix")
      tag (i + 1) (s.get b!"html_ext"))
      ((b!"FILTER_TAG", tag) :: pageVars s b!"pagination_tags" (i + 1))

def posts (s : Site) : List Wanted :=
  (s.cfg.posts.getD []).map fun slug =>
    single s (pathOf (outDir s) (s.get b!"blog_prefix") (s.get b!"post_prefix") slug (s.get b!"html_ext"))
      (postSource s slug) slug
      (naming (s.getStr b!"date_format") b!"posts" b!"post" ++ ordering s b!"html_order" ++ [(b!"IS_POST", b!"1")])

def pages (s : Site) : List Wanted :=
  (s.cfg.pages.getD []).map fun slug =>
    single s (pathOf (outDir s) none none slug (s.get b!"html_ext")) (pageSource s slug) slug
      (naming (s.getStr b!"date_format") b!"pages" b!"page")

/-! ## What a rule does -/

/-- A table made by insertions. -/
def Filled (t : Trie Str) : Prop := ∃ h, Blogc.Spec.CKeys h ∧ t = (Trie.inserts h).1

/-- A table holds the variables. -/
structure Describes (t : Trie Str) (l : List (Str × Str)) : Prop where
  filled : Filled t
  lookup : ∀ k, NulFree k → t.lookup k = l.lookup k

/-- A call of blogc is the run wanted. -/
structure Fits (w : Wanted) (j : Job) : Prop where
  output : j.output.path = w.output
  vars : Describes j.vars w.vars
  locals : match w.slug with
    | none => j.locals = none
    | some g => ∃ t, j.locals = some t ∧ Describes t [(b!"MAKE_SLUG", g)]
  listing : j.listing = w.listing
  entry : j.entry.map (·.path) = w.entry
  template : j.template.map (·.path) = some w.template
  input : j.input = .ok (w.sources.flatMap (· ++ b!"\n"))

/-- One time is later than another. -/
def Later (a b : Int × Int) : Prop := b.1 < a.1 ∨ (a.1 = b.1 ∧ b.2 < a.2)

instance (a b : Int × Int) : Decidable (Later a b) := inferInstanceAs (Decidable (_ ∨ _))

/-- The output has to be built: it or one of the inputs is missing, or an input is
newer. -/
def stale (stat : Str → Option (Int × Int)) (w : Wanted) : Bool :=
  match stat w.output with
  | none => true
  | some t => w.inputs.any fun i => match stat i with
    | none => true
    | some u => decide (Later u t)

/-- The jobs and the status of a rule: the runs wanted for the outputs that have
to be built, in order, up to the first that fails; its status, or 0. -/
def Does (stat : Str → Option (Int × Int)) (exec : Job → Int) (ws : List Wanted) (r : List Job × Int) : Prop :=
  ∃ n, List.Forall₂ Fits ((ws.filter (stale stat)).take n) r.1 ∧
    (r.2 = 0 → n = (ws.filter (stale stat)).length ∧ ∀ j ∈ r.1, exec j = 0) ∧
    (r.2 ≠ 0 → ∃ js j, r.1 = js ++ [j] ∧ exec j = r.2 ∧ ∀ j ∈ js, exec j = 0)

/-- The settings that the rules rely on. All of these have defaults; see
`C86.empty_output_violated` for an empty directory. -/
structure Ok (s : Site) : Prop where
  settingsFile : s.settingsFile.head? = some c!"/"
  outDir : s.outDir ≠ []
  contentDir : ∃ d, s.get b!"content_dir" = some d ∧ d ≠ []
  templateDir : s.getStr b!"template_dir" ≠ []
  mainTemplate : (s.get b!"main_template").isSome
  htmlExt : have? (s.get b!"html_ext") = true
  atomExt : have? (s.get b!"atom_ext") = true
  dateFormat : (s.get b!"date_format").isSome
  perPage : (s.get b!"posts_per_page").isSome
  atomPerPage : (s.get b!"atom_posts_per_page").isSome
  listingEntry : s.get b!"listing_entry" ≠ some []
  posts : ∀ x ∈ s.cfg.posts.getD [], x ≠ [] ∧ slashFirst (some x) = false
  pages : ∀ x ∈ s.cfg.pages.getD [], x ≠ [] ∧ slashFirst (some x) = false
  tags : ∀ x ∈ s.cfg.tags.getD [], x ≠ [] ∧ slashFirst (some x) = false

end Blogc.Spec.MakeJobs
