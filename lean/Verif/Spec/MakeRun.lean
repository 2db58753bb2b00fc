import Verif.Model.Main
import Verif.Spec.MakeJobs
import Verif.Spec.Shell
import Verif.Spec.FileList
import Verif.Spec.Utf8
import Verif.Spec.MakeSettings

/-!
# From a run of blogc asked for by blogc-make to the program that runs
-/

namespace Blogc.Spec.MakeRun

open Blogc Blogc.Make
open Blogc.Spec.MakeJobs
open Blogc.Spec.MakeSettings (ValidKey)

/-- The program that the shell starts for a command. A leading assignment is for the
environment, the next word is the executable, and the others are its arguments. -/
def started (env : Main.Env) (cmd input : Str) : Option (Prog Main.Call Main.Outcome) :=
  (Blogc.Shell.words cmd).map fun ws =>
    Main.main { env with stdin := input } ((ws.dropWhile fun w => startsWith w b!"LC_ALL=").drop 1)

/-- The status and the standard output of a program that prints a text and ends, or
ends at once. -/
def finished : Prog Main.Call Main.Outcome → Option (Int × Option Str)
  | .ret (.exit n) => some (n, none)
  | .call (.stdout text) k =>
    match k true with
    | .ret (.exit n) => some (n, if text = [] then none else some text)
    | _ => none
  | _ => none

/-- The shell, when blogc works in the environment `env`. -/
def shell (env : Main.Env) : Make.Shell := fun cmd input => (started env cmd input).bind finished

/-- A C string in UTF-8. -/
def TextOk (v : Str) : Prop := NulFree v ∧ WellFormedUtf8 v

/-- A path that can be sent on a line of its own. -/
structure LineOk (f : Str) : Prop where
  nul : NulFree f
  oneLine : ∀ c ∈ f, c ≠ 0x0a ∧ c ≠ 0x0d
  entry : Spec.FileList.entry f = some f

/-- The executable can be run, the global variables are valid, and there is no quote
in a tag. -/
structure Clean (s : Site) : Prop where
  exe : ∃ exe, Blogc.Shell.words s.blogc = some [exe] ∧ startsWith exe b!"LC_ALL=" = false
  locale : ∀ l, s.get b!"locale" = some l → NulFree l
  tags : ∀ t ∈ s.cfg.tags.getD [], TextOk t ∧ c!"'" ∉ t
  filled : Filled s.cfg.global
  global : ∀ k v, NulFree k → s.cfg.global.lookup k = some v → ValidKey k ∧ TextOk v

/-- The variables of a run: those that come with the run, the global variables of
the settings, the tags and the version of blogc. -/
def value (s : Site) (version : Str) (own : List (Str × Str)) (k : Str) : Option Str :=
  ((if s.dev then [(b!"MAKE_ENV", b!"dev"), (b!"MAKE_ENV_DEV", b!"1")] else []) ++ own).lookup k <|>
    s.cfg.global.lookup k <|>
    ((s.cfg.tags.toList.map fun tags => (b!"MAKE_TAGS", join b!" " tags)) ++
      [(b!"BLOGC_VERSION", version)]).lookup k

/-- What blogc is asked for. -/
structure Asked (s : Site) (env : Main.Env) (o : Main.Opts) (own : List (Str × Str)) (isListing : Bool)
    (name entry tmpl out : Option Str) (files : List Str) : Prop where
  debug : o.debug = false
  listing : o.listing = isListing
  print : o.print = name
  entries : o.entries = if isListing then entry.toList else []
  template : o.template = tmpl
  output : o.output = out
  sources : Main.allSources env o = files
  config : ∀ k, NulFree k → o.config.lookup k = value s env.version own k

/-- The own variables of a run: the slug comes after the others. -/
def ownVars (w : Wanted) : List (Str × Str) :=
  (match w.slug with
    | none => []
    | some g => [(b!"MAKE_SLUG", g)]) ++ w.vars

/-- The texts of a run are valid. -/
structure CleanRun (w : Wanted) : Prop where
  vars : ∀ kv ∈ ownVars w, ValidKey kv.1 ∧ TextOk kv.2
  output : NulFree w.output
  template : NulFree w.template
  entry : ∀ e, w.entry = some e → NulFree e
  sources : ∀ f ∈ w.sources, LineOk f

/-! ## Pagination -/

/-- The posts are shown on pages of `n`, and the user defines none of the variables
by which blogc-make and blogc tell each other about pages. -/
structure Paged (s : Site) (n : Nat) : Prop where
  size : perPage s b!"posts_per_page" = n
  positive : 0 < n
  fits : n < 2 ^ 62
  text : TextOk (s.getStr b!"posts_per_page")
  sources : ∀ f ∈ postSources s, LineOk f
  global : ∀ k ∈ [b!"FILTER_SORT", b!"FILTER_REVERSE", b!"FILTER_TAG", b!"FILTER_PAGE", b!"FILTER_PER_PAGE",
    b!"LAST_PAGE"], s.cfg.global.lookup k = none

/-- The variable that selects a tag. -/
def tagVar (tag : Option Str) : List (Str × Str) := tag.toList.map fun t => (b!"FILTER_TAG", t)

/-- The entries that blogc lists for the posts of the settings file, in the order of
the settings file, all of them or those with a tag, if it is not asked for a page. -/
def AllEntries (s : Site) (env : Main.Env) (tag : Option Str) (all : List (Trie Str)) : Prop :=
  ∃ c c', (∀ k, NulFree k → c.lookup k = value s env.version (tagVar tag ++ ordering s b!"html_order") k) ∧
    Loader.fromFiles env.loader c (postSources s) = .ok (some (all, c'))

/-- A job runs blogc, which loads the entries `l` for the output file `out`, and
knows the number of the last page. -/
def ShowsPage (s : Site) (env : Main.Env) (j : Job) (out : Str) (l : List (Trie Str)) (last : Nat) : Prop :=
  ∃ cmd input o c, j.command s = .ok cmd ∧ j.input = .ok input ∧
    started env cmd input = some (Main.body { env with stdin := input } o) ∧
    o.listing = true ∧ o.print = none ∧ o.output = some out ∧
    Loader.fromFiles env.loader o.config (Main.allSources { env with stdin := input } o) = .ok (some (l, c)) ∧
    c.lookup b!"LAST_PAGE" = some (decNat last)

end Blogc.Spec.MakeRun
