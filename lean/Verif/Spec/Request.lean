import Verif.Spec.Page
import Verif.Spec.CommandLine
import Verif.Spec.FileList
import Verif.Spec.Tokens
import Verif.Spec.Entries
import Verif.Spec.Semantics
import Verif.Model.Numbers

/-!
# What blogc is asked for, and the page it writes
-/

namespace Blogc.Spec.Request

open Blogc Blogc.Spec Blogc.Spec.Page Blogc.Spec.CommandLine Blogc.Spec.Entries Blogc.Render Blogc.Doc

/-! ## Which pages are listed

`val` are the global variables. -/

/-- The variable has a value, and says yes. -/
def On (val : Str → Option Str) (k : Str) : Prop := ∃ v, val k = some v ∧ TrueWord v

/-- The order of the files: as given, reversed, newest first, or oldest first; `time` is the time of their dates.
Files of the same time stay as given. -/
structure Ordered (val : Str → Option Str) (time : Str → Int) (names l : List Str) : Prop where
  perm : l.Perm names
  given : ¬ On val b!"FILTER_SORT" → ¬ On val b!"FILTER_REVERSE" → l = names
  reversed : ¬ On val b!"FILTER_SORT" → On val b!"FILTER_REVERSE" → l = names.reverse
  newest : On val b!"FILTER_SORT" → ¬ On val b!"FILTER_REVERSE" → l.Pairwise fun f g => time g ≤ time f
  oldest : On val b!"FILTER_SORT" → On val b!"FILTER_REVERSE" → l.Pairwise fun f g => time f ≤ time g
  stable : On val b!"FILTER_SORT" → ∀ t : Int, l.filter (time · == t) = names.filter (time · == t)

/-- A file has the tag that is asked for. -/
def Tagged (val : Str → Option Str) (p : Post) : Prop :=
  ∀ tag, val b!"FILTER_TAG" = some tag → ∃ tags, p.header b!"TAGS" = some tags ∧ Word tag tags

open Classical in
/-- The files that have the tag. -/
noncomputable def tagged (val : Str → Option Str) (post : Str → Post) (l : List Str) : List Str :=
  l.filter fun f => decide (Tagged val (post f))

/-- The number of entries of a page. -/
inductive PageSize : Option Str → Nat → Prop where
  | default : PageSize none 10
  | given {v : Str} : Digits v → 0 < numeral v → PageSize (some v) (numeral v)

/-- The page that is asked for, if any, and its size. Pages are counted from 1. -/
inductive Paged (val : Str → Option Str) : Option (Nat × Nat) → Prop where
  | all : val b!"FILTER_PAGE" = none → Paged val none
  | page {v : Str} {n : Nat} : val b!"FILTER_PAGE" = some v → Digits v → PageSize (val b!"FILTER_PER_PAGE") n →
      max 1 (numeral v) * n < 2 ^ 63 → Paged val (some (max 1 (numeral v), n))

/-- `l` are the files that are listed, `count` is the number of pages. -/
def Listed (val : Str → Option Str) (post : Str → Post) (time : Str → Int) (names : List Str) (l : List Str) (count : Nat) :
    Option (Nat × Nat) → Prop
  | none => ∃ all, Ordered val time names all ∧ l = tagged val post all
  | some (p, n) => ∃ all, Ordered val time names all ∧ l = page n p (tagged val post all) ∧
      IsPageCount n (tagged val post all).length count

/-! ## Global variables -/

/-- The variables about the first and the last page of a listing. -/
def edge (first last : Option (Str → Option Str)) (k : Str) : Option Str :=
  if k = b!"DATE_FIRST" then first.bind (· b!"DATE")
  else if k = b!"DATE_LAST" then last.bind (· b!"DATE")
  else if k = b!"FILENAME_FIRST" then first.bind (· b!"FILENAME")
  else if k = b!"FILENAME_LAST" then last.bind (· b!"FILENAME")
  else none

/-- The variables about pagination, for the files `l` of a page. -/
def pageValue (count : Nat) (l : List Str) (k : Str) : Option (Nat × Nat) → Option Str
  | none => none
  | some (p, _) =>
    if k = b!"CURRENT_PAGE" then some (decNat p)
    else if k = b!"PREVIOUS_PAGE" then if 1 < p then some (decNat (p - 1)) else none
    else if k = b!"NEXT_PAGE" then if p < count then some (decNat (p + 1)) else none
    else if k = b!"FIRST_PAGE" then if l ≠ [] then some b!"1" else none
    else if k = b!"LAST_PAGE" then if 0 < count then some (decNat count) else none
    else none

/-! ## Requests -/

/-- The date of a file, as seconds since the epoch; `seconds` gives them for a date as it is written. -/
structure Timed (seconds : Str → Option Str) (post : Str → Post) (time : Str → Int) (names : List Str) : Prop where
  dated : ∀ f ∈ names, ∃ d, (post f).header b!"DATE" = some d ∧ seconds d = some (decInt (time f))
  range : ∀ f ∈ names, -(2 ^ 63) ≤ time f ∧ time f < 2 ^ 63
  /-- less than 68 years apart (see C31) -/
  near : ∀ f ∈ names, ∀ g ∈ names, (time f - time g).natAbs < 2 ^ 31

/-- A template is to be rendered: the file `tmpl`, written with the items `ts`. The source files are `names`, those of
the entries are `entries`, and `f` is written as `post f`. `val` are the global variables, `m` is the limit for tables
of contents, and `pg` the page that is asked for. -/
structure Render (seconds : Str → Option Str) (files : Str → Option Str) (val : Str → Option Str) (listing : Bool)
    (names entries : List Str) (post : Str → Post) (time : Str → Int) (tmpl : Str) (ts : List Tokens.Tok) (m : Int)
    (pg : Option (Nat × Nat)) : Prop where
  depth : Depth (val b!"TOCTREE_MAXDEPTH") m
  text : ∃ bytes, files tmpl = some bytes ∧ dropBom bytes = Tokens.print ts
  utf8 : WellFormedUtf8 (Tokens.print ts)
  tokens : Tokens.Ok ts
  /-- one source file, unless a listing is asked for -/
  count : listing = true ∨ names.length = 1
  few : names.length < 2 ^ 24
  /-- entries may be left out with an empty name -/
  sources : ∀ f ∈ names, f ≠ []
  posts : ∀ f, f ∈ names ∨ f ∈ entries → f ≠ [] → ∃ bytes, files f = some bytes ∧ (post f).Written bytes
  /-- all source files have a date, or none -/
  dates : (∀ f ∈ names, (post f).header b!"DATE" ≠ none) ∨ ∀ f ∈ names, (post f).header b!"DATE" = none
  sorted : On val b!"FILTER_SORT" → Timed seconds post time names
  page : Paged val pg

/-- The names that every page may have. -/
def pageNames : List Str := b!"FILENAME" :: Source.contentNames

/-- A name that none of the files gives a value to. -/
structure Absent (names : List Str) (post : Str → Post) (n : Str) : Prop where
  name : n ≠ [] ∧ NulFree n ∧ n ≠ b!"c"
  page : n ∉ pageNames
  header : ∀ f ∈ names, (post f).header n = none

/-- The pages of the entries: none for an empty name, and none unless a listing is asked for. -/
def shownEntries (vars : Str → Table) (listing : Bool) (es : List Str) : List (Option Table) :=
  if listing then es.map fun f => if f = [] then none else some (vars f) else []

/-- `out` is the page that is asked for: every source and every entry has the variables the manual describes
(`Shows`), the pages are listed as asked for (`Listed`), the global variables are those about pagination, those
about the first and the last page and those given, and `Doc.text` is the documented meaning of the template `t`
(see C24). -/
def IsPage (sys : Sys) (val : Str → Option Str) (listing : Bool) (names entries : List Str) (post : Str → Post)
    (time : Str → Int) (m : Int) (pg : Option (Nat × Nat)) (t : T) (out : Str) : Prop :=
  ∃ (l : List Str) (count : Nat) (vars evars : Str → Table) (g : Table),
    Listed val post time names l count pg ∧
    (∀ f ∈ names, Shows f m (post f) (vars f).lookup) ∧
    (∀ f ∈ entries, f ≠ [] → Shows f m (post f) (evars f).lookup) ∧
    (∀ k, NulFree k → g.lookup k =
      ((pageValue count l k pg).or
        (edge (l.head?.map fun f => (vars f).lookup) (l.getLast?.map fun f => (vars f).lookup) k)).or (val k)) ∧
    Doc.text (evaluator sys) ⟨l.map vars, listing⟩ t (shownEntries evars listing entries) g = .ok out

/-! ## Command lines -/

/-- The global variables: the version, and those given with `-D`. -/
def globals (version : Str) (xs : List Opt) (k : Str) : Option Str :=
  lastValue ((b!"BLOGC_VERSION", version) :: xs.filterMap definitionOf) k

/-- The source files: those of the command line, then those listed on the standard input (`-i`). -/
def names (stdin : Str) (xs : List Opt) : List Str :=
  xs.filterMap sourceOf ++ if .stdin ∈ xs then (FileList.lines stdin).filterMap FileList.entry else []

/-- The entries of `-e`. -/
def entries (xs : List Opt) : List Str := xs.filterMap entryOf

/-- A command line to render a template. -/
structure CommandLine (seconds : Str → Option Str) (files : Str → Option Str) (version stdin : Str) (xs : List Opt)
    (post : Str → Post) (time : Str → Int) (tmpl : Str) (ts : List Tokens.Tok) (m : Int) (pg : Option (Nat × Nat)) :
    Prop where
  options : ∀ x ∈ xs, x.Ok
  /-- the list of files is a text, without form feeds and vertical tabs (see C34) -/
  input : ∀ c ∈ stdin, c ≠ 0 ∧ c ≠ 0x0b ∧ c ≠ 0x0c
  print : ∀ x ∈ xs, printOf x = none
  template : (xs.filterMap templateOf).getLast? = some tmpl
  render : Render seconds files (globals version xs) (decide (.listing ∈ xs)) (names stdin xs) (entries xs) post time
    tmpl ts m pg

end Blogc.Spec.Request
