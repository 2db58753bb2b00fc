import Verif.Spec.Config

/-!
# What blogcfile(5) says about the settings file
-/

namespace Blogc.Spec.MakeSettings

open Blogc.Spec.Config

/-- A variable name: an uppercase letter, then uppercase letters, digits and `_`. -/
def ValidKey (k : Str) : Prop :=
  ∃ c rest, k = c :: rest ∧ (c!"A" ≤ c ∧ c ≤ c!"Z") ∧
    ∀ x ∈ rest, (c!"A" ≤ x ∧ x ≤ c!"Z") ∨ (c!"0" ≤ x ∧ x ≤ c!"9") ∨ x = c!"_"

/-- The required global variables (man/blogcfile.5.ronn, "Global variables"). -/
def required : List Str :=
  [b!"AUTHOR_NAME", b!"AUTHOR_EMAIL", b!"BASE_DOMAIN", b!"SITE_TITLE", b!"SITE_TAGLINE"]

/-- The settings and their defaults (man/blogcfile.5.ronn, "Settings"), in the
order of the manual. `none` stands for "unset", "false" and "internal template";
the prefix of the index, "unset" in the manual, is the empty prefix. -/
def documented : List (Str × Option Str) :=
  [ (b!"atom_ext", some b!".xml"),
    (b!"atom_order", some b!"DESC"),
    (b!"atom_posts_per_page", some b!"10"),
    (b!"atom_prefix", some b!"atom"),
    (b!"atom_template", none),
    (b!"blog_prefix", none),
    (b!"content_dir", some b!"content"),
    (b!"date_format", some b!"%b %d, %Y, %I:%M %p GMT"),
    (b!"html_ext", some b!"/index.html"),
    (b!"html_order", some b!"DESC"),
    (b!"index_prefix", some b!""),
    (b!"listing_entry", none),
    (b!"locale", none),
    (b!"main_template", some b!"main.tmpl"),
    (b!"pagination_prefix", some b!"page"),
    (b!"post_prefix", some b!"post"),
    (b!"posts_per_page", some b!"10"),
    (b!"posts_sort", none),
    (b!"run_from_make", none),
    (b!"source_ext", some b!".txt"),
    (b!"tag_prefix", some b!"tag"),
    (b!"template_dir", some b!"templates") ]

/-- The sections that are lists; `copy_files` is the old name of `copy`. -/
def lists : List Str := [b!"posts", b!"pages", b!"copy", b!"copy_files", b!"tags"]

/-- The global variables of a document: those of `[global]`, or of its old name
`[environment]` in a document without `[global]`. -/
def globals (d : Doc) : List (Str × Str) :=
  match d.section b!"global" with
  | some s => s.pairs
  | none =>
    match d.section b!"environment" with
    | some s => s.pairs
    | none => []

/-- A document is acceptable: its global variables have valid names, and the
required ones have values that are not empty. -/
def Acceptable (d : Doc) : Prop :=
  (∀ p ∈ globals d, ValidKey p.1) ∧
  ∀ r ∈ required, ∃ v, lastValue (globals d) r = some v ∧ v ≠ []

end Blogc.Spec.MakeSettings
