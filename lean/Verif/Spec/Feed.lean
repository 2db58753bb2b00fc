import Verif.Spec.MakeJobs
import Verif.Model.Render

/-!
# The default Atom feed

What the feed of a site looks like when the settings name no feed template.
-/

namespace Blogc.Spec.Feed

open Blogc Blogc.Make
open Blogc.Spec.MakeJobs
open Blogc.C53 (pathOf)

/-- What `{{ n }}` shows outside iterators, with the global variables `g` and those
of an entry (C26, C27 and C76 say what this is). -/
def shown (sys : Render.Sys) (g : Render.Table) (loc : Option Render.Table) (n : Str) : Str :=
  match Render.formatVariable sys g loc ⟨none, none⟩ n with
  | .ok (_, some v) => v
  | _ => []

/-- One post. `v` are its variables, `link` is the path of its page. -/
def entry (v : Str → Str) (link : Str) : Str :=
  b!"\n  <entry>\n" ++
  b!"    <title type=\"text\">" ++ v b!"TITLE" ++ b!"</title>\n" ++
  b!"    <id>" ++ v b!"BASE_DOMAIN" ++ v b!"BASE_URL" ++ link ++ b!"</id>\n" ++
  b!"    <updated>" ++ v b!"DATE_FORMATTED" ++ b!"</updated>\n" ++
  b!"    <published>" ++ v b!"DATE_FORMATTED" ++ b!"</published>\n" ++
  b!"    <link href=\"" ++ v b!"BASE_DOMAIN" ++ v b!"BASE_URL" ++ link ++ b!"\" />\n" ++
  b!"    <author>\n" ++
  b!"      <name>" ++ v b!"AUTHOR_NAME" ++ b!"</name>\n" ++
  b!"      <email>" ++ v b!"AUTHOR_EMAIL" ++ b!"</email>\n" ++
  b!"    </author>\n" ++
  b!"    <content type=\"html\"><![CDATA[" ++ v b!"CONTENT" ++ b!"]]></content>\n" ++
  b!"  </entry>"

/-- The feed. `v` are the variables of the site, `tag` is the tag of the feed (if
any), `self` is the path of the feed, and `entries` are the texts of the posts. -/
def feed (v : Str → Str) (tag : Option Str) (self : Str) (entries : List Str) : Str :=
  b!"<?xml version=\"1.0\" encoding=\"utf-8\"?>\n" ++
  b!"<feed xmlns=\"http://www.w3.org/2005/Atom\">\n" ++
  b!"  <title type=\"text\">" ++ v b!"SITE_TITLE" ++ (tag.elim [] fun t => b!" - " ++ t) ++ b!"</title>\n" ++
  b!"  <id>" ++ v b!"BASE_DOMAIN" ++ v b!"BASE_URL" ++ self ++ b!"</id>\n" ++
  b!"  <updated>" ++ v b!"DATE_FIRST_FORMATTED" ++ b!"</updated>\n" ++
  b!"  <link href=\"" ++ v b!"BASE_DOMAIN" ++ v b!"BASE_URL" ++ b!"/\" />\n" ++
  b!"  <link href=\"" ++ v b!"BASE_DOMAIN" ++ v b!"BASE_URL" ++ self ++ b!"\" rel=\"self\" />\n" ++
  b!"  <author>\n" ++
  b!"    <name>" ++ v b!"AUTHOR_NAME" ++ b!"</name>\n" ++
  b!"    <email>" ++ v b!"AUTHOR_EMAIL" ++ b!"</email>\n" ++
  b!"  </author>\n" ++
  b!"  <subtitle type=\"text\">" ++ v b!"SITE_TAGLINE" ++ b!"</subtitle>" ++
  entries.flatten ++
  b!"\n</feed>\n"

/-- The path, below the output directory, of the feed of all posts or of a tag:
where the rules `atom` and `atom_tags` put it (Spec/MakeJobs.lean). -/
def feedPath (get : Str → Option Str) (tag : Option Str) : Str :=
  match tag with
  | none => listingPath [] (get b!"blog_prefix") (get b!"atom_prefix") (get b!"atom_ext")
  | some t => pathOf [] (get b!"blog_prefix") (get b!"atom_prefix") t (get b!"atom_ext")

/-- The path, below the output directory, of the page of a post: where the rule
`posts` puts it. -/
def postPath (get : Str → Option Str) (slug : Str) : Str :=
  pathOf [] (get b!"blog_prefix") (get b!"post_prefix") slug (get b!"html_ext")

/-- Text that means itself in a template. -/
def Literal (s : Str) : Prop := NulFree s ∧ c!"{" ∉ s

/-- The settings that the feed relies on. -/
structure Ok (get : Str → Option Str) : Prop where
  blogPrefix : ∀ b, get b!"blog_prefix" = some b → Literal b ∧ b ≠ [] ∧ c!"%" ∉ b
  atomPrefix : ∃ p, get b!"atom_prefix" = some p ∧ Literal p
  atomExt : ∃ e, get b!"atom_ext" = some e ∧ Literal e
  postPrefix : ∀ p, get b!"post_prefix" = some p → Literal p
  htmlExt : ∀ e, get b!"html_ext" = some e → Literal e

end Blogc.Spec.Feed
