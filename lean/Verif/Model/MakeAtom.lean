import Verif.Model.MakeFileName
import Verif.Model.Trie

/-!
# Model of src/blogc-make/atom.c
-/

namespace Blogc.Make

open Blogc

/-- What `printf` writes for a format without arguments. A `%` stands for itself
if it is doubled; any other use of `%` needs an argument, or is not allowed. (A
few formats that need no argument but are extensions of some systems count as
undefined too.) -/
def formatText : Str → Res Str
  | [] => .ok []
  | [c] => if c = c!"%" then .ub else .ok [c]
  | c :: d :: r =>
    if c = c!"%" then
      if d = c!"%" then (formatText r).map fun s => c :: s
      else .ub
    else (formatText (d :: r)).map fun s => c :: s

/-- The start of the template, src/blogc-make/atom.c:15-19 (with `%%` written as
printf writes it, here and below). -/
def atomHead : Str :=
  b!"<?xml version=\"1.0\" encoding=\"utf-8\"?>\n" ++
  b!"<feed xmlns=\"http://www.w3.org/2005/Atom\">\n" ++
  b!"  <title type=\"text\">{{ SITE_TITLE }}{% ifdef FILTER_TAG %} - " ++
  b!"{{ FILTER_TAG }}{% endif %}</title>\n" ++
  b!"  <id>{{ BASE_DOMAIN }}{{ BASE_URL }}"

/-- src/blogc-make/atom.c:19-22. -/
def atomSelf : Str :=
  b!"</id>\n" ++
  b!"  <updated>{{ DATE_FIRST_FORMATTED }}</updated>\n" ++
  b!"  <link href=\"{{ BASE_DOMAIN }}{{ BASE_URL }}/\" />\n" ++
  b!"  <link href=\"{{ BASE_DOMAIN }}{{ BASE_URL }}"

/-- src/blogc-make/atom.c:22-31. -/
def atomEntry : Str :=
  b!"\" rel=\"self\" />\n" ++
  b!"  <author>\n" ++
  b!"    <name>{{ AUTHOR_NAME }}</name>\n" ++
  b!"    <email>{{ AUTHOR_EMAIL }}</email>\n" ++
  b!"  </author>\n" ++
  b!"  <subtitle type=\"text\">{{ SITE_TAGLINE }}</subtitle>\n" ++
  b!"  {%- block listing %}\n" ++
  b!"  <entry>\n" ++
  b!"    <title type=\"text\">{{ TITLE }}</title>\n" ++
  b!"    <id>{{ BASE_DOMAIN }}{{ BASE_URL }}"

/-- src/blogc-make/atom.c:31-34. -/
def atomLink : Str :=
  b!"</id>\n" ++
  b!"    <updated>{{ DATE_FORMATTED }}</updated>\n" ++
  b!"    <published>{{ DATE_FORMATTED }}</published>\n" ++
  b!"    <link href=\"{{ BASE_DOMAIN }}{{ BASE_URL }}"

/-- src/blogc-make/atom.c:34-42. -/
def atomEnd : Str :=
  b!"\" />\n" ++
  b!"    <author>\n" ++
  b!"      <name>{{ AUTHOR_NAME }}</name>\n" ++
  b!"      <email>{{ AUTHOR_EMAIL }}</email>\n" ++
  b!"    </author>\n" ++
  b!"    <content type=\"html\"><![CDATA[{{ CONTENT }}]]></content>\n" ++
  b!"  </entry>\n" ++
  b!"  {%- endblock %}\n" ++
  b!"</feed>\n"

/-- src/blogc-make/atom.c:59-62. The prefix is used as a format. -/
def atomStart (blogPrefix : Option Str) : Res Str :=
  match blogPrefix with
  | some b => (formatText b).map fun s => b!"/" ++ s
  | none => .ok []

/-- src/blogc-make/atom.c:57-74: the template of the URL of the feed. Lines 64 and
70 look at the first byte of the prefix and of the extension, which must not be
NULL. -/
def atomUrl (blogPrefix atomPrefix atomExt : Option Str) : Res Str :=
  match atomPrefix, atomExt with
  | some p, some e =>
    (atomStart blogPrefix).map fun url =>
      let url := if p.head?.isSome then url ++ b!"/" else url
      let url := url ++ p ++ b!"{% ifdef FILTER_TAG %}/{{ FILTER_TAG }}"
      let url := if p.head?.isNone && e.head? ≠ some c!"/" then url ++ b!"{% else %}/index" else url
      url ++ b!"{% endif %}" ++ e
  | _, _ => .ub

/-- `bm_atom_generate`, src/blogc-make/atom.c:45-86. `get` looks up a setting. The
name of line 76 is never NULL. -/
def atomGenerate (get : Str → Option Str) : Res Str :=
  (atomUrl (get b!"blog_prefix") (get b!"atom_prefix") (get b!"atom_ext")).map fun url =>
    let post := (generateFilename none (get b!"blog_prefix") (get b!"post_prefix") (some b!"{{ FILENAME }}")
      (get b!"html_ext")).getD []
    atomHead ++ url ++ atomSelf ++ url ++ atomEntry ++ post ++ atomLink ++ post ++ atomEnd

/-- The outcomes of `bm_atom_deploy`. -/
inductive Deployed where
  /-- The error of lines 95-100. -/
  | legacy
  /-- The errors of lines 105-109 and 118-125; a file that was created is removed. -/
  | failed
  /-- The file exists, with this text. -/
  | file (content : Str)
  deriving DecidableEq, Repr

/-- `bm_atom_deploy`, src/blogc-make/atom.c:89-131. `created` is the outcome of
`mkstemp`; `wrote` that of `write`, which may write less than it was given. -/
def atomDeploy (get : Str → Option Str) (created : Bool) (wrote : Option Nat) : Res Deployed :=
  if (get b!"atom_legacy_entry_id").isSome then .ok .legacy
  else if created then
    (atomGenerate get).map fun content =>
      match wrote with
      | none => .failed
      | some n => .file (content.take n)
  else .ok .failed

end Blogc.Make
