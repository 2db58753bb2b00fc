import Verif.Spec.Blocks
import Verif.Spec.Source
import Verif.Spec.Toctree
import Verif.Spec.Utf8
import Verif.Spec.Numeral

/-!
# The variables of a page

What blogc-source(7) says of a source file: which variables it has, and with which values.
-/

namespace Blogc.Spec.Page

open Blogc Blogc.Spec

/-- A source file as its author sees it: headers and content, the line ending of the content, the
elements the content consists of. -/
structure Post where
  doc : Source.Doc
  ending : Str
  parts : List Piece

/-- The value of a header. -/
def Post.header (p : Post) (k : Str) : Option Str := lastValue (Source.pairs p.doc.headers) k

/-- A limit for the depth of tables of contents, as it is written: there is none, or it is a number. -/
inductive Depth : Option Str → Int → Prop where
  | none : Depth none (-1)
  | some {v : Str} : Digits v → numeral v < 2 ^ 31 → Depth (some v) (numeral v)

/-- The file is written as described in blogc-source(7), in UTF-8 (a byte order mark is ignored), and
`bytes` are its bytes. The content has two bytes or more (see C17). -/
structure Post.Written (p : Post) (bytes : Str) : Prop where
  bytes : dropBom bytes = p.doc.text
  utf8 : WellFormedUtf8 p.doc.text
  doc : p.doc.Ok
  ending : LineEnding p.ending
  parts : Doc p.ending true p.doc.content p.parts
  length : 2 ≤ p.doc.content.length ∧ p.doc.content.length < 2 ^ 63
  depth : ∃ m, Depth (p.header b!"TOCTREE_MAXDEPTH") m

/-- The separators of the components of a path. -/
def Separator (c : Byte) : Prop := c = c!"/" ∨ c = c!"\\"

/-- `base` is the last component of the path `f` without its last extension. -/
def BaseName (f base : Str) : Prop :=
  ∃ dir comp, f = dir ++ comp ∧ (∀ c, dir.getLast? = some c → Separator c) ∧ (∀ c ∈ comp, ¬ Separator c) ∧
    ((c!"." ∉ comp ∧ base = comp) ∨ ∃ ext, c!"." ∉ ext ∧ comp = base ++ c!"." :: ext)

/-- The link to a header in a table of contents. -/
def link (h : Nat × Str × Str) : Str := b!"<a href=\"#" ++ slug h.2.1 ++ b!"\">" ++ h.2.2 ++ b!"</a>"

/-- A header is listed when it is less than `m` levels below the top level; a negative `m` is no limit. -/
def Listed (top : Nat) (m : Int) (h : Nat × Str × Str) : Prop := m < 0 ∨ (h.1 : Int) - top < m

instance (top : Nat) (m : Int) (h : Nat × Str × Str) : Decidable (Listed top m h) :=
  inferInstanceAs (Decidable (_ ∨ _))

/-- The table of contents for the headers `hs` with the limit `m`: nested lists with a link for each header
that is listed, in order, at the depth of its level. There is none without headers or if the limit is 0. -/
inductive Contents (e : Str) (m : Int) (hs : List (Nat × Str × Str)) : Option Str → Prop where
  | none : hs = [] ∨ m = 0 → Contents e m hs none
  | some {top : Nat} {toks : List (Nat × Toctree.Tok)} : m ≠ 0 → (∀ h ∈ hs, top ≤ h.1) → (∃ h ∈ hs, h.1 = top) →
      Toctree.nest 0 (toks.map (·.2)) =
        some ((hs.filter (Listed top m ·)).map fun h => (h.1 - top + 1, link h)) →
      Contents e m hs (some (Toctree.write e toks))

/-- The excerpt: the HTML of what comes before the separator, if there is a separator with something
before it. -/
def Post.excerpt (p : Post) : Str :=
  match beforeMark p.parts with
  | none => docHtml p.ending p.parts
  | some q => if docHtml p.ending q = [] then docHtml p.ending p.parts else docHtml p.ending q

/-- The variables a content gives if there is no header of that name. -/
def Post.generated (p : Post) (toc : Option Str) (k : Str) : Option Str :=
  if k = b!"FIRST_HEADER" then (firstTitle p.parts).map shownAll
  else if k = b!"DESCRIPTION" then (firstPara p.parts).map fun ls => shownAll (oneText ls)
  else if k = b!"TOCTREE" then toc
  else none

/-- The variables of a page. `base` is the name of the file, `toc` the table of contents. -/
def Post.value (p : Post) (base : Str) (toc : Option Str) (k : Str) : Option Str :=
  if k = b!"FILENAME" then some base
  else if k = b!"RAW_CONTENT" then some p.doc.content
  else if k = b!"CONTENT" then some (docHtml p.ending p.parts)
  else if k = b!"EXCERPT" then some p.excerpt
  else (p.header k).or (p.generated toc k)

/-- `Shows f m p l`: the variables `l` are those of the file `f`, written as `p`, where `m` is the limit given for
all files. (`c`, which is not the name of a variable of templates, is used for sorting.) -/
def Shows (f : Str) (m : Int) (p : Post) (l : Str → Option Str) : Prop :=
  ∃ base toc n, BaseName f base ∧
    (if p.header b!"TOCTREE_MAXDEPTH" = none then n = m else Depth (p.header b!"TOCTREE_MAXDEPTH") n) ∧
    Contents p.ending n (headersOf p.parts) toc ∧
    ∀ k, NulFree k → k ≠ b!"c" → l k = p.value base toc k

end Blogc.Spec.Page
