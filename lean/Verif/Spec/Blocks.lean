import Verif.Spec.Inline
import Verif.Model.Numbers
import Verif.Model.Strings

/-!
# The block elements of man/blogc-source.7, with their HTML

Written from the section "SOURCE CONTENT - BLOCK ELEMENTS" of the manual. `e` is the line ending of
the text, used for all its lines.
-/

namespace Blogc.Spec

open Blogc

def LineEnding (e : Str) : Prop := e = b!"\n" ∨ e = b!"\r" ∨ e = b!"\r\n" ∨ e = b!"\n\r"

/-- No line ending inside. -/
def OneLine (l : Str) : Prop := ∀ c ∈ l, c ≠ c!"\n" ∧ c ≠ c!"\r"

def Blank (c : Byte) : Prop := c = c!" " ∨ c = c!"\t"

def Blanks (s : Str) : Prop := ∀ c ∈ s, Blank c

def Number (s : Str) : Prop := s ≠ [] ∧ ∀ c ∈ s, c ∈ b!"0123456789"

/-- The text of some lines: every line with its ending. -/
def textLines (e : Str) (ls : List Str) : Str := ls.flatMap (· ++ e)

/-- A line whose first character is not white space. -/
def Indented (l : Str) : Prop := ∃ x r, l = x :: r ∧ ¬ Blank x

/-- The identifier of a header: the title in lower case, with the other characters replaced. -/
def slug (title : Str) : Str :=
  title.map fun c =>
    if c ∈ b!"abcdefghijklmnopqrstuvwxyz0123456789" then c
    else if c ∈ b!"ABCDEFGHIJKLMNOPQRSTUVWXYZ" then c + 32
    else c!"-"

/-- The parts of a document. -/
inductive Piece where
  /-- HTML -/
  | block (h : Str)
  /-- a header: level, title, HTML of the title -/
  | header (level : Nat) (title h : Str)
  /-- a paragraph: lines, HTML of the text -/
  | para (lines : List Str) (h : Str)
  /-- the excerpt separator -/
  | mark
  deriving DecidableEq, Repr

def Piece.html (e : Str) : Piece → Str
  | .block h => h
  | .header n title h =>
    b!"<h" ++ decNat n ++ b!" id=\"" ++ slug title ++ b!"\">" ++ h ++ b!"</h" ++ decNat n ++ b!">" ++ e
  | .para _ h => b!"<p>" ++ h ++ b!"</p>" ++ e
  | .mark => []

/-- The HTML of a document. -/
def docHtml (e : Str) (ps : List Piece) : Str := ps.flatMap (Piece.html e)

/-- The first line of a paragraph: it cannot be taken for another element. -/
inductive ParaStart (top : Bool) : Str → Prop where
  | char {c : Byte} {r : Str} : c ∉ b!".#*+-0123456789 \t<>" → ParaStart top (c :: r)
  /-- dots, but not the excerpt separator -/
  | dots {k : Nat} {x : Byte} {r : Str} : 1 ≤ k → x ≠ c!"." →
      ParaStart top (List.replicate k c!"." ++ x :: r)
  /-- there are no excerpt separators inside blockquotes -/
  | inner {r : Str} : top = false → ParaStart top (c!"." :: r)
  | hashes {k : Nat} {x : Byte} {r : Str} : 1 ≤ k → x ≠ c!"#" → ¬ Blank x →
      ParaStart top (List.replicate k c!"#" ++ x :: r)
  | italic {x : Byte} {r : Str} : x ≠ c!"*" → ¬ Blank x → ParaStart top (c!"*" :: x :: r)
  | marks {d x : Byte} {k : Nat} {r : Str} : d ∈ b!"*+-" → 2 ≤ k → x ≠ d →
      ParaStart top (List.replicate k d ++ x :: r)
  | number {ds : Str} {x : Byte} {r : Str} : Number ds → x ∉ b!"0123456789." →
      ParaStart top (ds ++ x :: r)

/-- An item of a list: the marker with the white space after it, the rest of the line, the
continuation lines (without the indentation), the HTML. -/
structure Item where
  marker : Str
  line : Str
  more : List Str
  html : Str

/-- The lines of an item. Continuation lines are aligned with the text of the first. -/
def Item.source (i : Item) : List Str :=
  (i.marker ++ i.line) :: i.more.map (List.replicate i.marker.length c!" " ++ ·)

def Item.Good (e : Str) (i : Item) : Prop :=
  (∀ l ∈ i.line :: i.more, OneLine l) ∧ Inline (List.intercalate e (i.line :: i.more)) i.html

def listHtml (e tag : Str) (is : List Item) : Str :=
  b!"<" ++ tag ++ b!">" ++ e ++ is.flatMap (fun i => b!"<li>" ++ i.html ++ b!"</li>" ++ e) ++
    b!"</" ++ tag ++ b!">" ++ e

/-- The prefix of the lines of a code block. -/
def CodePrefix (p : Str) : Prop := p ≠ [] ∧ Blanks p

/-- The prefix of the lines of a blockquote. -/
def QuotePrefix (p : Str) : Prop := ∃ ws, p = c!">" :: ws ∧ Blanks ws

/-- Elements of one or more lines that end at a blank line. -/
inductive Block (e : Str) (top : Bool) : List Str → Piece → Prop where
  | para {l : Str} {ls : List Str} {h : Str} : ParaStart top l →
      (∀ x ∈ l :: ls, OneLine x ∧ x ≠ []) → Inline (List.intercalate e (l :: ls)) h →
      Block e top (l :: ls) (.para (l :: ls) h)
  | html {l : Str} {ls : List Str} : (∀ x ∈ (c!"<" :: l) :: ls, OneLine x ∧ x ≠ []) →
      Block e top ((c!"<" :: l) :: ls) (.block (List.intercalate e ((c!"<" :: l) :: ls) ++ e))
  | code {p l : Str} {ls : List Str} : p ≠ [] → Blanks p → Indented l → (∀ x ∈ l :: ls, OneLine x) →
      Block e top ((l :: ls).map (p ++ ·))
        (.block (b!"<pre><code>" ++ List.intercalate e ((l :: ls).map shownAll) ++
          b!"</code></pre>" ++ e))
  | unordered {d : Byte} {ws : Str} {i : Item} {is : List Item} : d ∈ b!"*+-" → ws ≠ [] → Blanks ws →
      Indented i.line → (∀ x ∈ i :: is, x.marker = d :: ws ∧ x.Good e) →
      Block e top ((i :: is).flatMap Item.source) (.block (listHtml e b!"ul" (i :: is)))
  | ordered {i : Item} {is : List Item} : Indented i.line →
      (∀ x ∈ i :: is, (∃ ds ws, x.marker = ds ++ b!"." ++ ws ∧ Number ds ∧ Blanks ws) ∧
        x.marker.length = i.marker.length ∧ x.line ≠ [] ∧ x.Good e) →
      Block e top ((i :: is).flatMap Item.source) (.block (listHtml e b!"ol" (i :: is)))

  /-- Lines that start like a code block or a blockquote, then a line without the prefix and at least
  one more line: they are a paragraph. -/
  | broken {p l y m : Str} {ls ms : List Str} {h : Str} : CodePrefix p ∨ QuotePrefix p → Indented l →
      ¬ p <+: y → (∀ x ∈ (l :: ls).map (p ++ ·) ++ y :: m :: ms, OneLine x ∧ x ≠ []) →
      Inline (List.intercalate e ((l :: ls).map (p ++ ·) ++ y :: m :: ms)) h →
      Block e top ((l :: ls).map (p ++ ·) ++ y :: m :: ms)
        (.para ((l :: ls).map (p ++ ·) ++ y :: m :: ms) h)

/-- `Ended e t s`: after the lines of an element comes `t`, which is the end of the text, or an empty
line followed by `s`. -/
inductive Ended (e : Str) : Str → Str → Prop where
  | last : Ended e [] []
  | blank (s : Str) : Ended e (e ++ s) s

/-- `Doc e top s ps`: the text `s` is written with the block elements of the manual, with the line
ending `e`, and consists of the parts `ps`. `top` is false inside a blockquote. -/
inductive Doc (e : Str) : Bool → Str → List Piece → Prop where
  | nil (top : Bool) : Doc e top [] []
  /-- an empty line -/
  | blank {top : Bool} {s : Str} {ps : List Piece} : Doc e top s ps → Doc e top (e ++ s) ps
  | block {top : Bool} {ls : List Str} {p : Piece} {t s : Str} {ps : List Piece} : Block e top ls p →
      Ended e t s → Doc e top s ps → Doc e top (textLines e ls ++ t) (p :: ps)
  /-- a blockquote: its content is a document again -/
  | quote {top : Bool} {ws l : Str} {ls : List Str} {qs ps : List Piece} {t s : Str} : Blanks ws →
      Indented l → (∀ x ∈ l :: ls, OneLine x) → Doc e false (textLines e (l :: ls)) qs →
      Ended e t s → Doc e top s ps →
      Doc e top (textLines e ((l :: ls).map (c!">" :: ws ++ ·)) ++ t)
        (.block (b!"<blockquote>" ++ docHtml e qs ++ b!"</blockquote>" ++ e) :: ps)
  | header {top : Bool} {k : Nat} {ws title h s : Str} {ps : List Piece} : 1 ≤ k → ws ≠ [] → Blanks ws →
      Indented title → OneLine title → Inline title h → Doc e top s ps →
      Doc e top (List.replicate k c!"#" ++ ws ++ title ++ e ++ s) (.header k title h :: ps)
  /-- a horizontal rule -/
  | rule {top : Bool} {d : Byte} {k : Nat} {s : Str} {ps : List Piece} : d ∈ b!"*+-" → 3 ≤ k →
      Doc e top s ps → Doc e top (List.replicate k d ++ e ++ s) (.block (b!"<hr />" ++ e) :: ps)
  /-- the excerpt separator -/
  | mark {k : Nat} {s : Str} {ps : List Piece} : 2 ≤ k → Doc e true s ps →
      Doc e true (List.replicate k c!"." ++ e ++ e ++ s) (.mark :: ps)

/-- The title of the first header. -/
def firstTitle : List Piece → Option Str
  | [] => none
  | .header _ t _ :: _ => some t
  | _ :: ps => firstTitle ps

/-- The lines of the first paragraph. -/
def firstPara : List Piece → Option (List Str)
  | [] => none
  | .para ls _ :: _ => some ls
  | _ :: ps => firstPara ps

/-- The headers: level, title and its HTML. -/
def headersOf (ps : List Piece) : List (Nat × Str × Str) :=
  ps.filterMap fun | .header n t h => some (n, t, h) | _ => none

/-- The text of some lines as one line, without the white space around each (`strip` is the subject
of C04). -/
def oneText (ls : List Str) : Str := strip (List.intercalate b!" " (ls.map strip))

/-- The parts before the last excerpt separator. -/
def beforeMark : List Piece → Option (List Piece)
  | [] => none
  | .mark :: ps => some (match beforeMark ps with | none => [] | some q => .mark :: q)
  | p :: ps => (beforeMark ps).map (p :: ·)

end Blogc.Spec
