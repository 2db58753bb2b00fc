import Verif.Spec.Html
import Verif.Spec.TextLines

/-!
# The HTML of a content

`T` says which strings are allowed as the targets of links and as the sources and descriptions of images,
`R` which strings may stand as blocks of HTML, and `V` which characters may be shown.
-/

namespace Blogc.Spec

open Blogc

/-- A character that has no meaning in HTML. -/
def ordinary (c : Byte) : Bool :=
  c != c!"&" && c != c!"<" && c != c!">" && c != c!"\"" && c != c!"'" && c != c!"/"

/-- A piece of escaped text: an ordinary character or a reference. -/
def textPiece (V : Byte → Prop) (p : Str) : Prop :=
  (∃ c, V c ∧ ordinary c = true ∧ p = [c]) ∨ ∃ r ∈ references, V r.2 ∧ p = c!"&" :: r.1

/-- Text without markup. -/
inductive Escaped (V : Byte → Prop) : Str → Prop
  | nil : Escaped V []
  | add {s p : Str} : Escaped V s → textPiece V p → Escaped V (s ++ p)

/-- Running text with properly nested elements. -/
inductive Phrasing (T : Str → Prop) (V : Byte → Prop) : Str → Prop
  | text {s : Str} : Escaped V s → Phrasing T V s
  | dash {s : Str} : s = b!"&ndash;" ∨ s = b!"&mdash;" → Phrasing T V s
  | br : Phrasing T V b!"<br />"
  | em {s : Str} : Phrasing T V s → Phrasing T V (b!"<em>" ++ s ++ b!"</em>")
  | strong {s : Str} : Phrasing T V s → Phrasing T V (b!"<strong>" ++ s ++ b!"</strong>")
  | code {s : Str} : Escaped V s → Phrasing T V (b!"<code>" ++ s ++ b!"</code>")
  | link {u s : Str} : T u → Phrasing T V s → Phrasing T V (b!"<a href=\"" ++ u ++ b!"\">" ++ s ++ b!"</a>")
  | auto {u v : Str} : T u → T v → Phrasing T V (b!"<a href=\"" ++ u ++ b!"\">" ++ v ++ b!"</a>")
  | image {u a : Str} : T u → T a → Phrasing T V (b!"<img src=\"" ++ u ++ b!"\" alt=\"" ++ a ++ b!"\">")
  | app {s t : Str} : Phrasing T V s → Phrasing T V t → Phrasing T V (s ++ t)

/-- The inside of a list. -/
inductive Items (T : Str → Prop) (V : Byte → Prop) : Str → Prop
  | ends {e : Str} : (∀ c ∈ e, newline c = true) → Items T V e
  | item {s : Str} : Phrasing T V s → Items T V (b!"<li>" ++ s ++ b!"</li>")
  | app {s t : Str} : Items T V s → Items T V t → Items T V (s ++ t)

/-- An identifier of a header. -/
def plainId (s : Str) : Prop :=
  ∀ c ∈ s, (c!"a" ≤ c ∧ c ≤ c!"z") ∨ (c!"0" ≤ c ∧ c ≤ c!"9") ∨ c = c!"-"

/-- Blocks, one after the other. -/
inductive Flow (T : Str → Prop) (V : Byte → Prop) (R : Str → Prop) : Str → Prop
  | ends {e : Str} : (∀ c ∈ e, newline c = true) → Flow T V R e
  | paragraph {s : Str} : Phrasing T V s → Flow T V R (b!"<p>" ++ s ++ b!"</p>")
  | header {n i s : Str} : n ≠ [] → (∀ c ∈ n, c!"0" ≤ c ∧ c ≤ c!"9") → plainId i → Phrasing T V s →
      Flow T V R (b!"<h" ++ n ++ b!" id=\"" ++ i ++ b!"\">" ++ s ++ b!"</h" ++ n ++ b!">")
  | rule : Flow T V R b!"<hr />"
  | code {s : Str} : Escaped V s → Flow T V R (b!"<pre><code>" ++ s ++ b!"</code></pre>")
  | quote {s : Str} : Flow T V R s → Flow T V R (b!"<blockquote>" ++ s ++ b!"</blockquote>")
  | list {tag s : Str} : tag = b!"ul" ∨ tag = b!"ol" → Items T V s → Flow T V R (b!"<" ++ tag ++ b!">" ++ s ++ b!"</" ++ tag ++ b!">")
  | html {s : Str} : R s → Flow T V R s
  | app {s t : Str} : Flow T V R s → Flow T V R t → Flow T V R (s ++ t)

/-- What a link or image may take over from the text: characters of the text, if the text has a `[`. -/
def Taken (s u : Str) : Prop := c!"[" ∈ s ∧ ∀ c ∈ u, c ∈ s ∨ newline c = true

/-- A character that may be shown: it is in the text, or belongs to a line ending. -/
def Shown (s : Str) (c : Byte) : Prop := c ∈ s ∨ newline c = true

/-- A string that can stand as the value of an attribute and as text, up to references. -/
def Harmless (u : Str) : Prop := ∀ c ∈ u, c ≠ c!"<" ∧ c ≠ c!">" ∧ c ≠ c!"\""

/-- A line that is taken over as HTML: it starts with `<`, possibly inside quotations. -/
def htmlLine (l : Str) : Bool :=
  match l with
  | [] => false
  | c :: _ => c == c!"<" || c == c!">" && (l.dropWhile quoteMark).head? == some c!"<"

example : htmlLine b!"<b>" = true ∧ htmlLine b!"> <b>" = true ∧ htmlLine b!"    <b>" = false ∧ htmlLine b!"a <b>" = false := by
  decide

/-- A block of HTML of the author: it starts with `<` (or is empty), its characters are those of the text, and
the text has such a line. -/
def OwnHtml (s h : Str) : Prop :=
  (∃ l ∈ lines s, htmlLine l = true) ∧ (h = [] ∨ h.head? = some c!"<") ∧ ∀ c ∈ h, c ∈ s ∨ newline c = true

end Blogc.Spec
