import Verif.Spec.Html

/-!
# The inline elements of man/blogc-source.7, with their HTML

Written from the section "SOURCE CONTENT - INLINE ELEMENTS" of the manual.
-/

namespace Blogc.Spec

open Blogc

/-- The HTML of one character: a reference for the characters that have one. -/
def shown (c : Byte) : Str :=
  match references.find? (fun r => r.2 == c) with
  | some (r, _) => c!"&" :: r
  | none => [c]

/-- The HTML of a text without markup. -/
def shownAll (s : Str) : Str := s.flatMap shown

/-- `s` stands for `u` and does not contain the closing byte `d`: a backslash stands for the
byte after it, whichever it is; any other byte stands for itself. -/
inductive Upto (d : Byte) : Str → Str → Prop where
  | nil : Upto d [] []
  | pair (x : Byte) {s u : Str} : Upto d s u → Upto d (c!"\\" :: x :: s) (x :: u)
  | byte {c : Byte} {s u : Str} : c ≠ c!"\\" → c ≠ d → Upto d s u → Upto d (c :: s) (c :: u)

/-- `s` does not contain two closing bytes `d` in a row, nor one at its end, other than after a
backslash. -/
inductive NoPair (d : Byte) : Str → Prop where
  | nil : NoPair d []
  | pair (x : Byte) {s : Str} : NoPair d s → NoPair d (c!"\\" :: x :: s)
  | byte {c : Byte} {s : Str} : c ≠ c!"\\" → (c = d → ∃ x r, s = x :: r ∧ x ≠ d) → NoPair d s →
      NoPair d (c :: s)

/-- Reading `s` from nesting depth `n` ends at depth `m`, without leaving the outermost bracket. -/
inductive Brackets : Nat → Str → Nat → Prop where
  | nil (n : Nat) : Brackets n [] n
  | pair (x : Byte) {n m : Nat} {s : Str} : Brackets n s m → Brackets n (c!"\\" :: x :: s) m
  | opens {n m : Nat} {s : Str} : Brackets (n + 1) s m → Brackets n (c!"[" :: s) m
  | closes {n m : Nat} {s : Str} : Brackets (n + 1) s m → Brackets (n + 2) (c!"]" :: s) m
  | byte {c : Byte} {n m : Nat} {s : Str} : c ≠ c!"\\" → c ≠ c!"[" → c ≠ c!"]" → Brackets n s m →
      Brackets n (c :: s) m

/-- The text of a link: it does not start with `[`, and the brackets after its first byte are
nested. -/
def LinkText (t : Str) : Prop := ∃ c r, t = c :: r ∧ c ≠ c!"[" ∧ Brackets 1 r 1

/-- White space allowed between the two parts of links and images. -/
def Gap (s : Str) : Prop := ∀ c ∈ s, c = c!" " ∨ c = c!"\t" ∨ c = c!"\n" ∨ c = c!"\r"

/-- `Inline s h`: the text `s` is written with the inline elements of the manual, and its HTML
is `h`. Each rule is one element followed by more text. -/
inductive Inline : (s h : Str) → Prop where
  | nil : Inline [] []
  /-- ordinary characters -/
  | char {c : Byte} {s h : Str} : c ∉ b!"\\*_`[!- " → Inline s h → Inline (c :: s) (shown c ++ h)
  /-- a backslash takes away the meaning of the next character -/
  | escape (c : Byte) {s h : Str} : Inline s h → Inline (c!"\\" :: c :: s) (shown c ++ h)
  /-- blanks inside a line -/
  | spaces {n : Nat} {s h : Str} : (∀ r, s ≠ c!" " :: r) →
      (n = 1 ∨ ∃ c r, s = c :: r ∧ c ≠ c!"\n" ∧ c ≠ c!"\r") → Inline s h →
      Inline (List.replicate n c!" " ++ s) (List.replicate n c!" " ++ h)
  /-- two or more blanks at the end of a line -/
  | lineBreak {n : Nat} {nl : Byte} {s h : Str} : 2 ≤ n → (nl = c!"\n" ∨ nl = c!"\r") → Inline s h →
      Inline (List.replicate n c!" " ++ nl :: s) (b!"<br />" ++ nl :: h)
  /-- the same at the end of the text -/
  | lastBreak {n : Nat} : 2 ≤ n → Inline (List.replicate n c!" ") b!"<br />"
  /-- one dash -/
  | dash {s h : Str} : (∀ r, s ≠ c!"-" :: r) → Inline s h → Inline (c!"-" :: s) (c!"-" :: h)
  | enDash {s h : Str} : (∀ r, s ≠ c!"-" :: r) → Inline s h →
      Inline (b!"--" ++ s) (b!"&ndash;" ++ h)
  | emDash {s h : Str} : Inline s h → Inline (b!"---" ++ s) (b!"&mdash;" ++ h)
  /-- an exclamation mark that does not begin an image -/
  | bang {s h : Str} : (∀ r, s ≠ c!"[" :: r) → Inline s h → Inline (c!"!" :: s) (c!"!" :: h)
  | italic {d : Byte} {t u ht s h : Str} : (d = c!"*" ∨ d = c!"_") → t ≠ [] → Upto d t u →
      Inline t ht → Inline s h → Inline (d :: t ++ d :: s) (b!"<em>" ++ ht ++ b!"</em>" ++ h)
  | bold {d : Byte} {t ht s h : Str} : (d = c!"*" ∨ d = c!"_") → NoPair d t →
      Inline t ht → Inline s h →
      Inline (d :: d :: t ++ d :: d :: s) (b!"<strong>" ++ ht ++ b!"</strong>" ++ h)
  | code {t u s h : Str} : t ≠ [] → Upto c!"`" t u → Inline s h →
      Inline (c!"`" :: t ++ c!"`" :: s) (b!"<code>" ++ shownAll t ++ b!"</code>" ++ h)
  | codeDouble {t s h : Str} : NoPair c!"`" t → Inline s h →
      Inline (b!"``" ++ t ++ b!"``" ++ s) (b!"<code>" ++ shownAll t ++ b!"</code>" ++ h)
  | image {alt alt' gap url url' s h : Str} : Upto c!"]" alt alt' → Gap gap → Upto c!")" url url' →
      Inline s h →
      Inline (b!"![" ++ alt ++ b!"]" ++ gap ++ b!"(" ++ url ++ b!")" ++ s)
        (b!"<img src=\"" ++ url' ++ b!"\" alt=\"" ++ alt' ++ b!"\">" ++ h)
  | link {t ht gap url url' s h : Str} : LinkText t → Inline t ht → Gap gap → Upto c!")" url url' →
      Inline s h →
      Inline (b!"[" ++ t ++ b!"]" ++ gap ++ b!"(" ++ url ++ b!")" ++ s)
        (b!"<a href=\"" ++ url' ++ b!"\">" ++ ht ++ b!"</a>" ++ h)
  | autoLink {url url' s h : Str} : NoPair c!"]" url → Upto 0 url url' → Inline s h →
      Inline (b!"[[" ++ url ++ b!"]]" ++ s)
        (b!"<a href=\"" ++ url' ++ b!"\">" ++ url' ++ b!"</a>" ++ h)

end Blogc.Spec
