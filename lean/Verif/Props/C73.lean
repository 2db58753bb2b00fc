import Verif.Lemmas.InlineDoc

/-!
# C73: inline markup written as the manual documents it becomes the documented HTML

`Spec.Inline s h` (Spec/Inline.lean) is the list of inline elements of blogc-source(7), with the
HTML of each, closed under nesting and sequence. `parseInline` is the parser.
-/

namespace Blogc.C73

open Blogc Blogc.Content Blogc.Spec

/-- Every text written with the documented elements, in any nesting and any order, becomes the
documented HTML. What is missing against the manual: the text of a link may be empty or begin
with an escaped bracket (`empty_link_violated`, `link_text_violated`), and a code may end with a
backslash (`code_violated`). -/
theorem documented_partial (s h : Str) (hi : Inline s h) (hn : NulFree s) :
    parseInline s = .ok h := by
  have ht := (parseInline_fine s).ne_out
  obtain ⟨k, hk⟩ := InlineDoc.leads_inline hi s.length s s.length ISt.init hn (Nat.le_refl _)
    ⟨[], [], by simp, rfl, by simp⟩ rfl
  rw [parseInline, inlineInternal] at ht ⊢
  rw [← runL_mono _ k _ ht]
  exact hk _

/-- So a text has at most one reading. -/
theorem unambiguous (s h h' : Str) (h1 : Inline s h) (h2 : Inline s h') (hn : NulFree s) : h = h' := by
  have := (documented_partial s h h1 hn).symm.trans (documented_partial s h' h2 hn)
  exact Run.ok.inj this

/-- Text without any of the special characters is kept, up to the references for HTML. -/
theorem plain (s : Str) (hn : NulFree s) (h : ∀ c ∈ s, c ∉ b!"\\*_`[!- ") :
    parseInline s = .ok (shownAll s) := by
  refine documented_partial s _ ?_ hn
  clear hn
  induction s with
  | nil => exact .nil
  | cons c s ih => exact .char (h c (by simp)) (ih fun x hx => h x (by simp [hx]))

/-- A text in which every character is escaped is shown literally. -/
theorem escaped (s : Str) (hn : NulFree s) :
    parseInline (s.flatMap fun c => [c!"\\", c]) = .ok (shownAll s) := by
  refine documented_partial _ _ ?_ ?_
  · clear hn
    induction s with
    | nil => exact .nil
    | cons c s ih => exact .escape c ih
  · intro b hb
    simp only [List.mem_flatMap, List.mem_cons, List.not_mem_nil, or_false] at hb
    obtain ⟨c, hc, rfl | rfl⟩ := hb
    · decide
    · exact hn _ hc

/-- Code between double backquotes is kept as it is, if it has no backslash and no backquote. -/
theorem code (t : Str) (hn : NulFree t) (h : ∀ c ∈ t, c ≠ c!"\\" ∧ c ≠ c!"`") :
    parseInline (b!"``" ++ t ++ b!"``") = .ok (b!"<code>" ++ shownAll t ++ b!"</code>") := by
  have hp : NoPair c!"`" t := by
    clear hn
    induction t with
    | nil => exact .nil
    | cons c s ih =>
      exact .byte (h c (by simp)).1 (fun e => absurd e (h c (by simp)).2)
        (ih fun x hx => h x (by simp [hx]))
  have := documented_partial _ _ (.codeDouble hp .nil) (by
    intro b hb
    simp only [List.append_nil, List.mem_append] at hb
    rcases hb with (hb | hb) | hb
    · revert b; decide
    · exact hn b hb
    · revert b; decide)
  simpa using this

/-- Full statement for links: any text without brackets, emphasis or other markup can be the text of
a link. It fails for the empty text. -/
theorem empty_link_violated : ¬ ∀ t : Str, (∀ c ∈ t, c ∉ b!"\\*_`[]!- ") → NulFree t →
    parseInline (b!"[" ++ t ++ b!"](u)") = .ok (b!"<a href=\"u\">" ++ shownAll t ++ b!"</a>") := by
  intro h
  exact absurd (h [] (by decide) (by decide)) (by decide +kernel)

/-- Full statement for escapes in the text of a link: it fails if the text begins with one. -/
theorem link_text_violated : ¬ ∀ t : Str, t ≠ [] → NulFree t →
    parseInline (b!"[" ++ (t.flatMap fun c => [c!"\\", c]) ++ b!"](u)") =
      .ok (b!"<a href=\"u\">" ++ shownAll t ++ b!"</a>") := by
  intro h
  exact absurd (h b!"]" (by decide) (by decide)) (by decide +kernel)

/-- Full statement for code: the manual says that the delimiters cannot be escaped, so any text
without a backquote can be a code. It fails if there is a backslash before the closing delimiter:
the delimiter is escaped after all. -/
theorem code_violated : ¬ ∀ t : Str, t ≠ [] → (∀ c ∈ t, c ≠ c!"`") → NulFree t →
    parseInline (b!"`" ++ t ++ b!"`") = .ok (b!"<code>" ++ shownAll t ++ b!"</code>") := by
  intro h
  exact absurd (h b!"C:\\" (by decide) (by decide) (by decide)) (by decide +kernel)

/-- A bracket left open inside an emphasis prints the text after the emphasis twice: the parser of
the inner text falls back to the end of the whole text. -/
theorem open_bracket_violated : ¬ ∀ t s : Str, (∀ c ∈ t, c ∉ b!"\\*_`]!- ") → NulFree t →
    t ≠ [] → (∀ c ∈ s, c ∉ b!"\\*_`[!- ") → NulFree s →
    parseInline (b!"*" ++ t ++ b!"*" ++ s) = .ok (b!"<em>" ++ shownAll t ++ b!"</em>" ++ shownAll s) := by
  intro h
  exact absurd (h b!"a[b" b!"c" (by decide) (by decide) (by decide) (by decide) (by decide))
    (by decide +kernel)

theorem open_bracket_witness_violated :
    parseInline b!"*a[b*c" = .ok b!"<em>a[b*c</em>c" := by decide +kernel

/-! The specification is met by real texts. -/

private theorem upto_x : Upto c!"*" b!"x\\*" b!"x*" := .byte (by decide) (by decide) (.pair _ .nil)

/-- Emphasis with an escaped delimiter, a link with emphasis in its text and white space before the
URL, dashes, a line break. -/
theorem sample : Inline b!"*x\\**[a_b_]\n(u)--  \n<"
    b!"<em>x*</em><a href=\"u\">a<em>b</em></a>&ndash;<br />\n&lt;" := by
  have e1 : Inline b!"x\\*" b!"x*" := .char (by decide) (.escape _ .nil)
  have e2 : Inline b!"a_b_" b!"a<em>b</em>" :=
    .char (by decide) (.italic (d := c!"_") (t := b!"b") (.inr rfl) (by decide)
      (.byte (by decide) (by decide) .nil) (.char (by decide) .nil) .nil)
  have e3 : Inline b!"<" b!"&lt;" := .char (by decide) .nil
  have e4 : Inline b!"--  \n<" b!"&ndash;<br />\n&lt;" :=
    .enDash (by simp) (.lineBreak (n := 2) (by decide) (.inl rfl) e3)
  have e5 : Inline b!"[a_b_]\n(u)--  \n<" b!"<a href=\"u\">a<em>b</em></a>&ndash;<br />\n&lt;" :=
    .link (t := b!"a_b_") (gap := b!"\n") (url := b!"u")
      ⟨c!"a", b!"_b_", rfl, by decide, .byte (by decide) (by decide) (by decide)
        (.byte (by decide) (by decide) (by decide) (.byte (by decide) (by decide) (by decide) (.nil 1)))⟩
      e2 (by unfold Gap; decide) (.byte (by decide) (by decide) .nil) e4
  exact .italic (d := c!"*") (t := b!"x\\*") (.inl rfl) (by decide) upto_x e1 e5

example : parseInline b!"*x\\**[a_b_]\n(u)--  \n<" =
    .ok b!"<em>x*</em><a href=\"u\">a<em>b</em></a>&ndash;<br />\n&lt;" :=
  documented_partial _ _ sample (by decide)

/-- An image as the text of a link, and an automatic link. -/
example : Inline b!"[![a](p)](u)[[v]]"
    b!"<a href=\"u\"><img src=\"p\" alt=\"a\"></a><a href=\"v\">v</a>" := by
  have e1 : Inline b!"![a](p)" b!"<img src=\"p\" alt=\"a\">" :=
    .image (alt := b!"a") (gap := []) (url := b!"p") (.byte (by decide) (by decide) .nil) (by unfold Gap; decide)
      (.byte (by decide) (by decide) .nil) .nil
  have e2 : Inline b!"[[v]]" b!"<a href=\"v\">v</a>" :=
    .autoLink (url := b!"v") (.byte (by decide) (by simp) .nil)
      (.byte (by decide) (by decide) .nil) .nil
  refine .link (t := b!"![a](p)") (gap := []) (url := b!"u") ⟨c!"!", b!"[a](p)", rfl, by decide, ?_⟩ e1
    (by unfold Gap; decide) (.byte (by decide) (by decide) .nil) e2
  exact .opens (.byte (by decide) (by decide) (by decide) (.closes (.byte (by decide) (by decide) (by decide)
    (.byte (by decide) (by decide) (by decide) (.byte (by decide) (by decide) (by decide) (.nil 1))))))

end Blogc.C73
