import Verif.Lemmas.BlockDocNul
import Verif.Lemmas.ContentFrame
import Verif.Props.C17

/-!
# C74: a text written with the documented block elements becomes the documented HTML

`Spec.Doc e true s ps` (Spec/Blocks.lean): the text `s` is written with the block elements of
blogc-source(7), with line endings `e`, and has the parts `ps`. `Content.parse` is the parser.
-/

namespace Blogc.C74

open Blogc Blogc.Content Blogc.Spec Blogc.BlockDoc

/-- Every such text becomes the documented HTML, and the parser reports the documented first
header, description, headers, end of the excerpt and line ending. What is missing against the manual:
horizontal rules of two characters (`rule_violated`), a last line without line ending
(`last_line_violated`), paragraphs that are only a number or only `#` (`number_violated`), code
blocks and blockquotes of which just the last line lacks the prefix (`merged_violated`). -/
theorem documented_partial (e s : Str) (ps : List Piece) (he : LineEnding e) (hd : Doc e true s ps)
    (hn : NulFree s) (depth : Nat) (hlen : s.length < depth) (headers : Bool) :
    ∃ r, parse depth s headers = .ok r ∧
      r.rv = docHtml e ps ∧
      r.firstHeader = (firstTitle ps).map shownAll ∧
      r.description = (firstPara ps).map (fun ls => shownAll (oneText ls)) ∧
      r.headers = (if headers then
        (headersOf ps).map (fun x => ⟨x.1, some (slug x.2.1), some x.2.2⟩) else []) ∧
      r.endExcerpt = (match beforeMark ps with | none => 0 | some q => (docHtml e q).length) ∧
      ((∃ c ∈ s, c = c!"\n" ∨ c = c!"\r") → r.lineEnding = e) := by
  obtain ⟨r, h1, h2, h3⟩ := parse_doc hd he hn false depth ⟨true, true, true, headers⟩ rfl hlen
  refine ⟨r, h1, ?_, ?_, ?_, ?_, ?_, fun ⟨c, hc, hnl⟩ => h3 ((parse_found h1).resolve_right fun h => ?_)⟩
  · have : (out r).rv = docHtml e ps := by rw [h2, rv_foldl]; rfl
    exact this
  · have : (out r).firstHeader = (firstTitle ps).map shownAll := by
      rw [h2, firstHeader_foldl _ rfl]
    exact this
  · have : (out r).description = (firstPara ps).map (fun ls => shownAll (oneText ls)) := by
      rw [h2, description_foldl he _ rfl _ _ (doc_para hd)]
    exact this
  · rw [show r.headers = (out r).headers from rfl, h2, headers_foldl _ _ _ (doc_level hd)]
    rfl
  · rw [show r.endExcerpt = (out r).endExcerpt from rfl, h2, endExcerpt_foldl]
    cases beforeMark ps <;> rfl
  · have := h c hc
    rcases hnl with rfl | rfl <;> exact absurd this (by decide)

/-- So a text has at most one reading. -/
theorem unambiguous (e s : Str) (ps qs : List Piece) (he : LineEnding e) (hn : NulFree s)
    (h1 : Doc e true s ps) (h2 : Doc e true s qs) : docHtml e ps = docHtml e qs := by
  obtain ⟨r, hr, h, -⟩ := documented_partial e s ps he h1 hn (s.length + 1) (by omega) false
  obtain ⟨r', hr', h', -⟩ := documented_partial e s qs he h2 hn (s.length + 1) (by omega) false
  rw [hr] at hr'
  cases hr'
  rw [← h, h']

/-- The same for a whole source file: the variables a page has. The excerpt is the HTML of the
parts before the last separator. -/
theorem source_file {t : Trie Str} (depth : Nat) (m : Int) (d : Source.Doc) (hd : d.Ok) (e : Str)
    (ps : List Piece) (he : LineEnding e) (hc : Doc e true d.content ps) (h2 : 2 ≤ d.content.length)
    (hlen : d.content.length < depth)
    (h : Source.parse (parse depth) d.text m = .ok (.ok t)) :
    t.lookup b!"CONTENT" = some (docHtml e ps) ∧
    t.lookup b!"EXCERPT" = some (match beforeMark ps with
      | none => docHtml e ps
      | some q => if docHtml e q = [] then docHtml e ps else docHtml e q) ∧
    (lastValue (Source.pairs d.headers) b!"FIRST_HEADER" = none →
      t.lookup b!"FIRST_HEADER" = (firstTitle ps).map shownAll) ∧
    (lastValue (Source.pairs d.headers) b!"DESCRIPTION" = none →
      t.lookup b!"DESCRIPTION" = (firstPara ps).map (fun ls => shownAll (oneText ls))) := by
  have hn : NulFree d.content := hd.content
  have hck := Source.pairs_ckeys hd.headers
  obtain ⟨r, hr, h3, h4, -, -, -, h5, h6⟩ :=
    Source.finishContent_lookup (Source.parse_doc_ok d hd h2 h)
  obtain ⟨r', hr', k1, k2, k3, -, k5, -⟩ := documented_partial e d.content ps he hc hn depth hlen
    (decide ((Trie.inserts (Source.pairs d.headers)).1.lookup b!"TOCTREE" = none))
  rw [hr] at hr'
  cases hr'
  rw [C07.lookup_inserts _ hck _ (by decide)] at h5 h6
  refine ⟨by rw [h3, k1], ?_, fun h => by rw [h5 h, k2], fun h => by rw [h6 h, k3]⟩
  rw [h4, k5, k1]
  cases hb : beforeMark ps with
  | none => rw [if_pos rfl]
  | some q =>
    simp only
    by_cases h0 : docHtml e q = []
    · rw [if_pos (by rw [h0]; rfl), if_pos h0]
    · rw [if_neg (by rw [List.length_eq_zero_iff]; exact h0), if_neg h0]
      obtain ⟨u, hu⟩ := beforeMark_prefix hb
      have e1 : (docHtml e ps).take (docHtml e q).length = docHtml e q := by
        rw [← hu, docHtml_append, List.take_left' rfl]
      rw [e1, Config.cstr_of_nulFree]
      refine nf_flatMap fun p hp => nf_doc he hc hn p ?_
      rw [← hu]
      exact List.mem_append_left _ hp

/-! ### An example with every element -/

theorem inline_plain {s : Str} (h : ∀ c ∈ s, c ∉ b!"\\*_`[!- ") : Inline s (shownAll s) := by
  induction s with
  | nil => exact .nil
  | cons c s ih => exact .char (h c (by simp)) (ih fun x hx => h x (by simp [hx]))

def sampleParts : List Piece :=
  [.header 1 b!"Hi" b!"Hi", .para [b!"a", b!"<b"] b!"a\n&lt;b", .mark,
   .block b!"<blockquote><p>q</p>\n</blockquote>\n"]

theorem sample_doc :
    Doc b!"\n" true b!"# Hi\n\na\n<b\n\n..\n\n> q\n" sampleParts := by
  refine .header (k := 1) (ws := b!" ") (title := b!"Hi") (s := b!"\na\n<b\n\n..\n\n> q\n") (by decide)
    (by decide) (by simp [Blanks, Blank]) ⟨c!"H", b!"i", rfl, by simp [Blank]⟩ (by simp [OneLine])
    (inline_plain (s := b!"Hi") (by decide)) (.blank ?_)
  refine .block (ls := [b!"a", b!"<b"]) (t := b!"\n..\n\n> q\n")
    (.para (.char (by decide)) (by simp [OneLine]) (inline_plain (s := b!"a\n<b") (by decide)))
    (.blank b!"..\n\n> q\n") (.mark (k := 2) (s := b!"> q\n") (by decide) ?_)
  exact .quote (ws := b!" ") (l := b!"q") (ls := []) (qs := [.para [b!"q"] b!"q"]) (t := []) (s := [])
    (by simp [Blanks, Blank]) ⟨c!"q", [], rfl, by simp [Blank]⟩ (by simp [OneLine])
    (.block (ls := [b!"q"]) (t := []) (s := [])
      (.para (.char (by decide)) (by simp [OneLine]) (inline_plain (s := b!"q") (by decide)))
      .last (.nil false)) .last (.nil true)

/-- The hypotheses hold for a text, and the result is what is expected. -/
example : ∃ r, parse 40 b!"# Hi\n\na\n<b\n\n..\n\n> q\n" true = .ok r ∧
    r.rv = b!"<h1 id=\"hi\">Hi</h1>\n<p>a\n&lt;b</p>\n<blockquote><p>q</p>\n</blockquote>\n" ∧
    r.firstHeader = some b!"Hi" ∧ r.description = some b!"a &lt;b" ∧
    r.headers = [⟨1, some b!"hi", some b!"Hi"⟩] ∧ r.endExcerpt = 35 := by
  obtain ⟨r, h, h1, h2, h3, h4, h5, -⟩ := documented_partial _ _ _ (.inl rfl) sample_doc (by decide) 40
    (by decide) true
  refine ⟨r, h, ?_, ?_, ?_, ?_, ?_⟩
  · rw [h1]; decide +kernel
  · rw [h2]; decide +kernel
  · rw [h3]; decide +kernel
  · rw [h4]; decide +kernel
  · rw [h5]; decide +kernel

/-- Lists, a rule, code and HTML, with the line ending of DOS. -/
theorem sample2_doc : Doc b!"\r\n" true
    b!"* i\r\n  j\r\n* k\r\n\r\n1. x\r\n2. y\r\n\r\n---\r\n  c\r\n  d\r\n\r\n<p>\r\n"
    [.block (listHtml b!"\r\n" b!"ul" [⟨b!"* ", b!"i", [b!"j"], b!"i\r\nj"⟩, ⟨b!"* ", b!"k", [], b!"k"⟩]),
     .block (listHtml b!"\r\n" b!"ol" [⟨b!"1. ", b!"x", [], b!"x"⟩, ⟨b!"2. ", b!"y", [], b!"y"⟩]),
     .block (b!"<hr />" ++ b!"\r\n"), .block b!"<pre><code>c\r\nd</code></pre>\r\n", .block b!"<p>\r\n"] := by
  refine .block (e := b!"\r\n") (t := b!"\r\n1. x\r\n2. y\r\n\r\n---\r\n  c\r\n  d\r\n\r\n<p>\r\n")
    (.unordered (d := c!"*") (ws := b!" ") (i := ⟨b!"* ", b!"i", [b!"j"], b!"i\r\nj"⟩)
      (is := [⟨b!"* ", b!"k", [], b!"k"⟩]) (by decide) (by decide) (by simp [Blanks, Blank])
      ⟨c!"i", [], rfl, by simp [Blank]⟩ ?_) (Ended.blank (e := b!"\r\n") b!"1. x\r\n2. y\r\n\r\n---\r\n  c\r\n  d\r\n\r\n<p>\r\n") ?_
  · intro x hx
    simp only [List.mem_cons, List.not_mem_nil, or_false] at hx
    rcases hx with rfl | rfl
    · exact ⟨rfl, by simp [OneLine], inline_plain (s := b!"i\r\nj") (by decide)⟩
    · exact ⟨rfl, by simp [OneLine], inline_plain (s := b!"k") (by decide)⟩
  refine .block (e := b!"\r\n") (t := b!"\r\n---\r\n  c\r\n  d\r\n\r\n<p>\r\n")
    (.ordered (i := ⟨b!"1. ", b!"x", [], b!"x"⟩) (is := [⟨b!"2. ", b!"y", [], b!"y"⟩]) ⟨c!"x", [], rfl, by simp [Blank]⟩ ?_) (Ended.blank (e := b!"\r\n") b!"---\r\n  c\r\n  d\r\n\r\n<p>\r\n") ?_
  · intro x hx
    simp only [List.mem_cons, List.not_mem_nil, or_false] at hx
    rcases hx with rfl | rfl
    · exact ⟨⟨b!"1", b!" ", rfl, ⟨by decide, by decide⟩, by simp [Blanks, Blank]⟩, rfl, by decide,
        by simp [OneLine], inline_plain (s := b!"x") (by decide)⟩
    · exact ⟨⟨b!"2", b!" ", rfl, ⟨by decide, by decide⟩, by simp [Blanks, Blank]⟩, rfl, by decide,
        by simp [OneLine], inline_plain (s := b!"y") (by decide)⟩
  refine .rule (d := c!"-") (k := 3) (s := b!"  c\r\n  d\r\n\r\n<p>\r\n") (by decide) (by decide) ?_
  refine .block (e := b!"\r\n") (t := b!"\r\n<p>\r\n") (.code (p := b!"  ") (l := b!"c") (ls := [b!"d"]) (by decide)
    (by simp [Blanks, Blank]) ⟨c!"c", [], rfl, by simp [Blank]⟩ (by simp [OneLine])) (Ended.blank (e := b!"\r\n") b!"<p>\r\n") ?_
  exact .block (e := b!"\r\n") (t := []) (.html (l := b!"p>") (ls := []) (by simp [OneLine])) .last (.nil true)

example : ∃ r, parse 90
    b!"* i\r\n  j\r\n* k\r\n\r\n1. x\r\n2. y\r\n\r\n---\r\n  c\r\n  d\r\n\r\n<p>\r\n" false = .ok r ∧
    r.rv = b!"<ul>\r\n<li>i\r\nj</li>\r\n<li>k</li>\r\n</ul>\r\n<ol>\r\n<li>x</li>\r\n<li>y</li>\r\n</ol>\r\n<hr />\r\n<pre><code>c\r\nd</code></pre>\r\n<p>\r\n" := by
  obtain ⟨r, h, h1, -⟩ := documented_partial _ _ _ (.inr (.inr (.inl rfl))) sample2_doc (by decide) 90
    (by decide) false
  exact ⟨r, h, by rw [h1]; decide +kernel⟩

theorem inline_blank {s h : Str} (hi : Inline s h) (hs : ∀ r, s ≠ c!" " :: r) :
    Inline (c!" " :: s) (c!" " :: h) :=
  .spaces (n := 1) hs (.inl rfl) hi

/-- A code block and a blockquote that break off are paragraphs. -/
theorem sample3_doc : Doc b!"\n" true b!" a\nb\nc\n\n> d\n> e\nf\n g\n"
    [.para [b!" a", b!"b", b!"c"] b!" a\nb\nc", .para [b!"> d", b!"> e", b!"f", b!" g"] b!"&gt; d\n&gt; e\nf\n g"] := by
  refine .block (e := b!"\n") (ls := [b!" a", b!"b", b!"c"]) (t := b!"\n> d\n> e\nf\n g\n")
    (.broken (p := b!" ") (l := b!"a") (ls := []) (y := b!"b") (m := b!"c") (ms := [])
      (.inl ⟨by decide, by simp [Blanks, Blank]⟩) ⟨c!"a", [], rfl, by simp [Blank]⟩ (by decide)
      (by simp [OneLine]) ?_) (.blank b!"> d\n> e\nf\n g\n") ?_
  · exact inline_blank (inline_plain (s := b!"a\nb\nc") (by decide)) (by simp)
  · refine .block (e := b!"\n") (ls := [b!"> d", b!"> e", b!"f", b!" g"]) (t := [])
      (.broken (p := b!"> ") (l := b!"d") (ls := [b!"e"]) (y := b!"f") (m := b!" g") (ms := [])
      (.inr ⟨b!" ", rfl, by simp [Blanks, Blank]⟩) ⟨c!"d", [], rfl, by simp [Blank]⟩ (by decide)
      (by simp [OneLine]) ?_) .last (.nil true)
    have gt : c!">" ∉ b!"\\*_`[!- " := by decide
    have nl : c!"\n" ∉ b!"\\*_`[!- " := by decide
    have h1 := inline_blank (inline_plain (s := b!"g") (by decide)) (by simp)
    have h2 := Inline.char (c := c!"e") (by decide) (.char nl (.char (c := c!"f") (by decide) (.char nl h1)))
    exact .char gt (inline_blank (.char (c := c!"d") (by decide)
      (.char nl (.char gt (inline_blank h2 (by simp))))) (by simp))

example : ∃ r, parse 40 b!" a\nb\nc\n\n> d\n> e\nf\n g\n" false = .ok r ∧
    r.rv = b!"<p> a\nb\nc</p>\n<p>&gt; d\n&gt; e\nf\n g</p>\n" := by
  obtain ⟨r, h, h1, -⟩ := documented_partial _ _ _ (.inl rfl) sample3_doc (by decide) 40 (by decide) false
  exact ⟨r, h, by rw [h1]; decide +kernel⟩

/-! ### Where the parser and the manual differ -/

/-- What the parser returns. -/
def result (s : Str) : Option (Str × Nat) :=
  match parse (s.length + 1) s false with
  | .ok r => some (r.rv, r.endExcerpt)
  | _ => none

/-- "A paragraph with a sequence of 2 or more": two are not enough, and the paragraph after them
is taken into the same one, with the empty line. -/
theorem rule_violated : result b!"**\n\nfoo\n" = some (b!"<p>**\n\nfoo</p>\n", 0) := by decide +kernel

/-- The last line is lost if it has no line ending and only one character (after the prefix). -/
theorem last_line_violated :
    result b!"ab\n\nc" = some (b!"<p>ab</p>\n", 0) ∧ result b!"# a" = some ([], 0) ∧
    result b!"> a" = some ([], 0) ∧ result b!"* a" = some ([], 0) := by decide +kernel

/-- A paragraph that is only a number, or only `#`, is not ended by the empty line. -/
theorem number_violated :
    result b!"1984\n\nIt was\n" = some (b!"<p>1984\n\nIt was</p>\n", 0) ∧
    result b!"#\n\nIt was\n" = some (b!"<p>#\n\nIt was</p>\n", 0) := by decide +kernel

/-- If only the last line of a blockquote or of a code block lacks the prefix, the empty line after
it does not end the paragraph: the next paragraph becomes part of it. -/
theorem merged_violated :
    result b!"> a\nb\n\nc\n" = some (b!"<p>&gt; a\nb\n\nc</p>\n", 0) ∧
    result b!" a\nb\n\nc\n" = some (b!"<p> a\nb\n\nc</p>\n", 0) := by decide +kernel

/-- One dot is an excerpt separator too ("2 or more"), and the dot is lost. -/
theorem one_dot_violated : result b!"a\n\n.\n\nb\n" = some (b!"<p>a</p>\n<p>b</p>\n", 9) := by
  decide +kernel

/-- A header without title takes the rest of the text into its title, if lines end as on DOS. -/
theorem empty_title_violated :
    result b!"# \r\nab\r\n\r\ncd\r\n" =
      some (b!"<h1 id=\"-ab----cd--\">\nab\r\n\r\ncd\r\n</h1>\r\n<p>ab</p>\r\n<p>cd</p>\r\n", 0) := by
  decide +kernel

/-- An empty excerpt is the whole content. -/
theorem empty_excerpt_violated :
    (match Source.parse (parse 30) b!"A: 1\n---\n...\n\nab\n" 0 with
     | .ok (.ok t) => some (t.lookup b!"EXCERPT")
     | _ => none) = some (some b!"<p>ab</p>\n") := by decide +kernel

end Blogc.C74
