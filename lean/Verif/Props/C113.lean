import Verif.Lemmas.ContentMarkup
import Verif.Lemmas.MarkupScan
import Verif.Props.C17
import Verif.Props.C40

/-!
# C113: contents become well-formed HTML

`Flow` (Spec/Markup.lean) is a grammar for the HTML: properly nested elements and escaped
text. `wellFormed` (Spec/Reader.lean) reads HTML from left to right as a browser does. Lines
that start with `<` are HTML of the author.
-/

namespace Blogc.C113

open Blogc Blogc.Content Blogc.Spec

/-- The text has no line that is taken over as HTML. -/
def NoHtml (s : Str) : Prop := ∀ l ∈ lines s, htmlLine l = false

instance (s : Str) : Decidable (NoHtml s) := inferInstanceAs (Decidable (∀ l ∈ lines s, htmlLine l = false))

theorem clear_of_lines : ∀ (s : Str),
    ((∀ l ∈ (splitLines s).2, htmlLine l = false) → Mk.clear .inside s = true) ∧
    ((∀ l ∈ (splitLines s).2, htmlLine l = false) → ((splitLines s).1.dropWhile quoteMark).head? ≠ some c!"<" →
      Mk.clear .quote s = true) ∧
    ((∀ l ∈ (splitLines s).2, htmlLine l = false) → htmlLine (splitLines s).1 = false → Mk.clear .start s = true)
  | [] => ⟨fun _ => rfl, fun _ _ => rfl, fun _ _ => rfl⟩
  | c :: r => by
    obtain ⟨i1, i2, i3⟩ := clear_of_lines r
    have hn : isNl c = newline c := rfl
    rw [splitLines]
    cases hc : newline c with
    | true =>
      simp only [if_true]
      have h : (∀ l ∈ (splitLines r).1 :: (splitLines r).2, htmlLine l = false) → Mk.clear .start r = true :=
        fun h => i3 (fun l hl => h l (by simp [hl])) (h _ (by simp))
      refine ⟨fun h' => ?_, fun h' _ => ?_, fun h' _ => ?_⟩ <;> rw [Mk.clear, hn, if_pos hc] <;> exact h h'
    | false =>
      simp only [Bool.false_eq_true, if_false]
      refine ⟨fun h => ?_, fun h h1 => ?_, fun h h1 => ?_⟩ <;> rw [Mk.clear, hn, if_neg (by simp [hc])]
      · exact i1 h
      · have hq : isQuote c = quoteMark c := by simp [isQuote, quoteMark, isSp, Bool.or_assoc]
        cases hqc : quoteMark c with
        | true =>
          rw [List.dropWhile_cons_of_pos hqc] at h1
          rw [if_neg (by rintro rfl; exact absurd hqc (by decide)), hq, if_pos hqc]
          exact i2 h h1
        | false =>
          rw [List.dropWhile_cons_of_neg (by simp [hqc])] at h1
          rw [if_neg (by rintro rfl; exact h1 rfl), hq, if_neg (by simp [hqc])]
          exact i1 h
      · unfold htmlLine at h1
        simp only [Bool.or_eq_false_iff, beq_eq_false_iff_ne] at h1
        rw [if_neg h1.1]
        split
        next hg =>
          subst hg
          refine i2 h fun h' => ?_
          have h2 := h1.2
          rw [List.dropWhile_cons_of_pos (by decide), h'] at h2
          exact absurd h2 (by decide)
        · exact i1 h

/-- The text has lines that are taken over as HTML, or the parser finds none. -/
theorem src_of (s : Str) : Mk.Src (∃ l ∈ lines s, htmlLine l = true) (fun c => c ∈ s ∨ newline c = true) s := by
  refine ⟨fun _ hc => .inl hc, ?_⟩
  by_cases h : ∃ l ∈ lines s, htmlLine l = true
  · exact .inl h
  · have h : ∀ l ∈ lines s, htmlLine l = false := fun l hl => by
      cases h' : htmlLine l with
      | false => rfl
      | true => exact absurd ⟨l, hl, h'⟩ h
    exact .inr ((clear_of_lines s).2.2 (fun l hl => h l (by simp [lines, hl])) (h _ (by simp [lines])))

theorem taken_of {s u : Str} (h : Tg (fun c => c ∈ s ∨ newline c = true) u) : Taken s u := by
  refine ⟨?_, h.2⟩
  rcases h.1 with h | h
  · exact h
  · exact absurd h (by decide)

theorem _root_.Blogc.Spec.Phrasing.mono {T U : Str → Prop} {V : Byte → Prop} (hT : ∀ u, T u → U u) {s : Str} (h : Phrasing T V s) : Phrasing U V s := by
  induction h with
  | text h => exact .text h
  | dash h => exact .dash h
  | br => exact .br
  | em _ ih => exact .em ih
  | strong _ ih => exact .strong ih
  | code h => exact .code h
  | link h _ ih => exact .link (hT _ h) ih
  | auto h h' => exact .auto (hT _ h) (hT _ h')
  | image h h' => exact .image (hT _ h) (hT _ h')
  | app _ _ h1 h2 => exact .app h1 h2

theorem _root_.Blogc.Spec.Items.mono {T U : Str → Prop} {V : Byte → Prop} (hT : ∀ u, T u → U u) {s : Str} (h : Items T V s) : Items U V s := by
  induction h with
  | ends h => exact .ends h
  | item h => exact .item (h.mono hT)
  | app _ _ h1 h2 => exact .app h1 h2

theorem _root_.Blogc.Spec.Flow.mono {T U R S : Str → Prop} {V : Byte → Prop} (hT : ∀ u, T u → U u) (hR : ∀ u, R u → S u) {s : Str}
    (h : Flow T V R s) : Flow U V S s := by
  induction h with
  | ends h => exact .ends h
  | paragraph h => exact .paragraph (h.mono hT)
  | header h1 h2 h3 h4 => exact .header h1 h2 h3 (h4.mono hT)
  | rule => exact .rule
  | code h => exact .code h
  | quote _ ih => exact .quote ih
  | list ht h => exact .list ht (h.mono hT)
  | html h => exact .html (hR _ h)
  | app _ _ h1 h2 => exact .app h1 h2

/-- The HTML of any text, and the part of it that is the excerpt, consist of properly nested
elements and escaped text. Only the targets of links and images and the author's own HTML are
taken over as they are. -/
theorem nested (s : Str) (depth : Nat) (b : Bool) (st : BSt) (hp : parse depth s b = .ok st) :
    Flow (Taken s) (Shown s) (OwnHtml s) st.rv ∧ Flow (Taken s) (Shown s) (OwnHtml s) (st.rv.take st.endExcerpt) ∧
      st.endExcerpt ≤ st.rv.length := by
  have := Mk.parseBlocks_post (fx := false) (P := fun c => c ∈ s ∨ newline c = true) (fun c hc => .inr hc) depth s
    ⟨true, true, true, b⟩ none (src_of s) (by intro e h; cases h)
  unfold parse at hp
  rw [hp] at this
  exact ⟨this.rv.mono (fun _ => taken_of) fun _ h => h, this.excerpt.mono (fun _ => taken_of) fun _ h => h, this.cut⟩

/-- The description and the first header are escaped text. -/
theorem escaped (s : Str) (depth : Nat) (b : Bool) (st : BSt) (hp : parse depth s b = .ok st) :
    (∀ t, st.description = some t → Escaped (fun c => Shown s c ∨ c = c!" ") t) ∧ ∀ t, st.firstHeader = some t → Escaped (Shown s) t := by
  have := Mk.parseBlocks_post (fx := false) (P := fun c => c ∈ s ∨ newline c = true) (fun c hc => .inr hc) depth s
    ⟨true, true, true, b⟩ none (src_of s) (by intro e h; cases h)
  unfold parse at hp
  rw [hp] at this
  exact ⟨this.desc, this.first⟩

/-- The variables of a source file: `CONTENT` and `EXCERPT` consist of properly nested elements, and
`DESCRIPTION` and `FIRST_HEADER` are escaped text unless the file sets them itself. -/
theorem of_source (depth : Nat) (m : Int) (d : Source.Doc) (hd : d.Ok) (h2 : 2 ≤ d.content.length) (t : Trie Str)
    (h : Blogc.Source.parse (Content.parse depth) d.text m = .ok (.ok t)) :
    (∃ v, t.lookup b!"CONTENT" = some v ∧ Flow (Taken d.content) (Shown d.content) (OwnHtml d.content) v) ∧
    (∃ v, t.lookup b!"EXCERPT" = some v ∧ Flow (Taken d.content) (Shown d.content) (OwnHtml d.content) v) ∧
    (lastValue (Source.pairs d.headers) b!"DESCRIPTION" = none → ∀ v, t.lookup b!"DESCRIPTION" = some v →
      Escaped (fun c => Shown d.content c ∨ c = c!" ") v) ∧
    (lastValue (Source.pairs d.headers) b!"FIRST_HEADER" = none → ∀ v, t.lookup b!"FIRST_HEADER" = some v →
      Escaped (Shown d.content) v) := by
  have hck := Blogc.Source.pairs_ckeys hd.headers
  obtain ⟨r, hr, hc, he, -, -, -, hf, hdesc⟩ := Blogc.Source.finishContent_lookup (Blogc.Source.parse_doc_ok d hd h2 h)
  rw [C07.lookup_inserts _ hck _ (by decide)] at hf hdesc
  obtain ⟨n1, n2, -⟩ := nested d.content depth _ r hr
  obtain ⟨e1, e2⟩ := escaped d.content depth _ r hr
  have hn : NulFree d.content := hd.content
  have h0 : ¬ Shown d.content 0 := by
    rintro (h | h)
    · exact hn 0 h rfl
    · exact absurd h (by decide)
  refine ⟨⟨_, hc, n1⟩, ⟨_, he, ?_⟩, ?_, ?_⟩
  · split
    · exact n1
    · rw [Config.cstr_of_nulFree]
      · exact n2
      · refine n2.nulFree (fun u hu c hc hz => ?_) h0 fun u hu c hc hz => ?_
        · rw [hz] at hc; exact h0 (hu.2 0 hc)
        · rw [hz] at hc; exact h0 (hu.2.2 0 hc)
  · intro hl v hv
    rw [hdesc hl] at hv
    exact e1 v hv
  · intro hl v hv
    rw [hf hl] at hv
    exact e2 v hv

theorem no_html {s h : Str} (hs : NoHtml s) (hh : OwnHtml s h) : False := by
  obtain ⟨l, hl, h1⟩ := hh.1
  rw [hs l hl] at h1; cases h1

theorem no_target {s : Str} (hb : c!"[" ∉ s) {u : Str} (h : Taken s u) : Harmless u := absurd h.1 hb

/-- Texts without links and images: the page is well-formed whatever the other characters are. -/
theorem well_formed_partial (s : Str) (h : NoHtml s) (hb : c!"[" ∉ s) (depth : Nat) (b : Bool) (st : BSt)
    (hp : parse depth s b = .ok st) : wellFormed st.rv = true ∧ wellFormed (st.rv.take st.endExcerpt) = true := by
  have := nested s depth b st hp
  exact ⟨(this.1.mono (fun _ => no_target hb) fun _ => no_html h).wellFormed,
    (this.2.1.mono (fun _ => no_target hb) fun _ => no_html h).wellFormed⟩

theorem split_mem : ∀ {s : Str}, (∀ c ∈ (splitLines s).1, c ∈ s) ∧ ∀ l ∈ (splitLines s).2, ∀ c ∈ l, c ∈ s
  | [] => ⟨by simp [splitLines], by simp [splitLines]⟩
  | a :: s => by
    have ih := split_mem (s := s)
    rw [splitLines]
    split
    · refine ⟨by simp, fun l hl c hc => List.mem_cons_of_mem _ ?_⟩
      rcases List.mem_cons.1 hl with rfl | hl
      · exact ih.1 c hc
      · exact ih.2 l hl c hc
    · refine ⟨fun c hc => ?_, fun l hl c hc => List.mem_cons_of_mem _ (ih.2 l hl c hc)⟩
      rcases List.mem_cons.1 hc with rfl | hc
      · simp
      · exact List.mem_cons_of_mem _ (ih.1 c hc)

theorem lines_mem {s l : Str} (hl : l ∈ lines s) : ∀ c ∈ l, c ∈ s := by
  rcases List.mem_cons.1 hl with rfl | hl
  · exact split_mem.1
  · exact split_mem.2 l hl

/-- Texts with links and images, but without the characters that have a meaning inside tags. -/
theorem well_formed_links_partial (s : Str)
    (hc : ∀ c ∈ s, c ≠ c!"<" ∧ c ≠ c!">" ∧ c ≠ c!"\"") (depth : Nat) (b : Bool) (st : BSt)
    (hp : parse depth s b = .ok st) : wellFormed st.rv = true ∧ wellFormed (st.rv.take st.endExcerpt) = true := by
  have hN : NoHtml s := by
    intro l hl
    have hm := lines_mem hl
    cases l with
    | nil => rfl
    | cons c r =>
      have h1 := hc c (hm c (by simp))
      simp [htmlLine, h1.1, h1.2.1]
  have := nested s depth b st hp
  have key : ∀ u, Taken s u → Harmless u := by
    intro u hu c h
    rcases hu.2 c h with h | h
    · exact hc c h
    · refine ⟨?_, ?_, ?_⟩ <;> rintro rfl <;> exact absurd h (by decide)
  exact ⟨(this.1.mono key fun _ => no_html hN).wellFormed, (this.2.1.mono key fun _ => no_html hN).wellFormed⟩

/-- The HTML of a text, if there is one. -/
def html (depth : Nat) (s : Str) : Option Str :=
  match parse depth s false with
  | .ok st => some st.rv
  | _ => none

theorem html_ok {depth : Nat} {s t : Str} (h : html depth s = some t) : ∃ st, parse depth s false = .ok st ∧ st.rv = t := by
  unfold html at h
  split at h
  next st hp => exact ⟨st, hp, by injection h⟩
  · cases h

/-- Full statement: texts without lines of HTML give well-formed HTML. It fails: the target of
a link is taken over as it is, and with `[[ ]]` also its text (src/blogc/content-parser.c:409-414). -/
theorem well_formed_violated : ¬ ∀ (s : Str) (depth : Nat) (b : Bool) (st : BSt), NoHtml s → parse depth s b = .ok st →
    wellFormed st.rv = true := by
  intro h
  obtain ⟨st, hp, hr⟩ := html_ok (depth := 1) (s := b!"a [[<]]\n") (t := b!"<p>a <a href=\"<\"><</a></p>\n") (by decide +kernel)
  have := h b!"a [[<]]\n" 1 false st (by decide) hp
  rw [hr] at this
  exact absurd this (by decide +kernel)

/-- A quotation mark ends the value, so that a link can carry attributes of its own. -/
theorem attribute_violated : ¬ ∀ (s : Str) (depth : Nat) (b : Bool) (st : BSt), (∀ c ∈ s, c ≠ c!"<" ∧ c ≠ c!">") →
    parse depth s b = .ok st → wellFormed st.rv = true := by
  intro h
  obtain ⟨st, hp, hr⟩ := html_ok (depth := 1) (s := b!"[a](x\" onclick=\"y)\n")
    (t := b!"<p><a href=\"x\" onclick=\"y\">a</a></p>\n") (by decide +kernel)
  have := h _ 1 false st (by decide) hp
  rw [hr] at this
  exact absurd this (by decide +kernel)

/-- HTML has headers of six levels; the level of a header of a text is not bounded
(src/blogc/content-parser.c:826-829). -/
theorem level_violated : ¬ ∀ (s : Str) (depth : Nat) (b : Bool) (st : BSt), (∀ c ∈ s, c ≠ c!"<" ∧ c ≠ c!">" ∧ c ≠ c!"\"") →
    parse depth s b = .ok st →
    ∀ x n y, st.rv = x ++ b!"<h" ++ n ++ b!" id=" ++ y → n ∈ [b!"1", b!"2", b!"3", b!"4", b!"5", b!"6"] := by
  intro h
  obtain ⟨st, hp, hr⟩ := html_ok (depth := 1) (s := b!"####### a\n") (t := b!"<h7 id=\"a\">a</h7>\n") (by decide +kernel)
  have := h _ 1 false st (by decide) hp [] b!"7" b!"\"a\">a</h7>\n" (by rw [hr]; decide)
  exact absurd this (by decide)

/-! ## Samples -/

/-- Emphasis that overlaps, a quotation with a list, code, and characters to escape. -/
def sample : Str := b!"# A & \"b\"\n\n...\n\n> q *e **s** < 3\n> \n> * x\n> * `y>`\n\n    <pre>\n\n1. c\n"

theorem sample_html : html 2 sample = some
    b!"<h1 id=\"a----b-\">A &amp; &quot;b&quot;</h1>\n<blockquote><p>q <em>e </em><em>s</em>* &lt; 3</p>\n<ul>\n<li>x</li>\n<li><code>y&gt;</code></li>\n</ul>\n</blockquote>\n<pre><code>&lt;pre&gt;</code></pre>\n<ol>\n<li>c</li>\n</ol>\n" := by
  decide +kernel

example : NoHtml sample ∧ c!"[" ∉ sample ∧ ∃ st, parse 2 sample false = .ok st ∧ wellFormed st.rv = true := by
  obtain ⟨st, hp, hr⟩ := html_ok sample_html
  have h1 : NoHtml sample := by decide
  have h2 : c!"[" ∉ sample := by decide
  exact ⟨h1, h2, st, hp, (well_formed_partial sample h1 h2 2 false st hp).1⟩

/-- Links. -/
def links : Str := b!"a [b *c*](x/y) ![d](e) [[f]]\n"

theorem links_html : html 1 links = some
    b!"<p>a <a href=\"x/y\">b <em>c</em></a> <img src=\"e\" alt=\"d\"> <a href=\"f\">f</a></p>\n" := by
  decide +kernel

example : (∀ c ∈ links, c ≠ c!"<" ∧ c ≠ c!">" ∧ c ≠ c!"\"") ∧ ∃ st, parse 1 links false = .ok st ∧ wellFormed st.rv = true := by
  obtain ⟨st, hp, hr⟩ := html_ok links_html
  have h : ∀ c ∈ links, c ≠ c!"<" ∧ c ≠ c!">" ∧ c ≠ c!"\"" := by decide
  exact ⟨h, st, hp, (well_formed_links_partial links h 1 false st hp).1⟩

/-- Does the parser of sources accept the text with these values of `CONTENT`, `EXCERPT` and `DESCRIPTION`? -/
def gives (s : Str) (c e d : Str) : Bool :=
  match Blogc.Source.parse (Content.parse 2) s 0 with
  | .ok (.ok t) => t.lookup b!"CONTENT" == some c && t.lookup b!"EXCERPT" == some e && t.lookup b!"DESCRIPTION" == some d
  | _ => false

example : (C17.sample b!"a *b*\nc\n\n...\n\n<hr>\n").Ok ∧
    gives (C17.sample b!"a *b*\nc\n\n...\n\n<hr>\n").text b!"<p>a <em>b</em>\nc</p>\n<hr>\n" b!"<p>a <em>b</em>\nc</p>\n"
      b!"a *b* c" = true :=
  ⟨C17.sample_ok _ (by decide) (by simp [Source.Newline]), by decide +kernel⟩

end Blogc.C113
