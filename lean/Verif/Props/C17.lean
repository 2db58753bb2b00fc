import Verif.Lemmas.SourceTable

/-!
# C17: Source file headers are parsed faithfully
-/

namespace Blogc.C17

open Blogc Blogc.Spec Blogc.Spec.Source Blogc.Source
open Blogc.Config (cstr_of_nulFree)

/-- A source file with two `TITLE` lines, an empty value, blank lines and a
separator of three dashes. -/
def sample (content : Str) : Doc :=
  { headers := [⟨b!"\n ", b!"TITLE", b!" \t", b!"a: b", b!" ", 0x0a⟩,
                ⟨[], b!"X_1", [], [], [], 0x0d⟩,
                ⟨b!"\n", b!"TITLE", [], b!"c", [], 0x0a⟩],
    blanks := b!"\n", dashes := 3, nls := b!"\n\r\n", content := content }

theorem sample_ok (content : Str) (hc : ∀ c ∈ content, c ≠ 0)
    (hf : ∀ c, content.head? = some c → ¬ Newline c) : (sample content).Ok := by
  refine ⟨?_, by simp [sample, Blank, Newline], by simp [sample], by simp [sample, Newline], by simp [sample],
    hc, hf⟩
  intro h hh
  simp only [sample, List.mem_cons, List.not_mem_nil, or_false] at hh
  rcases hh with rfl | rfl | rfl
  · refine ⟨by simp [Blank, Newline], ⟨_, _, rfl, by decide, by decide⟩, by decide,
      by simp [White, Newline], by simp [White, Newline], by simp [Newline], by simp [White],
      by simp [White], by simp [Newline]⟩
  · refine ⟨by simp, ⟨_, _, rfl, by decide, by decide⟩, by decide,
      by simp, by simp, by simp, by simp, by simp, by simp [Newline]⟩
  · refine ⟨by simp [Blank, Newline], ⟨_, _, rfl, by decide, by decide⟩, by decide,
      by simp, by simp, by simp [Newline], by simp [White],
      by simp [White], by simp [Newline]⟩

/-- Not every key keeps its value: the names `RAW_CONTENT` and `EXCERPT` may be used in a
header line, and the content replaces them. -/
theorem headers_kept_violated :
    ∃ d : Doc, d.Ok ∧ 2 ≤ d.content.length ∧ lastValue (pairs d.headers) b!"EXCERPT" = some b!"e" ∧
      ∃ t, parse (Content.parse 3) d.text 0 = .ok (.ok t) ∧
        t.lookup b!"EXCERPT" = some b!"<p>hi</p>\n" := by
  refine ⟨⟨[⟨[], b!"EXCERPT", b!" ", b!"e", [], 0x0a⟩], [], 1, b!"\n", b!"hi"⟩, ?_, by decide,
    by decide, ?_⟩
  · refine ⟨?_, by simp, by decide, by simp [Newline], by simp, by decide, by simp [Newline]⟩
    intro h hh
    simp only [List.mem_cons, List.not_mem_nil, or_false] at hh
    rw [hh]
    exact ⟨by simp, ⟨_, _, rfl, by decide, by decide⟩, by decide,
      by simp [White, Newline], by simp, by simp [Newline], by simp [White],
      by simp [White], by simp [Newline]⟩
  · refine ⟨match parse (Content.parse 3) b!"EXCERPT: e\n-\nhi" 0 with
      | .ok (.ok t) => t | _ => .nil, ?_, ?_⟩
    · have : (match parse (Content.parse 3) b!"EXCERPT: e\n-\nhi" 0 with
        | .ok (.ok _) => true | _ => false) = true := by decide +kernel
      show parse (Content.parse 3) b!"EXCERPT: e\n-\nhi" 0 = _
      revert this
      cases parse (Content.parse 3) b!"EXCERPT: e\n-\nhi" 0 with
      | ok x => cases x <;> simp
      | ub => simp
      | out => simp
    · decide +kernel

/-- Every key other than those two has its trimmed value, the last one if it is repeated;
names without a header line, other than those the content sets, have none. -/
theorem headers_kept_partial {t : Trie Str} (depth : Nat) (m : Int) (d : Doc) (hd : d.Ok)
    (h2 : 2 ≤ d.content.length) (h : parse (Content.parse depth) d.text m = .ok (.ok t)) :
    (∀ k ∈ d.headers.map (·.key), k ≠ b!"RAW_CONTENT" → k ≠ b!"EXCERPT" →
      t.lookup k = lastValue (pairs d.headers) k) ∧
    (∀ k, NulFree k → k ∉ contentNames → t.lookup k = lastValue (pairs d.headers) k) := by
  have hck := pairs_ckeys hd.headers
  obtain ⟨r, hr, -, -, -, h4, h5, -, -⟩ := finishContent_lookup (parse_doc_ok d hd h2 h)
  have h4' : ∀ k, NulFree k → k ∉ contentNames → t.lookup k = lastValue (pairs d.headers) k := by
    intro k hk hne
    rw [h4 k hk hne, C07.lookup_inserts _ hck k hk]
  refine ⟨?_, h4'⟩
  intro k hk h1 h2
  obtain ⟨x, hx, rfl⟩ := List.mem_map.1 hk
  have hxok := hd.headers x hx
  have hkn := validKey_nulFree _ hxok.key
  by_cases hc : x.key ∈ contentNames
  · have hc' : x.key ∈ [b!"FIRST_HEADER", b!"DESCRIPTION", b!"TOCTREE"] := by
      have h3 : x.key ≠ b!"CONTENT" := by
        intro he
        exact hxok.allowed (by rw [he]; decide)
      simp only [contentNames, List.mem_cons, List.not_mem_nil, or_false] at hc ⊢
      rcases hc with hc | hc | hc | hc | hc | hc
      · exact absurd hc h1
      · exact absurd hc h3
      · exact absurd hc h2
      · exact .inl hc
      · exact .inr (.inl hc)
      · exact .inr (.inr hc)
    obtain ⟨v, hv⟩ : ∃ v, lastValue (pairs d.headers) x.key = some v := by
      unfold lastValue
      cases hf : (pairs d.headers).reverse.find? (fun kv => kv.1 == x.key) with
      | some v => exact ⟨_, rfl⟩
      | none =>
        have := List.find?_eq_none.1 hf (x.key, x.value) (by
          rw [List.mem_reverse]; exact List.mem_map.2 ⟨x, hx, rfl⟩)
        simp at this
    rw [hv]
    refine h5 x.key hc' v ?_
    rw [C07.lookup_inserts _ hck _ hkn, hv]
  · exact h4' _ hkn hc

/-- `RAW_CONTENT` is the text after the blank lines that follow the separator. -/
theorem raw_content {t : Trie Str} (depth : Nat) (m : Int) (d : Doc) (hd : d.Ok)
    (h2 : 2 ≤ d.content.length) (h : parse (Content.parse depth) d.text m = .ok (.ok t)) :
    t.lookup b!"RAW_CONTENT" = some d.content := by
  obtain ⟨r, -, -, -, h3, -⟩ := finishContent_lookup (parse_doc_ok d hd h2 h)
  exact h3

theorem toInt_range (x : Int) : -(2 ^ 31) ≤ toInt x ∧ toInt x < 2 ^ 31 := by
  unfold toInt; omega

theorem render_ok (hs : List Toctree.Header) (m : Int) (endl : Option Str)
    (hl : ∀ h ∈ hs, 1 ≤ h.level ∧ h.level < 2 ^ 63) (hm : -(2 ^ 31) ≤ m) (hm' : m < 2 ^ 31) :
    ∃ x, Toctree.render hs m endl = .ok x := by
  by_cases h0 : hs = [] ∨ m = 0
  · exact ⟨_, C35.toctree_none hs m endl h0⟩
  · rw [not_or] at h0
    obtain ⟨hp, hL⟩ := C35.lowerLevel_lowest hs h0.1 (fun h hh => (hl h hh).1)
    obtain ⟨toks, h, -⟩ := C35.toctree_correct hs m endl _ h0.1 hl hL h0.2 hm hm'
    exact ⟨_, h⟩

/-- Such a file is accepted when the content parser returns (property C40), unless its
`TOCTREE_MAXDEPTH` is not a number. -/
theorem accepted (depth : Nat) (m : Int) (d : Doc) (hd : d.Ok) (h2 : 2 ≤ d.content.length)
    (hlen : d.content.length < 2 ^ 63) (hm : -(2 ^ 31) ≤ m) (hm' : m < 2 ^ 31)
    (hcp : ∀ b, ∃ r, Content.parse depth d.content b = .ok r)
    (hmax : ∀ v, lastValue (pairs d.headers) b!"TOCTREE_MAXDEPTH" = some v → (strtol v).2 = []) :
    ∃ t, parse (Content.parse depth) d.text m = .ok (.ok t) := by
  have hck := pairs_ckeys hd.headers
  rw [parse_doc d hd h2]
  generalize hT : (Trie.inserts (pairs d.headers)).1 = T
  have hmax' : T.lookup b!"TOCTREE_MAXDEPTH" = lastValue (pairs d.headers) b!"TOCTREE_MAXDEPTH" := by
    rw [← hT, C07.lookup_inserts _ hck _ (by decide)]
  suffices hs : ∃ t, finishContent (Content.parse depth) m T d.content = .ok (.ok t) by
    obtain ⟨t, ht⟩ := hs
    exact ⟨t, by rw [ht]; rfl⟩
  unfold finishContent
  obtain ⟨r, hr⟩ := hcp (decide (((T.insert b!"RAW_CONTENT" d.content).1.lookup b!"TOCTREE") = none))
  have hlev := Content.parseBlocks_headers false depth d.content ⟨true, true, true,
    decide (((T.insert b!"RAW_CONTENT" d.content).1.lookup b!"TOCTREE") = none)⟩ none
  have hr' := hr
  unfold Content.parse at hr'
  rw [hr'] at hlev
  have hlev' : ∀ h ∈ r.headers, 1 ≤ h.level ∧ h.level < 2 ^ 63 := by
    intro h hh
    have := hlev.2 h hh
    omega
  simp only [hr, Run.bind_ok]
  suffices hs : ∀ u : Trie Str, u.lookup b!"TOCTREE_MAXDEPTH" = T.lookup b!"TOCTREE_MAXDEPTH" →
      ∃ t, tableOfContents m u r = .ok (.ok t) by
    obtain ⟨t, ht⟩ := hs (insertNew (insertNew (T.insert b!"RAW_CONTENT" d.content).1
      b!"FIRST_HEADER" r.firstHeader) b!"DESCRIPTION" r.description) (by
        rw [insertNew_lookup _ _ _ _ (by decide) (by decide), if_neg (by decide),
          insertNew_lookup _ _ _ _ (by decide) (by decide), if_neg (by decide),
          Trie.lookup_insert _ _ _ _ (by decide) (by decide), if_neg (by decide)])
    exact ⟨addContent t r, by unfold addResults; rw [ht]⟩
  intro u hu
  have toc : ∀ x : Int, -(2 ^ 31) ≤ x → x < 2 ^ 31 →
      ∃ t, insertToc u (Toctree.render r.headers x (some r.lineEnding)) = .ok (.ok t) := by
    intro x hx hx'
    obtain ⟨o, ho⟩ := render_ok r.headers x (some r.lineEnding) hlev' hx hx'
    rw [ho]
    cases o <;> exact ⟨_, rfl⟩
  unfold tableOfContents
  split
  · exact ⟨_, rfl⟩
  · cases hv : u.lookup b!"TOCTREE_MAXDEPTH" with
    | none => exact toc m hm hm'
    | some v =>
      have := hmax v (by rw [← hmax', ← hu, hv])
      simp only [this]
      rw [if_neg (by simp)]
      exact toc _ (toInt_range _).1 (toInt_range _).2

/-- The sample is accepted, with the last title. -/
example : (sample b!"# h\n\nb\n").Ok ∧
    (match parse (Content.parse 3) (sample b!"# h\n\nb\n").text 5 with
     | .ok (.ok t) => [t.lookup b!"TITLE", t.lookup b!"X_1", t.lookup b!"RAW_CONTENT", t.lookup b!"FIRST_HEADER"]
     | _ => []) = [some b!"c", some [], some b!"# h\n\nb\n", some b!"h"] :=
  ⟨sample_ok _ (by decide) (by simp [Newline]), by decide +kernel⟩

theorem shape_of {cp : Str → Bool → Run Content.BSt} {src : Str} {t : Trie Str} (hn : NulFree src) (m : Int)
    (h : parse cp src m = .ok (.ok t)) :
    ∃ (hs : List Header) (p : Str), (∀ h ∈ hs, h.Ok) ∧ src = headersText hs ++ p ∧
      ((Unfinished p ∧ ∀ k, NulFree k → t.lookup k = lastValue (pairs hs) k) ∨
       (∃ d : Doc, d.headers = hs ∧ d.Ok ∧ 2 ≤ d.content.length ∧ d.text = src)) := by
  obtain ⟨rs, p, hok, hsrc, hend⟩ := parse_sound h
  have hex : ∀ rs : List Raw, (∀ h ∈ rs, h.Ok) → NulFree (rawText rs) →
      ∃ hs : List Header, hs.map toRaw = rs ∧ ∀ h ∈ hs, h.Ok := by
    intro rs
    induction rs with
    | nil => intro _ _; exact ⟨[], rfl, by simp⟩
    | cons x rs ih =>
      intro hok hnul
      have e : rawText (x :: rs) = x.text ++ rawText rs := by simp [rawText]
      rw [e] at hnul
      obtain ⟨hs, h1, h2⟩ := ih (fun h hh => hok h (by simp [hh]))
        (fun c hc => hnul c (by simp [hc]))
      have hx := hok x (by simp)
      obtain ⟨⟨pre, post, hm, hp1, hp2⟩, hf, hl⟩ := C04.strip_middle x.raw
      have hraw : ∀ c ∈ x.raw, ¬ Newline c ∧ c ≠ 0 :=
        fun c hc => ⟨hx.raw c hc, hnul c (by simp [Raw.text, hc])⟩
      rw [hm] at hraw
      have e2 : toRaw ⟨x.blanks, x.key, pre, strip x.raw, post, x.nl⟩ = x := by
        unfold toRaw
        simp only
        rw [← hm]
      refine ⟨⟨x.blanks, x.key, pre, strip x.raw, post, x.nl⟩ :: hs, by rw [List.map_cons, h1, e2], ?_⟩
      intro h hh
      rcases List.mem_cons.1 hh with rfl | hh
      · exact ⟨hx.blanks, hx.key, hx.allowed, fun c hc => ⟨hp1 c hc, (hraw c (by simp [hc])).1⟩,
          fun c hc => ⟨hp2 c hc, (hraw c (by simp [hc])).1⟩, fun c hc => hraw c (by simp [hc]),
          hf, hl, hx.nl⟩
      · exact h2 h hh
  obtain ⟨hs, rfl, hok'⟩ := hex rs hok (fun c hc => hn c (by simp [hsrc, hc]))
  rw [toRaw_headersText] at hsrc
  rw [toRaw_pairs hok'] at hend
  refine ⟨hs, p, hok', hsrc, ?_⟩
  rcases hend with ⟨hu, ht⟩ | ⟨w, hw, hf⟩
  · refine .inl ⟨hu, fun k hk => ?_⟩
    rw [ht, C07.lookup_inserts _ (pairs_ckeys hok') k hk]
  · cases hw with
    | @mk bl n nls a w b hb hnl hne ha =>
      refine .inr ⟨⟨hs, bl, n + 1, nls, a :: w ++ [b]⟩, rfl,
        ⟨hok', hb, by simp, hnl, hne, ?_, ?_⟩, by simp, ?_⟩
      · intro c hc
        exact hn c (by rw [hsrc]; exact List.mem_append_right _ (List.mem_append_right _ hc))
      · intro c hc; simp at hc; rw [← hc]; exact ha
      · rw [hsrc]; simp [Doc.text]

/-- The header lines of an accepted file, whatever its bytes: every accepted text without NUL is
header lines followed by an ending that says nothing (blank space, an unfinished
line, a separator with at most one byte) or by a separator and a content, and the names outside
the content's have the values of the header lines. -/
theorem accepted_shape {src : Str} {t : Trie Str} (hn : NulFree src) (depth : Nat) (m : Int)
    (h : parse (Content.parse depth) src m = .ok (.ok t)) :
    ∃ (hs : List Header) (p : Str), (∀ h ∈ hs, h.Ok) ∧ src = headersText hs ++ p ∧
      ((Unfinished p ∧ ∀ k, NulFree k → t.lookup k = lastValue (pairs hs) k) ∨
       (∃ d : Doc, d.headers = hs ∧ d.Ok ∧ 2 ≤ d.content.length ∧ d.text = src)) :=
  shape_of hn m h

end Blogc.C17
