import Mathlib.Data.List.Permutation
import Verif.Lemmas.PageRun
import Verif.Props.C70

/-!
# C102: from the files and the command line to the page

blogc as a whole: source files written as described in blogc-source(7), a template written as described
in blogc-template(7) and a command line give the page that these manuals describe.
-/

namespace Blogc.C102

open Blogc Blogc.Spec Blogc.Spec.Page Blogc.Spec.CommandLine Blogc.Spec.Request Blogc.Render Blogc.Doc Blogc.PageRun

/-- A run of blogc for a request writes the page that is asked for. `depth` bounds the nesting of
blockquotes the model follows, `fuel` the rounds of its loops; neither matters when large enough. -/
theorem page_partial (h : Program.Host) (files : Str → Option Str) (xs : List Opt) (post : Str → Post) (time : Str → Int)
    (tname : Str) (ts : List Tokens.Tok) (m : Int) (pg : Option (Nat × Nat))
    (req : Request.CommandLine (seconds h) files h.version h.stdin xs post time tname ts m pg)
    (t : T) (ht : Doc.Ok false false t) (hmean : Tokens.meaning false ts = nodes t) (used : List Str → Prop)
    (hn : ∀ l count, Listed (globals h.version xs) post time (names h.stdin xs) l count pg →
      NoLeak ⟨l, decide (.listing ∈ xs)⟩ (Apart (l ++ entries xs) post) (used l) false t) :
    ∃ d, ∀ depth ≥ d, ∃ out n,
      IsPage h.sys (globals h.version xs) (decide (.listing ∈ xs)) (names h.stdin xs) (entries xs) post time m pg t out ∧
      ∀ fuel ≥ n, ∃ o, o.output = (xs.filterMap outputOf).getLast? ∧
        Program.run h files depth fuel (xs.flatMap Opt.args) = Main.writeOut o out := by
  obtain ⟨o, ho, hmo⟩ := C70.reads h.make h.version xs req.options
  obtain ⟨d, hd⟩ := body_page h files _ _ _ _ post time tname ts m pg o.config hmo.config req.render t ht hmean used hn
  refine ⟨d, fun depth hdep => ?_⟩
  obtain ⟨out, n, h1, h2⟩ := hd depth hdep
  refine ⟨out, n, h1, fun fuel hfuel => ⟨o, hmo.output, ?_⟩⟩
  have hsrc : Main.allSources (Program.env h files depth fuel) o = names h.stdin xs :=
    C85.sources_partial (Program.env h files depth fuel) xs o hmo (fun c hc => (req.input c hc).1) fun ln hl => by
      rintro ⟨c, hc, hc'⟩
      have := req.input c ((C34.mem_lines _ _ hl c ((List.dropWhile_suffix _).subset (List.mem_of_mem_head? hc))).1)
      rcases hc' with rfl | rfl
      · exact this.2.1 rfl
      · exact this.2.2 rfl
  show Main.main _ _ = _
  unfold Main.main
  rw [show (Program.env h files depth fuel).make = h.make from rfl,
    show (Program.env h files depth fuel).version = h.version from rfl, ho]
  refine h2 fuel hfuel h.stdin o hmo.config ?_ ?_ hmo.entries (hmo.template.trans req.template) hsrc
  · rw [Bool.eq_iff_iff, decide_eq_true_iff]; exact hmo.listing
  · rw [hmo.print, List.filterMap_eq_nil_iff.2 req.print]; rfl

/-- A single page, with a template for single pages: no condition on the names in the template. -/
theorem single_partial (h : Program.Host) (files : Str → Option Str) (xs : List Opt) (post : Str → Post) (time : Str → Int)
    (tname : Str) (ts : List Tokens.Tok) (m : Int) (req : Request.CommandLine (seconds h) files h.version h.stdin xs post time tname ts m none)
    (hx : .listing ∉ xs) (f : Str) (hf : names h.stdin xs = [f]) (htag : globals h.version xs b!"FILTER_TAG" = none)
    (t : T) (ht : Doc.Ok false false t) (hmean : Tokens.meaning false ts = nodes t) (he : EntryOnly t) :
    ∃ d, ∀ depth ≥ d, ∃ (v g : Table) (out : Str) (n : Nat),
      Shows f m (post f) v.lookup ∧
      (∀ k, NulFree k → g.lookup k = (edge (some v.lookup) (some v.lookup) k).or (globals h.version xs k)) ∧
      Doc.text (evaluator h.sys) ⟨[v], false⟩ t [] g = .ok out ∧
      ∀ fuel ≥ n, ∃ o, o.output = (xs.filterMap outputOf).getLast? ∧
        Program.run h files depth fuel (xs.flatMap Opt.args) = Main.writeOut o out := by
  have hl : decide (Opt.listing ∈ xs) = false := decide_eq_false hx
  obtain ⟨d, hd⟩ := page_partial h files xs post time tname ts m none req t ht hmean (fun _ => True)
    fun _ _ _ => noLeak_entry hl t he _
  refine ⟨d, fun depth hdep => ?_⟩
  obtain ⟨out, n, ⟨l, count, vars, evars, g, h0, h1, -, h2, h3⟩, h4⟩ := hd depth hdep
  have hc : l = [f] := by
    obtain ⟨all, ha, rfl⟩ := h0
    have := ha.perm
    rw [hf] at this
    rw [List.perm_singleton.1 this]
    have : Tagged (globals h.version xs) (post f) := fun tag h => by rw [htag] at h; cases h
    simp [tagged, this]
  subst hc
  rw [hl] at h3
  exact ⟨vars f, g, out, n, h1 f (by rw [hf]; simp), h2, h3, h4⟩

/-! ## An example -/

/-- A post with the content of C74. -/
def samplePost (hs : List Source.Header) : Post :=
  ⟨⟨hs, [], 3, b!"\n", b!"# Hi\n\na\n<b\n\n..\n\n> q\n"⟩, b!"\n", C74.sampleParts⟩

def header (k v : Str) : Source.Header := ⟨[], k, b!" ", v, [], c!"\n"⟩

def hello : Post := samplePost [header b!"TITLE" b!"Hello", header b!"DATE" b!"2020-01-02", header b!"TAGS" b!"x y"]
def other : Post := samplePost [header b!"TITLE" b!"Other", header b!"DATE" b!"2021-03-04", header b!"TAGS" b!"y"]

def sampleFiles (f : Str) : Option Str :=
  if f = b!"posts/a.txt" then some (b!"TITLE: Hello\nDATE: 2020-01-02\nTAGS: x y\n---\n# Hi\n\na\n<b\n\n..\n\n> q\n")
  else if f = b!"b.txt" then some (bom ++ b!"TITLE: Other\nDATE: 2021-03-04\nTAGS: y\n---\n# Hi\n\na\n<b\n\n..\n\n> q\n")
  else if f = b!"t" then
    some b!"{{ SITE }}{{ NEXT_PAGE }}{% block listing %}[{{ TITLE }}|{{ EXCERPT }}]{% endblock %}\n"
  else if f = b!"e" then some b!"{% block entry %}{{ TITLE }}{% endblock %}"
  else none

def samplePosts (f : Str) : Post := if f = b!"posts/a.txt" then hello else other
def sampleTime (f : Str) : Int := if f = b!"posts/a.txt" then 1577923200 else 1614816000

/-- A system that knows the time of the two dates, and gives a list of one file. -/
def sampleHost : Program.Host where
  version := b!"1.0"
  make := false
  stdin := b!" b.txt\n"
  sys := ⟨none, none, none, none, false, fun f tm =>
    if f = b!"%s" then some (decInt (if tm.year = 120 then 1577923200 else 1614816000)) else none⟩

/-- `blogc -l -i -DSITE=s -D FILTER_TAG=y … -t t -o out/index.html posts/a.txt` -/
def sampleLine : List Opt :=
  [.listing, .stdin, .define b!"SITE" b!"s" false, .define b!"FILTER_TAG" b!"y" true, .define b!"FILTER_SORT" b!"1" true,
    .define b!"FILTER_PAGE" b!"1" true, .define b!"FILTER_PER_PAGE" b!"1" true, .template b!"t" true,
    .output b!"out/index.html" true, .source b!"posts/a.txt"]

def sampleTokens : List Tokens.Tok :=
  [.var b!" " b!"SITE" b!" ", .var b!" " b!"NEXT_PAGE" b!" ", .stmt false b!" " (.block b!" " b!"listing" b!" ") false,
    .text b!"[", .var b!" " b!"TITLE" b!" ",
    .text b!"|", .var b!" " b!"EXCERPT" b!" ", .text b!"]", .stmt false b!" " (.endblock b!" ") false, .text b!"\n"]

def sampleTree : T :=
  .var b!"SITE" (.var b!"NEXT_PAGE" (.block b!"listing"
    (.text b!"[" (.var b!"TITLE" (.text b!"|" (.var b!"EXCERPT" (.text b!"]" .done)))))
    (.text b!"\n" .done)))

theorem ascii (s : Str) (h : ∀ c ∈ s, c.toNat < 0x80) : WellFormedUtf8 s := by
  refine ⟨s.map (·.toNat), ?_, ?_⟩
  · intro c hc
    obtain ⟨x, hx, rfl⟩ := List.mem_map.1 hc
    have := h x hx
    exact .inl (by omega)
  · induction s with
    | nil => rfl
    | cons c s ih =>
      rw [List.map_cons, List.flatMap_cons, ← ih fun x hx => h x (by simp [hx]), encode, if_pos (h c (by simp))]
      simp

theorem header_ok (k v : Str) (hk : Source.ValidKey k) (hr : k ∉ Source.reserved)
    (hv : (∀ c ∈ v, ¬ Source.Newline c ∧ c ≠ 0) ∧ (∀ c, v.head? = some c → ¬ White c) ∧ ∀ c, v.getLast? = some c → ¬ White c) :
    (header k v).Ok where
  blanks := by simp [header]
  key := hk
  allowed := hr
  lead := by simp [header, White, Source.Newline]
  trail := by simp [header]
  value := hv.1
  value_first := hv.2.1
  value_last := hv.2.2
  nl := .inl rfl

theorem hello_written : hello.Written (b!"TITLE: Hello\nDATE: 2020-01-02\nTAGS: x y\n---\n# Hi\n\na\n<b\n\n..\n\n> q\n") where
  bytes := by decide
  utf8 := ascii _ (by decide)
  doc := {
    headers := by
      intro h hh
      simp only [hello, samplePost, List.mem_cons, List.not_mem_nil, or_false] at hh
      rcases hh with rfl | rfl | rfl <;> exact header_ok _ _ ⟨_, _, rfl, by decide, by decide⟩ (by decide) (by simp [White, Source.Newline])
    blanks := by simp [hello, samplePost]
    dashes := by decide
    nls := by simp [hello, samplePost, Source.Newline]
    nls_ne := by decide
    content := by decide
    content_first := by simp [hello, samplePost, Source.Newline] }
  ending := .inl rfl
  parts := C74.sample_doc
  length := by decide
  depth := ⟨-1, .none⟩

theorem other_written : other.Written (bom ++ b!"TITLE: Other\nDATE: 2021-03-04\nTAGS: y\n---\n# Hi\n\na\n<b\n\n..\n\n> q\n") where
  bytes := by decide
  utf8 := ascii _ (by decide)
  doc := {
    headers := by
      intro h hh
      simp only [other, samplePost, List.mem_cons, List.not_mem_nil, or_false] at hh
      rcases hh with rfl | rfl | rfl <;> exact header_ok _ _ ⟨_, _, rfl, by decide, by decide⟩ (by decide) (by simp [White, Source.Newline])
    blanks := by simp [other, samplePost]
    dashes := by decide
    nls := by simp [other, samplePost, Source.Newline]
    nls_ne := by decide
    content := by decide
    content_first := by simp [other, samplePost, Source.Newline] }
  ending := .inl rfl
  parts := C74.sample_doc
  length := by decide
  depth := ⟨-1, .none⟩

theorem sample_names : names sampleHost.stdin sampleLine = [b!"posts/a.txt", b!"b.txt"] := by decide +kernel

theorem sample_request : Request.CommandLine (seconds sampleHost) sampleFiles b!"1.0" sampleHost.stdin sampleLine
    samplePosts sampleTime b!"t" sampleTokens (-1) (some (1, 1)) where
  options := by
    intro x hx
    simp only [sampleLine, List.mem_cons, List.not_mem_nil, or_false] at hx
    rcases hx with rfl | rfl | rfl | rfl | rfl | rfl | rfl | rfl | rfl | rfl
    iterate 2 trivial
    iterate 5 exact ⟨⟨_, _, rfl, by decide, by decide⟩, ascii _ (by decide)⟩
    iterate 2 exact fun h => (nomatch h)
    simp [Opt.Ok]
  input := by decide
  print := by decide
  template := by decide
  render := {
    depth := .none
    text := ⟨_, rfl, by decide +kernel⟩
    utf8 := ascii _ (by decide +kernel)
    tokens := by
      simp only [sampleTokens, Tokens.Ok, Tokens.TextOk, Tokens.TextEnd, Tokens.Stmt.Ok, Template.IsName]
      refine ⟨by decide, ⟨⟨_, _, rfl, by decide⟩, by decide⟩, by decide, by decide, ⟨⟨_, _, rfl, by decide⟩, by decide⟩,
        by decide, by decide, ⟨by decide, by decide, by decide⟩,
        fun h => (nomatch h), ⟨by decide, by unfold NulFree; decide, by decide, by decide⟩, by decide,
        by decide, ⟨⟨_, _, rfl, by decide⟩, by decide⟩, by decide,
        ⟨by decide, by unfold NulFree; decide, by decide, by decide⟩, by decide,
        by decide, ⟨⟨_, _, rfl, by decide⟩, by decide⟩, by decide,
        ⟨by decide, by unfold NulFree; decide, by decide, by decide⟩, by decide,
        by decide, by decide, fun h => (nomatch h),
        ⟨by decide, by unfold NulFree; decide, by decide, by decide⟩, ?_, trivial⟩
      intro p c e
      have := congrArg List.length e
      simp at this
    count := .inl (by decide)
    few := by decide
    sources := by rw [sample_names]; decide
    posts := by
      intro f hf _
      have : f = b!"posts/a.txt" ∨ f = b!"b.txt" := by
        rw [sample_names] at hf
        simpa [entries, sampleLine, entryOf] using hf
      rcases this with rfl | rfl
      · exact ⟨_, rfl, hello_written⟩
      · exact ⟨_, rfl, other_written⟩
    dates := .inl (by rw [sample_names]; decide)
    sorted _ := by
      rw [sample_names]
      refine ⟨fun f hf => ?_, by decide, by decide⟩
      simp only [List.mem_cons, List.not_mem_nil, or_false] at hf
      rcases hf with rfl | rfl
      · exact ⟨b!"2020-01-02", by decide, by decide +kernel⟩
      · exact ⟨b!"2021-03-04", by decide, by decide +kernel⟩
    page := .page (v := b!"1") (by decide) ⟨by decide, by simp [Digit]⟩
      (.given (v := b!"1") ⟨by decide, by simp [Digit]⟩ (by decide)) (by decide) }

/-- The newest file is the first page. -/
theorem sample_listed (l : List Str) (count : Nat)
    (h : Listed (globals b!"1.0" sampleLine) samplePosts sampleTime (names sampleHost.stdin sampleLine) l count (some (1, 1))) :
    l = [b!"b.txt"] ∧ count = 2 := by
  obtain ⟨all, ho, hl, hc⟩ := h
  have hsort : On (globals b!"1.0" sampleLine) b!"FILTER_SORT" := ⟨b!"1", by decide, .inl rfl⟩
  have hrev : ¬ On (globals b!"1.0" sampleLine) b!"FILTER_REVERSE" := fun ⟨v, h, _⟩ => absurd h (by
    rw [show globals b!"1.0" sampleLine b!"FILTER_REVERSE" = none by decide]; simp)
  have hp := ho.newest hsort hrev
  have hm := List.mem_permutations'.2 ho.perm
  rw [sample_names, show [b!"posts/a.txt", b!"b.txt"].permutations' = [[b!"posts/a.txt", b!"b.txt"], [b!"b.txt", b!"posts/a.txt"]]
    by decide] at hm
  have hall : all = [b!"b.txt", b!"posts/a.txt"] := by
    simp only [List.mem_cons, List.not_mem_nil, or_false] at hm
    rcases hm with rfl | rfl
    · exact absurd hp (by decide)
    · rfl
  subst hall
  have hg : globals b!"1.0" sampleLine b!"FILTER_TAG" = some b!"y" := by decide
  have h1 : Tagged (globals b!"1.0" sampleLine) (samplePosts b!"posts/a.txt") := by
    intro tag ht
    rw [hg] at ht
    cases ht
    exact ⟨b!"x y", by decide, by decide, by decide, b!"x ", [], rfl, .inr ⟨b!"x", rfl⟩, .inl rfl⟩
  have h2 : Tagged (globals b!"1.0" sampleLine) (samplePosts b!"b.txt") := by
    intro tag ht
    rw [hg] at ht
    cases ht
    exact ⟨b!"y", by decide, by decide, by decide, [], [], rfl, .inl rfl, .inl rfl⟩
  have h3 : tagged (globals b!"1.0" sampleLine) samplePosts [b!"b.txt", b!"posts/a.txt"] = [b!"b.txt", b!"posts/a.txt"] := by
    simp [tagged, h1, h2]
  rw [h3] at hl hc
  refine ⟨hl, ?_⟩
  have := hc.1
  have := hc.2 2 (by decide)
  simp at *
  omega

/-- The hypotheses hold for it. -/
example : ∃ d, ∀ depth ≥ d, ∃ (v g : Table) (out : Str) (n : Nat),
    Shows b!"b.txt" (-1) other v.lookup ∧ g.lookup b!"NEXT_PAGE" = some b!"2" ∧
    Doc.text (evaluator sampleHost.sys) ⟨[v], true⟩ sampleTree [] g = .ok out ∧
    ∀ fuel ≥ n, ∃ o, o.output = some b!"out/index.html" ∧
      Program.run sampleHost sampleFiles depth fuel (sampleLine.flatMap Opt.args) = Main.writeOut o out := by
  obtain ⟨d, hd⟩ := page_partial sampleHost sampleFiles sampleLine samplePosts sampleTime b!"t" sampleTokens (-1)
    (some (1, 1)) sample_request sampleTree (by simp [sampleTree, Doc.Ok, Template.blockTypes]) (by decide +kernel) (fun _ => True)
    (fun l count h => by
      obtain ⟨rfl, -⟩ := sample_listed l count h
      simp [sampleTree, NoLeak, Used, sampleLine, Plain])
  refine ⟨d, fun depth h1 => ?_⟩
  obtain ⟨out, n, ⟨l, count, vars, evars, g, h0, h2, -, h3, h4⟩, h5⟩ := hd depth h1
  obtain ⟨rfl, rfl⟩ := sample_listed l count h0
  exact ⟨vars b!"b.txt", g, out, n, h2 _ (by rw [sample_names]; decide), by rw [h3 _ (by decide)]; rfl, h4, h5⟩

/-- The calls of a run in which all succeed. -/
def calls : Prog Main.Call Main.Outcome → List Main.Call × Main.Outcome
  | .ret r => ([], r)
  | .call c k => let q := calls (k true); (c :: q.1, q.2)

/-- And this is the page. -/
example : calls (Program.run sampleHost sampleFiles 120 300 (sampleLine.flatMap Opt.args)) =
    ([.mkdir b!"out", .open b!"out/index.html", .write b!"out/index.html"
      b!"s2[Other|<h1 id=\"hi\">Hi</h1>\n<p>a\n&lt;b</p>\n]\n", .close b!"out/index.html"], .exit 0) := by
  decide +kernel

/-- `blogc -te b.txt`, where the template is for single pages. -/
def singleLine : List Opt := [.template b!"e" false, .source b!"b.txt"]

def singleTokens : List Tokens.Tok :=
  [.stmt false b!" " (.block b!" " b!"entry" b!" ") false, .var b!" " b!"TITLE" b!" ",
    .stmt false b!" " (.endblock b!" ") false]

theorem single_names (stdin : Str) : names stdin singleLine = [b!"b.txt"] := rfl

theorem single_request (h : Program.Host) (hin : ∀ c ∈ h.stdin, c ≠ 0 ∧ c ≠ 0x0b ∧ c ≠ 0x0c) :
    Request.CommandLine (seconds h) sampleFiles h.version h.stdin singleLine samplePosts sampleTime b!"e" singleTokens (-1)
      none where
  options := by
    intro x hx
    simp only [singleLine, List.mem_cons, List.not_mem_nil, or_false] at hx
    rcases hx with rfl | rfl
    · simp [Opt.Ok]
    · simp [Opt.Ok]
  input := hin
  print := by decide
  template := by decide
  render := {
    depth := .none
    text := ⟨_, rfl, by decide +kernel⟩
    utf8 := ascii _ (by decide +kernel)
    tokens := by
      simp only [singleTokens, Tokens.Ok, Tokens.Stmt.Ok, Template.IsName]
      exact ⟨by decide, ⟨by decide, by decide, by decide⟩, fun h => (nomatch h), by decide,
        ⟨⟨_, _, rfl, by decide⟩, by decide⟩, by decide, by decide, by decide, fun h => (nomatch h), trivial⟩
    count := .inr rfl
    few := by show 1 < _; decide
    sources := by rw [single_names]; decide
    posts := by
      intro f hf _
      rw [single_names] at hf
      have : f = b!"b.txt" := by simpa [entries, singleLine, entryOf] using hf
      subst this
      exact ⟨_, rfl, other_written⟩
    dates := .inl (by rw [single_names]; decide)
    sorted := fun ⟨v, hv, _⟩ => absurd hv (by rw [show globals h.version singleLine b!"FILTER_SORT" = none from rfl]; simp)
    page := .all rfl }

example (h : Program.Host) (hin : ∀ c ∈ h.stdin, c ≠ 0 ∧ c ≠ 0x0b ∧ c ≠ 0x0c) : ∃ d, ∀ depth ≥ d, ∃ (v g : Table) (out : Str) (n : Nat),
    Shows b!"b.txt" (-1) other v.lookup ∧ Doc.text (evaluator h.sys) ⟨[v], false⟩
      (.block b!"entry" (.var b!"TITLE" .done) .done) [] g = .ok out ∧
    ∀ fuel ≥ n, ∃ o, o.output = none ∧
      Program.run h sampleFiles depth fuel [b!"-te", b!"b.txt"] = Main.writeOut o out := by
  obtain ⟨d, hd⟩ := single_partial h sampleFiles singleLine samplePosts sampleTime b!"e" singleTokens (-1)
    (single_request h hin) (by decide) b!"b.txt" rfl rfl (.block b!"entry" (.var b!"TITLE" .done) .done)
    (by simp [Doc.Ok, Template.blockTypes]) (by decide +kernel) ⟨rfl, trivial⟩
  refine ⟨d, fun depth h1 => ?_⟩
  obtain ⟨v, g, out, n, h2, -, h3, h4⟩ := hd depth h1
  exact ⟨v, g, out, n, h2, h3, h4⟩

end Blogc.C102
