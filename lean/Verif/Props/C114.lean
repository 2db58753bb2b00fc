import Verif.Lemmas.MainNames
import Verif.Lemmas.TemplateInfix
import Verif.Props.C102

/-!
# C114: a page depends only on the variables its template names

A variable that a template does not name makes no difference: not in the table of a source file, not as a
definition on the command line, not as a header line of a source file. What a template names
(`Spec.Names`) are the words in its statements, the names that these stand for, what its iterators go over
and the format of dates. The loader uses a few variables by itself (`FILTER_…`, `TOCTREE_MAXDEPTH`; `DATE`,
`TAGS` and `FILENAME` of sources), and so these are excepted.
-/

namespace Blogc.C114

open Blogc Blogc.Spec Blogc.Main Blogc.Render Blogc.Render.Nam
open Blogc.Spec.CommandLine (Opt definitionOf)
open Blogc.Spec.Source (Doc Header)

/-- Rendering with tables that agree on the variables the template names gives the same text. -/
theorem page (sys : Sys) (fuel : Nat) (tmpl : List Template.Node) (sources sources' : List Table) (listing : Bool)
    (entries entries' : List (Option Table)) (global global' : Table)
    (hs : All2 (AgreeOn (Names tmpl)) sources sources') (he : All2 (Opt2 (AgreeOn (Names tmpl))) entries entries')
    (hg : AgreeOn (Names tmpl) global global') :
    render (evaluator sys) fuel tmpl ⟨sources, listing⟩ entries global =
      render (evaluator sys) fuel tmpl ⟨sources', listing⟩ entries' global' :=
  render_rel (X := rels (Names tmpl)) (evaluator_respects sys _) fuel (fits_names _ tmpl fun _ h => h) hs listing he hg

/-- The variables of a source that matter: those the run asks for, and those the loader uses. -/
def OfSources (env : Env) (o : Opts) (k : Str) : Prop :=
  RunNames env o k ∨ k ∈ [b!"DATE", b!"TAGS", b!"FILENAME"]

/-- The variables of the command line that matter. -/
def OfLine (env : Env) (o : Opts) (k : Str) : Prop :=
  RunNames env o k ∨ k ∈ [b!"FILTER_SORT", b!"FILTER_REVERSE", b!"FILTER_TAG", b!"FILTER_PAGE", b!"FILTER_PER_PAGE",
    b!"TOCTREE_MAXDEPTH"]

theorem local_of (env : Env) (o : Opts) : Local (OfSources env o) :=
  ⟨.inr (by simp), .inr (by simp), .inr (by simp)⟩

theorem global_of (env : Env) (o : Opts) : Global (OfLine env o) :=
  ⟨.inr (by simp), .inr (by simp), .inr (by simp), .inr (by simp), .inr (by simp), .inr (by simp)⟩

/-- Runs that differ in the variables that do not matter do the same: the same page, in the same place, or the
same failure. -/
theorem run (env env' : Env) (o o' : Opts)
    (hst : env.loader.stamp = env'.loader.stamp) (hsys : env.sys = env'.sys) (hfu : env.fuel = env'.fuel)
    (hin : env.stdin = env'.stdin) (htm : ∀ t, o.template = some t → env.template t = env'.template t)
    (hpa : ∀ f ∈ allSources env o ++ o.entries, ∀ m,
      Opt2 (AgreeOn (OfSources env o)) (env.loader.parse m f) (env'.loader.parse m f))
    (ho : o' = { o with config := o'.config }) (hc : AgreeOn (OfLine env o) o.config o'.config) :
    body env o = body env' o' := by
  rw [ho]
  exact body_rel (local_of env o) (global_of env o) (fun _ h => .inl h) (fun _ h => .inl h) (fun d => by rw [hst])
    hsys hfu hpa htm rfl rfl rfl rfl rfl (by unfold allSources; rw [hin]) hc

/-! ## Definitions -/

/-- Names of a run on files: they are C strings or begin with a quote, if the variable to print is a C string. -/
theorem runNames_cut (h : Program.Host) (files : Program.Files) (depth fuel : Nat) (o : Opts)
    (hp : ∀ w, o.print = some w → NulFree w) {x k : Str} (hx : MakeSettings.ValidKey x)
    (hn : ¬ RunNames (Program.env h files depth fuel) o x)
    (hk : RunNames (Program.env h files depth fuel) o k) : k.takeWhile (· ≠ 0) ≠ x := by
  have hfree : NulFree k → k.takeWhile (· ≠ 0) ≠ x := by
    intro hf e
    have : k.takeWhile (· ≠ 0) = k := List.takeWhile_eq_self_iff.2 fun c hc => by simpa using hf c hc
    rw [this] at e
    subst e
    exact hn hk
  have hor : NulFree k ∨ ∃ r, k = c!"\"" :: r := by
    rcases hk with ⟨t, tmpl, -, -, ht, hk⟩ | ⟨w, hw, hk | ⟨rfl, -⟩⟩
    · have hr : ∃ s, Template.parse s = .ok (.ok tmpl) := by
        have ht : Program.value (Program.readTemplate files fuel t) = some tmpl := ht
        unfold Program.readTemplate at ht
        cases hr : Program.readText files fuel t with
        | ub => rw [hr] at ht; cases ht
        | out => rw [hr] at ht; cases ht
        | ok s =>
          rw [hr, Run.bind_ok] at ht
          cases s with
          | none => cases ht
          | some s =>
            refine ⟨s, ?_⟩
            simp only at ht
            split at ht
            · cases ht
            · cases ht
            · rename_i hs
              cases ht
              exact hs
      obtain ⟨s, hs⟩ := hr
      exact names_nulFree hs hk
    · left
      intro c hc
      obtain ⟨r, e⟩ := standsFor_prefix hk
      exact hp w hw c (by rw [← e]; exact List.mem_append_left _ hc)
    · left; decide
  rcases hor with hf | ⟨r, rfl⟩
  · exact hfree hf
  · obtain ⟨c, rest, rfl, h1, -⟩ := hx
    intro e
    rw [List.takeWhile_cons] at e
    simp only [show (decide ((c!"\"" : Byte) ≠ 0)) = true from by decide, if_true, List.cons.injEq] at e
    rw [← e.1] at h1
    exact absurd h1.1 (by decide)

theorem lastValue_skip (a b : List (Str × Str)) (x v k : Str) (h : k ≠ x) :
    lastValue (a ++ (x, v) :: b) k = lastValue (a ++ b) k := by
  unfold lastValue
  simp only [List.reverse_append, List.reverse_cons, List.append_assoc, List.find?_append, List.singleton_append,
    List.find?_cons]
  rw [show (x == k) = false from by simpa using fun e => h e.symm]

/-- Tables that agree outside `x` agree on all names that are not `x`. -/
theorem agreeOn_apart {P : Str → Prop} {x : Str} (hP : ∀ k, P k → k.takeWhile (· ≠ 0) ≠ x) {a b : Table}
    (h : ∀ k, NulFree k → k ≠ x → a.lookup k = b.lookup k) : AgreeOn P a b := by
  intro k hk
  rw [lookup_cut a, lookup_cut b]
  exact h _ (nulFree_cut k) (hP k hk)

/-- A definition on the command line, at any place in it, of a variable that is not asked for and not one of the
loader makes no difference. -/
theorem definition (h : Program.Host) (files : Program.Files) (depth fuel : Nat) (xs ys : List Opt) (x v : Str)
    (sep : Bool) (hok : ∀ o ∈ xs ++ Opt.define x v sep :: ys, o.Ok)
    (hp : ∀ w s, Opt.print w s ∈ xs ++ ys → NulFree w)
    (hx : ∀ o, argLoop h.make none ((xs ++ ys).flatMap Opt.args) (initial h.version) = .ok (.ok o) →
      ¬ OfLine (Program.env h files depth fuel) o x) :
    Program.run h files depth fuel ((xs ++ Opt.define x v sep :: ys).flatMap Opt.args) =
      Program.run h files depth fuel ((xs ++ ys).flatMap Opt.args) := by
  have hok' : ∀ o ∈ xs ++ ys, o.Ok := fun o ho => hok o (by
    rcases List.mem_append.1 ho with ho | ho <;> simp [ho])
  obtain ⟨o, ho, hm⟩ := C70.reads h.make h.version (xs ++ ys) hok'
  obtain ⟨o', ho', hm'⟩ := C70.reads h.make h.version (xs ++ Opt.define x v sep :: ys) hok
  have hv : MakeSettings.ValidKey x := (hok (Opt.define x v sep) (by simp)).1
  have hnx := hx o ho
  unfold Program.run Main.main
  rw [show (Program.env h files depth fuel).make = h.make from rfl,
    show (Program.env h files depth fuel).version = h.version from rfl, ho, ho']
  simp only
  have hfm : ∀ {α : Type} (f : Opt → Option α), f (Opt.define x v sep) = none →
      (xs ++ Opt.define x v sep :: ys).filterMap f = (xs ++ ys).filterMap f := by
    intro α f hf
    rw [List.filterMap_append, List.filterMap_append, List.filterMap_cons_none hf]
  have hprint : ∀ w, o.print = some w → NulFree w := by
    intro w hw
    rw [hm.print] at hw
    have := List.mem_of_getLast? hw
    obtain ⟨y, hy, e⟩ := List.mem_filterMap.1 this
    cases y with
    | print w' s => cases e; exact hp _ _ hy
    | _ => cases e
  symm
  have hb : ∀ (p q : Prop) (a b : Bool), (a = true ↔ p) → (b = true ↔ q) → (p ↔ q) → a = b := by
    intro p q a b h1 h2 h3
    rw [Bool.eq_iff_iff, h1, h2, h3]
  have hlist : o.listing = o'.listing := hb _ _ _ _ hm.listing hm'.listing (by simp)
  have hstd : o.stdin = o'.stdin := hb _ _ _ _ hm.stdin hm'.stdin (by simp)
  refine body_rel (local_of _ o) (global_of _ o) (fun _ h => .inl h) (fun _ h => .inl h) (fun _ => rfl) rfl rfl
    (fun f _ m => ?_) (fun _ _ => rfl) hlist ?_ ?_ ?_ ?_ ?_ ?_
  · cases (Program.env h files depth fuel).loader.parse m f with
    | none => trivial
    | some t => exact fun _ _ => rfl
  · rw [hm.print, hm'.print, hfm _ rfl]
  · rw [hm.entries, hm'.entries, hfm _ rfl]
  · rw [hm.template, hm'.template, hfm _ rfl]
  · rw [hm.output, hm'.output, hfm _ rfl]
  · unfold allSources
    rw [hm.sources, hm'.sources, hfm _ rfl, hstd]
  · refine agreeOn_apart (x := x) (fun k hk => ?_) fun k hk hkx => ?_
    · rcases hk with hk | hk
      · exact runNames_cut h files depth fuel o hprint hv (fun h => hnx (.inl h)) hk
      · have hf : k.takeWhile (· ≠ 0) = k := by
          simp only [List.mem_cons, List.not_mem_nil, or_false] at hk
          rcases hk with rfl | rfl | rfl | rfl | rfl | rfl <;> decide
        rw [hf]
        rintro rfl
        exact hnx (.inr hk)
    · rw [hm.config k hk, hm'.config k hk, List.filterMap_append, List.filterMap_append,
        List.filterMap_cons_some (show definitionOf (Opt.define x v sep) = some (x, v) from rfl),
        ← List.cons_append, ← List.cons_append, lastValue_skip _ _ _ _ _ hkx]

/-! ## Header lines -/

/-- A source file with one more header line. -/
def withHeader (d : Doc) (before after : List Header) (h : Header) : Doc :=
  { d with headers := before ++ h :: after }

theorem withHeader_ok {d : Doc} (hd : d.Ok) {before after : List Header} (e : d.headers = before ++ after) {h : Header}
    (hh : h.Ok) : (withHeader d before after h).Ok where
  headers := by
    intro x hx
    rcases List.mem_append.1 hx with hx | hx
    · exact hd.headers x (by rw [e]; simp [hx])
    · rcases List.mem_cons.1 hx with rfl | hx
      · exact hh
      · exact hd.headers x (by rw [e]; simp [hx])
  blanks := hd.blanks
  dashes := hd.dashes
  nls := hd.nls
  nls_ne := hd.nls_ne
  content := hd.content
  content_first := hd.content_first

/-- The two files are both refused or both accepted, with tables that agree outside the name of the header line,
unless it is one the parser itself uses. -/
theorem source_header (depth : Nat) (m : Int) (d : Doc) (hd : d.Ok) (h2 : 2 ≤ d.content.length)
    (before after : List Header) (e : d.headers = before ++ after) (h : Header) (hh : h.Ok)
    (hk : h.key ∉ [b!"FIRST_HEADER", b!"DESCRIPTION", b!"TOCTREE", b!"TOCTREE_MAXDEPTH"]) :
    ParseRel (fun k => k.takeWhile (· ≠ 0) ≠ h.key)
      (Source.finishContent (Content.parse depth) m (Trie.inserts (Source.pairs (withHeader d before after h).headers)).1
        d.content)
      (Source.finishContent (Content.parse depth) m (Trie.inserts (Source.pairs d.headers)).1 d.content) := by
  have hne : ∀ n ∈ [b!"FIRST_HEADER", b!"DESCRIPTION", b!"TOCTREE", b!"TOCTREE_MAXDEPTH"],
      n.takeWhile (· ≠ 0) ≠ h.key := by
    intro n hn
    have hf : n.takeWhile (· ≠ 0) = n := by
      simp only [List.mem_cons, List.not_mem_nil, or_false] at hn
      rcases hn with rfl | rfl | rfl | rfl <;> decide
    rw [hf]
    rintro rfl
    exact hk hn
  refine finishContent_agree ⟨hne _ (by simp), hne _ (by simp), hne _ (by simp), hne _ (by simp)⟩ _ m ?_ _
  refine agreeOn_apart (x := h.key) (fun k hk => hk) fun k hkn hkx => ?_
  rw [C07.lookup_inserts _ (Source.pairs_ckeys (withHeader_ok hd e hh).headers) k hkn,
    C07.lookup_inserts _ (Source.pairs_ckeys hd.headers) k hkn]
  show lastValue (Source.pairs (before ++ h :: after)) k = lastValue (Source.pairs d.headers) k
  rw [e]
  unfold Source.pairs
  rw [List.map_append, List.map_append, List.map_cons]
  exact lastValue_skip _ _ _ _ _ hkx

/-- Reading the two files. -/
theorem read_header (files files' : Program.Files) (depth fuel : Nat) (m : Option Str) (f : Str) (d : Doc) (hd : d.Ok)
    (h2 : 2 ≤ d.content.length) (before after : List Header) (e : d.headers = before ++ after) (h : Header) (hh : h.Ok)
    (hk : h.key ∉ [b!"FIRST_HEADER", b!"DESCRIPTION", b!"TOCTREE", b!"TOCTREE_MAXDEPTH"])
    (bytes bytes' : Str) (hf : files f = some bytes) (hf' : files' f = some bytes')
    (hb : dropBom bytes = d.text) (hb' : dropBom bytes' = (withHeader d before after h).text)
    (hu : WellFormedUtf8 d.text) (hu' : WellFormedUtf8 (withHeader d before after h).text)
    (hl : bytes.length + 2 < fuel) (hl' : bytes'.length + 2 < fuel) :
    Opt2 (AgreeOn fun k => k.takeWhile (· ≠ 0) ≠ h.key) (Program.value (Program.readSource files' depth fuel m f))
      (Program.value (Program.readSource files depth fuel m f)) := by
  have hs := source_header depth (Program.maxdepthOf m) d hd h2 before after e h hh hk
  unfold Program.readSource
  rw [Page.readText_ok hf (by rw [hb]; exact hu) hl, Page.readText_ok hf' (by rw [hb']; exact hu') hl', hb, hb']
  simp only [Run.bind_ok]
  rw [Source.parse_doc d hd h2, Source.parse_doc (withHeader d before after h) (withHeader_ok hd e hh) h2]
  show Opt2 _ (Program.value ((Source.wrap _ (Source.finishContent (Content.parse depth) _
    (Trie.inserts (Source.pairs (withHeader d before after h).headers)).1 d.content)).bind _)) _
  revert hs
  generalize Source.finishContent (Content.parse depth) _
    (Trie.inserts (Source.pairs (withHeader d before after h).headers)).1 d.content = a
  generalize Source.finishContent (Content.parse depth) _ (Trie.inserts (Source.pairs d.headers)).1 d.content = b
  intro hs
  match a, b, hs with
  | .ub, .ub, _ => trivial
  | .out, .out, _ => trivial
  | .ok (.error _), .ok (.error _), _ => trivial
  | .ok (.ok a), .ok (.ok b), hs =>
    show AgreeOn _ (Program.setFilename f a) (Program.setFilename f b)
    unfold Program.setFilename
    split
    · exact agreeOn_insert hs _ _ (by decide)
    · exact hs

/-- A header line more in a source file makes no difference, if the run does not ask for its variable, and it is none
that blogc uses by itself. -/
theorem header (h : Program.Host) (files files' : Program.Files) (depth fuel : Nat) (args : List Str) (f : Str) (d : Doc)
    (hd : d.Ok) (h2 : 2 ≤ d.content.length) (before after : List Header) (e : d.headers = before ++ after)
    (hl : Header) (hok : hl.Ok)
    (hk : hl.key ∉ [b!"FIRST_HEADER", b!"DESCRIPTION", b!"TOCTREE", b!"TOCTREE_MAXDEPTH"])
    (bytes bytes' : Str) (hf : files f = some bytes) (hf' : files' f = some bytes')
    (hb : dropBom bytes = d.text) (hb' : dropBom bytes' = (withHeader d before after hl).text)
    (hu : WellFormedUtf8 d.text) (hu' : WellFormedUtf8 (withHeader d before after hl).text)
    (hlen : bytes.length + 2 < fuel) (hlen' : bytes'.length + 2 < fuel)
    (hfiles : ∀ g, g ≠ f → files' g = files g)
    (hrun : ∀ o, argLoop h.make none args (initial h.version) = .ok (.ok o) →
      ¬ OfSources (Program.env h files' depth fuel) o hl.key ∧ o.template ≠ some f ∧
        ∀ w, o.print = some w → NulFree w) :
    Program.run h files' depth fuel args = Program.run h files depth fuel args := by
  unfold Program.run Main.main
  rw [show (Program.env h files depth fuel).make = h.make from rfl,
    show (Program.env h files depth fuel).version = h.version from rfl,
    show (Program.env h files' depth fuel).make = h.make from rfl,
    show (Program.env h files' depth fuel).version = h.version from rfl]
  cases ho : argLoop h.make none args (initial h.version) with
  | ub => rfl
  | ok r =>
    cases r with
    | error _ => rfl
    | ok o =>
      simp only
      obtain ⟨hn, ht, hp⟩ := hrun o ho
      have hread : ∀ g, g ≠ f → Program.readText files' fuel g = Program.readText files fuel g := by
        intro g hg
        unfold Program.readText
        rw [hfiles g hg]
      refine body_rel (local_of _ o) (global_of _ o) (fun _ h => .inl h) (fun _ h => .inl h) (fun _ => rfl) rfl rfl
        (fun g _ m => ?_) (fun t hto => ?_) rfl rfl rfl rfl rfl rfl fun _ _ => rfl
      · show Opt2 _ (Program.value (Program.readSource files' depth fuel m g))
          (Program.value (Program.readSource files depth fuel m g))
        by_cases hg : g = f
        · subst hg
          refine (read_header files files' depth fuel m g d hd h2 before after e hl hok hk bytes bytes' hf hf' hb hb'
            hu hu' hlen hlen').mono fun a b => AgreeOn.mono fun k hk => ?_
          have hv : MakeSettings.ValidKey hl.key := hok.key
          rcases hk with hk | hk
          · exact runNames_cut h files' depth fuel o hp hv (fun h => hn (.inl h)) hk
          · have hf : k.takeWhile (· ≠ 0) = k := by
              simp only [List.mem_cons, List.not_mem_nil, or_false] at hk
              rcases hk with rfl | rfl | rfl <;> decide
            rw [hf]
            rintro rfl
            exact hn (.inr hk)
        · have : Program.readSource files' depth fuel m g = Program.readSource files depth fuel m g := by
            unfold Program.readSource
            rw [hread g hg]
          rw [this]
          cases Program.value (Program.readSource files depth fuel m g) with
          | none => trivial
          | some t => exact fun _ _ => rfl
      · show Program.value (Program.readTemplate files' fuel t) = Program.value (Program.readTemplate files fuel t)
        unfold Program.readTemplate
        rw [hread t (by rintro rfl; exact ht hto)]

/-! ## Words that are not in the text -/

/-- A template does not name a variable whose name is nowhere in its text, unless it is the format of dates or one
that is mapped to an item of a list. -/
theorem not_named (src : Str) (tmpl : List Template.Node) (h : Template.parse src = .ok (.ok tmpl)) (x : Str)
    (hx : ¬ x <:+: src) (hd : x = b!"DATE_FORMAT" → ¬ b!"DATE_" <:+: src)
    (hm : ¬ b!"__" <:+: x ∨ ∀ n ∈ tmpl, n.type ≠ .foreach) : ¬ Names tmpl x := by
  have ht := Template.parse_text h
  have hw : ∀ n ∈ tmpl, ∀ w, Asks n w → w <:+: src := by
    intro n hn w hw
    rcases hw with ⟨hty, e⟩ | ⟨hty, e, -⟩
    · exact (ht n hn (by rcases hty with h | h | h | h <;> rw [h] <;> decide)).1 w e
    · exact (ht n hn (by rcases hty with h | h | h <;> rw [h] <;> decide)).2 w e
  intro hk
  cases hk with
  | asked hn ha hs => exact hx ((standsFor_prefix hs).isInfix.trans (hw _ hn _ ha))
  | dates hn ha => exact hd rfl ((List.prefix_append _ _).isInfix.trans (hw _ hn _ ha))
  | list hn hi => exact hx ((ht _ hn (by rw [hi.1]; decide)).1 _ hi.2)
  | @mapped n name item hn hi =>
    rcases hm with hm | hm
    · refine hm ⟨name.map nameByte, item.map nameByte, ?_⟩
      rw [List.map_append, List.map_append]
      rfl
    · exact hm _ hn hi.1

/-- A definition on the command line, at any place in it, of a variable whose name is nowhere in the template makes no
difference, unless it is a variable blogc uses by itself or has two underscores in a row. -/
theorem unmentioned (h : Program.Host) (files : Program.Files) (depth fuel : Nat) (xs ys : List Opt) (x v : Str)
    (sep : Bool) (hok : ∀ o ∈ xs ++ Opt.define x v sep :: ys, o.Ok) (hp : ∀ w s, Opt.print w s ∉ xs ++ ys)
    (hx : x ∉ [b!"FILTER_SORT", b!"FILTER_REVERSE", b!"FILTER_TAG", b!"FILTER_PAGE", b!"FILTER_PER_PAGE",
      b!"TOCTREE_MAXDEPTH", b!"DATE_FORMAT"]) (hm : ¬ b!"__" <:+: x)
    (ht : ∀ t s bytes, Opt.template t s ∈ xs ++ ys → files t = some bytes → ¬ x <:+: bytes ∧ bytes.length + 2 < fuel) :
    Program.run h files depth fuel ((xs ++ Opt.define x v sep :: ys).flatMap Opt.args) =
      Program.run h files depth fuel ((xs ++ ys).flatMap Opt.args) := by
  refine definition h files depth fuel xs ys x v sep hok (fun w s hw => absurd hw (hp w s)) fun o ho => ?_
  have hok' : ∀ o ∈ xs ++ ys, o.Ok := fun o ho => hok o (by
    rcases List.mem_append.1 ho with ho | ho <;> simp [ho])
  obtain ⟨o', ho', hmean⟩ := C70.reads h.make h.version (xs ++ ys) hok'
  rw [ho] at ho'
  cases ho'
  rintro ((⟨t, tmpl, -, hto, htt, hk⟩ | ⟨w, hw, -⟩) | hl)
  · rw [hmean.template] at hto
    obtain ⟨y, hy, e⟩ := List.mem_filterMap.1 (List.mem_of_getLast? hto)
    have htt : Program.value (Program.readTemplate files fuel t) = some tmpl := htt
    cases y with
    | template t' s =>
      cases e
      unfold Program.readTemplate at htt
      cases hf : files t with
      | none => simp [Program.readText, hf, Program.value] at htt
      | some bytes =>
        obtain ⟨hno, hlen⟩ := ht t s bytes hy hf
        by_cases hu : WellFormedUtf8 (dropBom bytes)
        · rw [Page.readText_ok hf hu hlen, Run.bind_ok] at htt
          simp only at htt
          split at htt
          · cases htt
          · cases htt
          · rename_i hs
            cases htt
            have hsuf : dropBom bytes <:+: bytes := by
              unfold dropBom
              split
              · exact (List.drop_suffix _ _).isInfix
              · exact List.infix_refl _
            refine not_named _ _ hs x (fun hi => hno (hi.trans hsuf)) (fun e => ?_) (.inl hm) hk
            rw [e] at hx
            exact absurd (by simp) hx
        · simp [Program.readText, hf, (C12.load_text bytes fuel hlen).2 hu, Program.value] at htt
    | _ => cases e
  · rw [hmean.print] at hw
    obtain ⟨y, hy, e⟩ := List.mem_filterMap.1 (List.mem_of_getLast? hw)
    cases y with
    | print w s => exact hp _ _ hy
    | _ => cases e
  · apply hx
    simp only [List.mem_cons, List.not_mem_nil, or_false] at hl ⊢
    rcases hl with h | h | h | h | h | h <;> simp [h]

/-! ## Non-vacuity -/

def sampleFiles (f : Str) : Option Str :=
  if f = b!"t" then some b!"{% block entry %}{{ TITLE_3 }}{% ifdef NOTE %}!{% endif %}{{ CONTENT }}{% endblock %}"
  else if f = b!"a.txt" then some b!"TITLE: Hello\n---\nhi\n"
  else none

def sampleNodes : List Template.Node :=
  [⟨.block, .none, some b!"entry", none⟩, ⟨.variable, .none, some b!"TITLE_3", none⟩,
    ⟨.ifdef, .none, some b!"NOTE", none⟩, ⟨.content, .none, some b!"!", none⟩, ⟨.endif, .none, none, none⟩,
    ⟨.variable, .none, some b!"CONTENT", none⟩, ⟨.endblock, .none, none, none⟩]

theorem sample_template : Template.parse
    b!"{% block entry %}{{ TITLE_3 }}{% ifdef NOTE %}!{% endif %}{{ CONTENT }}{% endblock %}" = .ok (.ok sampleNodes) := by
  decide +kernel

/-- The sample names `TITLE_3` and `TITLE`, but not `AUTHOR`. -/
example : Names sampleNodes b!"TITLE_3" ∧ Names sampleNodes b!"TITLE" ∧ ¬ Names sampleNodes b!"AUTHOR" := by
  refine ⟨?_, ?_, ?_⟩
  · exact .asked (n := ⟨.variable, .none, some b!"TITLE_3", none⟩) (by decide) (.inl ⟨.inl rfl, rfl⟩) (.plain _)
  · exact .asked (n := ⟨.variable, .none, some b!"TITLE_3", none⟩) (by decide) (.inl ⟨.inl rfl, rfl⟩)
      (.sized b!"TITLE" b!"3" ⟨by decide, by unfold Digit; decide⟩)
  · exact not_named _ _ sample_template _ (by decide) (by decide) (.inl (by decide))

/-- The text of the page, with tables that differ in a variable it does not name. -/
example : render (evaluator C27.bare) 20 sampleNodes ⟨[(Trie.inserts [(b!"TITLE", b!"Hello"), (b!"AUTHOR", b!"x")]).1], false⟩
    [] (Trie.inserts []).1 = .ok b!"Hel" ∧
    AgreeOn (Names sampleNodes) (Trie.inserts [(b!"TITLE", b!"Hello"), (b!"AUTHOR", b!"x")]).1
      (Trie.inserts [(b!"TITLE", b!"Hello")]).1 := by
  refine ⟨by decide +kernel, ?_⟩
  refine agreeOn_apart (x := b!"AUTHOR") (fun k hk => ?_) fun k hk hne => ?_
  · have hc : NulFree k ∨ ∃ r, k = c!"\"" :: r := names_nulFree sample_template hk
    intro e
    rcases hc with hc | ⟨r, rfl⟩
    · rw [List.takeWhile_eq_self_iff.2 fun c h => by simpa using hc c h] at e
      subst e
      exact not_named _ _ sample_template _ (by decide) (by decide) (.inl (by decide)) hk
    · rw [List.takeWhile_cons] at e
      simp at e
  · rw [C07.lookup_inserts _ (by unfold CKeys; decide) k hk, C07.lookup_inserts _ (by unfold CKeys; decide) k hk]
    exact lastValue_skip [(b!"TITLE", b!"Hello")] [] _ _ _ hne

/-- `blogc -t t a.txt` and `blogc -t t -D AUTHOR=x a.txt` do the same. -/
example : Program.run C102.sampleHost sampleFiles 5 200
      ([b!"-t", b!"t", b!"-D", b!"AUTHOR=x", b!"a.txt"]) =
    Program.run C102.sampleHost sampleFiles 5 200 [b!"-t", b!"t", b!"a.txt"] := by
  refine unmentioned C102.sampleHost sampleFiles 5 200 [.template b!"t" true] [.source b!"a.txt"] b!"AUTHOR" b!"x" true
    ?_ ?_ (by decide) (by decide) ?_
  · intro o ho
    simp only [List.cons_append, List.nil_append, List.mem_cons, List.not_mem_nil, or_false] at ho
    rcases ho with rfl | rfl | rfl
    · exact fun h => (nomatch h)
    · exact ⟨⟨_, _, rfl, by decide, by decide⟩, C102.ascii _ (by decide)⟩
    · simp [Opt.Ok]
  · simp
  · intro t s bytes ht hf
    simp only [List.cons_append, List.nil_append, List.mem_cons, List.not_mem_nil, or_false, Opt.template.injEq,
      reduceCtorEq] at ht
    obtain ⟨rfl, -⟩ := ht
    simp only [sampleFiles, if_true, Option.some.injEq] at hf
    subst hf
    exact ⟨by decide, by decide⟩

def sampleDoc : Doc := ⟨[C102.header b!"TITLE" b!"Hello"], [], 3, b!"\n", b!"hi\n"⟩

/-- The file with a line `AUTHOR: x` more. -/
def moreFiles (f : Str) : Option Str :=
  if f = b!"a.txt" then some b!"AUTHOR: x\nTITLE: Hello\n---\nhi\n" else sampleFiles f

/-- `blogc -t t a.txt` does the same with the line `AUTHOR: x` in `a.txt` and without. -/
example : Program.run C102.sampleHost moreFiles 5 200 [b!"-t", b!"t", b!"a.txt"] =
    Program.run C102.sampleHost sampleFiles 5 200 [b!"-t", b!"t", b!"a.txt"] := by
  have hdoc : sampleDoc.Ok := by
    refine ⟨?_, by simp [sampleDoc], by decide, by simp [sampleDoc, Source.Newline], by decide, by decide,
      by simp [sampleDoc, Source.Newline]⟩
    intro h hh
    simp only [sampleDoc, List.mem_cons, List.not_mem_nil, or_false] at hh
    subst hh
    exact C102.header_ok _ _ ⟨_, _, rfl, by decide, by decide⟩ (by decide) (by simp [White, Source.Newline])
  refine header C102.sampleHost sampleFiles moreFiles 5 200 _ b!"a.txt" sampleDoc hdoc (by decide) []
    [C102.header b!"TITLE" b!"Hello"] rfl (C102.header b!"AUTHOR" b!"x")
    (C102.header_ok _ _ ⟨_, _, rfl, by decide, by decide⟩ (by decide) (by simp [White, Source.Newline]))
    (by decide) b!"TITLE: Hello\n---\nhi\n" b!"AUTHOR: x\nTITLE: Hello\n---\nhi\n" rfl rfl (by decide) (by decide)
    (C102.ascii _ (by decide)) (C102.ascii _ (by decide)) (by decide) (by decide) ?_ ?_
  · intro g hg
    simp only [moreFiles, if_neg hg]
  · intro o ho
    have e : argLoop false none [b!"-t", b!"t", b!"a.txt"] (initial b!"1.0") =
        .ok (.ok { initial b!"1.0" with template := some b!"t", sources := [b!"a.txt"] }) := rfl
    rw [show C102.sampleHost.make = false from rfl, show C102.sampleHost.version = b!"1.0" from rfl, e] at ho
    cases ho
    refine ⟨?_, by decide, fun w hw => by cases hw⟩
    rintro ((⟨t, tmpl, -, ht, htt, hk⟩ | ⟨w, hw, -⟩) | hl)
    · cases ht
      have h1 : Program.value (Program.readTemplate moreFiles 200 b!"t") = some sampleNodes := by decide +kernel
      have h2 : Program.value (Program.readTemplate moreFiles 200 b!"t") = some tmpl := htt
      rw [h1] at h2
      cases h2
      exact not_named _ _ sample_template _ (by decide) (by decide) (.inl (by decide)) hk
    · cases hw
    · exact absurd hl (by decide)

end Blogc.C114
