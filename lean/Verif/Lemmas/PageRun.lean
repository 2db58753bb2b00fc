import Verif.Lemmas.Page
import Verif.Lemmas.Listing
import Verif.Lemmas.MainCongr
import Verif.Props.C22
import Verif.Props.C71
import Verif.Props.C85

/-!
# A run of blogc that writes a page
-/

namespace Blogc.PageRun

open Blogc Blogc.Spec Blogc.Spec.Page Blogc.Spec.CommandLine Blogc.Spec.Request Blogc.Render Blogc.Doc

/-! ## Names that depend on no file -/

/-- The files that are shown have no say in the value of a name: there are none, or none of them gives it a value. -/
def Apart (shown : List Str) (post : Str → Post) (n : Str) : Prop :=
  shown = [] ∨ (Absent shown post n ∧ C24.Simple n)

theorem refs_mono {N N' : Str → Prop} (h : ∀ n, N n → N' n) (t : T) (hr : Refs N t) : Refs N' t := by
  induction t with
  | done => trivial
  | text s rest ih => exact ih hr
  | var n rest ih => exact ⟨h _ hr.1, ih hr.2⟩
  | cond c yes rest ih1 ih2 => exact ⟨fun n hn => h _ (hr.1 n hn), ih1 hr.2.1, ih2 hr.2.2⟩
  | condElse c yes no rest ih1 ih2 ih3 =>
    exact ⟨fun n hn => h _ (hr.1 n hn), ih1 hr.2.1, ih2 hr.2.2.1, ih3 hr.2.2.2⟩
  | foreach n body rest ih1 ih2 => exact ⟨h _ hr.1, ih1 hr.2.1, ih2 hr.2.2⟩
  | block k body rest ih1 ih2 => exact ⟨ih1 hr.1, ih2 hr.2⟩

/-- What `NoLeak` says depends only on whether a listing is asked for and whether there are sources. -/
theorem noLeak_map {L L' : Type} {c : Ctx L} {c' : Ctx L'} (hl : c.listing = c'.listing)
    (hs : c.sources = [] ↔ c'.sources = []) {N N' : Str → Prop} (h : ∀ n, N n → N' n) {used : Prop} (t : T)
    {seen : Bool} (hn : NoLeak c N used seen t) : NoLeak c' N' used seen t := by
  have hu : ∀ k, Used c k → Used c' k := by
    intro k
    unfold Used
    rw [hl, Ne, hs]
    exact id
  induction t generalizing seen with
  | done => trivial
  | text s rest ih => exact ih hn
  | var n rest ih => exact ⟨hn.1.imp id (h _), ih hn.2⟩
  | cond c yes rest ih1 ih2 => exact ⟨hn.1.imp id fun g n hm => h _ (g n hm), ih1 hn.2.1, ih2 hn.2.2⟩
  | condElse c yes no rest ih1 ih2 ih3 =>
    exact ⟨hn.1.imp id fun g n hm => h _ (g n hm), ih1 hn.2.1, ih2 hn.2.2.1, ih3 hn.2.2.2⟩
  | foreach n body rest ih1 ih2 => exact ⟨hn.1.imp id (h _), ih1 hn.2.1, ih2 hn.2.2⟩
  | block k body rest ih1 ih2 =>
    exact ⟨fun u => hu _ (hn.1 u), fun p => (hn.2.1 p).imp id (refs_mono h body), ih2 hn.2.2⟩

theorem value_header {p : Post} {base : Str} {toc : Option Str} {n : Str} (hp : n ∉ pageNames) :
    p.value base toc n = p.header n := by
  simp only [pageNames, Source.contentNames, List.mem_cons, List.not_mem_nil, or_false, not_or] at hp
  unfold Post.value Post.generated
  rw [if_neg (by grind), if_neg (by grind), if_neg (by grind), if_neg (by grind), if_neg (by grind), if_neg (by grind),
    if_neg (by grind), Option.or_none]

theorem shows_header {f : Str} {m : Int} {p : Post} {l : Str → Option Str} (h : Shows f m p l) {n : Str}
    (hf : NulFree n) (hc : n ≠ b!"c") (hp : n ∉ pageNames) : l n = p.header n := by
  obtain ⟨base, toc, k, -, -, -, h⟩ := h
  rw [h n hf hc, value_header hp]

/-! ## The page -/

theorem bound {α : Type} (f : α → Nat) (l : List α) : ∃ b, ∀ x ∈ l, f x < b := by
  induction l with
  | nil => exact ⟨0, by simp⟩
  | cons a l ih =>
    obtain ⟨b, hb⟩ := ih
    refine ⟨f a + b + 1, fun x hx => ?_⟩
    rcases List.mem_cons.1 hx with rfl | hx
    · omega
    · have := hb x hx; omega

/-- The seconds since the epoch for a date. -/
def seconds (h : Program.Host) (d : Str) : Option Str := (DateTime.parse d).bind (h.sys.strftime b!"%s")

/-- What blogc does once it has read its options: `depth` bounds the nesting of blockquotes the model follows, `fuel`
the rounds of its loops; neither matters when large enough. -/
theorem body_page (h : Program.Host) (files : Str → Option Str) (val : Str → Option Str) (listing : Bool)
    (names entries : List Str) (post : Str → Post) (time : Str → Int) (tname : Str) (ts : List Tokens.Tok) (m : Int)
    (pg : Option (Nat × Nat))
    (conf : Table) (hconf : ∀ k, NulFree k → conf.lookup k = val k)
    (req : Request.Render (seconds h) files val listing names entries post time tname ts m pg)
    (t : T) (ht : Doc.Ok false false t) (hmean : Tokens.meaning false ts = nodes t) (used : List Str → Prop)
    (hn : ∀ l count, Listed val post time names l count pg → NoLeak ⟨l, listing⟩
      (Apart (l ++ entries) post) (used l) false t) :
    ∃ d, ∀ depth ≥ d, ∃ out n, IsPage h.sys val listing names entries post time m pg t out ∧
      ∀ fuel ≥ n, ∀ stdin o, (∀ k, NulFree k → o.config.lookup k = val k) → o.listing = listing → o.print = none →
        o.entries = entries → o.template = some tname →
        Main.allSources { Program.env h files depth fuel with stdin := stdin } o = names →
        Main.body { Program.env h files depth fuel with stdin := stdin } o = Main.writeOut o out := by
  obtain ⟨b, hb⟩ := bound (fun f => ((files f).getD []).length) (names ++ entries)
  refine ⟨b, fun depth hdep => ?_⟩
  have hread : ∀ f, ∃ v : Table, (f ∈ names ∨ f ∈ entries) → f ≠ [] →
      (∀ fuel, b + 2 < fuel → Program.readSource files depth fuel (val b!"TOCTREE_MAXDEPTH") f = .ok (some v)) ∧
      Shows f m (post f) v.lookup := by
    intro f
    by_cases hf : (f ∈ names ∨ f ∈ entries) ∧ f ≠ []
    · obtain ⟨bytes, h1, h2⟩ := req.posts f hf.1 hf.2
      have h3 := hb f (List.mem_append.2 hf.1)
      rw [h1, Option.getD_some] at h3
      obtain ⟨v, h4, h5⟩ := Page.readSource_shows h1 hf.2 h2 req.depth (depth := depth) (by omega)
      exact ⟨v, fun _ _ => ⟨fun fuel hfu => h4 fuel (by omega), h5⟩⟩
    · exact ⟨(Trie.inserts []).1, fun h1 h2 => absurd ⟨h1, h2⟩ hf⟩
  choose src hsrcs using hread
  have hmd := hconf b!"TOCTREE_MAXDEPTH" (by decide)
  have hsh : ∀ f ∈ names, Shows f m (post f) (src f).lookup := fun f hf =>
    (hsrcs f (.inl hf) (req.sources f hf)).2
  have hparse : ∀ fuel > b + 2, ∀ f, f ∈ names ∨ f ∈ entries → f ≠ [] →
      (Program.env h files depth fuel).loader.parse (conf.lookup b!"TOCTREE_MAXDEPTH") f = some (src f) := by
    intro fuel hfuel f hf hne
    show Program.value _ = _
    rw [hmd, (hsrcs f hf hne).1 fuel hfuel]
    rfl
  -- what is loaded does not depend on `fuel`
  have hload0 := fun fuel (hfuel : fuel > b + 2) => Listing.loaded (Program.env h files depth fuel).loader conf val
    names post time src pg req.page hconf req.few
    (fun f hf => hparse fuel hfuel f (.inl hf) (req.sources f hf))
    (fun f hf k hk => shows_header (hsh f hf) (by revert k; decide) (by revert k; decide) (by revert k; decide))
    req.dates req.sorted
  obtain ⟨l, count, vars, g, hload1, hlisted, hvars, hg⟩ := hload0 (b + 3) (by omega)
  have hload : ∀ fuel > b + 2, Loader.fromFiles (Program.env h files depth fuel).loader conf names =
      .ok (some (l.map vars, g)) := by
    intro fuel hfuel
    rw [← hload1]
    unfold Loader.fromFiles
    simp only
    rw [Main.loadLoop_congr (env := (Program.env h files depth fuel).loader)
      (env' := (Program.env h files depth (b + 3)).loader) rfl _ _ _ fun f hf => by
      rw [hparse fuel hfuel f (.inl hf) (req.sources f hf), hparse (b + 3) (by omega) f (.inl hf) (req.sources f hf)]]
  have hmem : ∀ f ∈ l, f ∈ names := by
    intro f hf
    cases pg with
    | none =>
      obtain ⟨all, h1, rfl⟩ := hlisted
      exact h1.perm.mem_iff.1 (List.mem_filter.1 hf).1
    | some q =>
      obtain ⟨all, h1, rfl, -⟩ := hlisted
      exact h1.perm.mem_iff.1 (List.mem_filter.1 (List.mem_of_mem_drop (List.mem_of_mem_take hf))).1
  have hshow : ∀ f ∈ names, Shows f m (post f) (vars f).lookup := by
    intro f hf
    obtain ⟨base, toc, k, h1, h2, h3, h4⟩ := hsh f hf
    exact ⟨base, toc, k, h1, h2, h3, fun k hk hc => by rw [hvars f k hk hc, h4 k hk hc]⟩
  have hg' : ∀ k, NulFree k → g.lookup k =
      ((pageValue count l k pg).or
        (edge (l.head?.map fun f => (vars f).lookup) (l.getLast?.map fun f => (vars f).lookup) k)).or (val k) := by
    intro k hk
    rw [hg k hk, hconf k hk, List.head?_map, List.getLast?_map, Option.map_map, Option.map_map]
    rfl
  -- the template
  have hneu : ∀ n, Apart (l ++ entries) post n → Neutral (evaluator h.sys)
      ⟨l.map vars, listing⟩ (shownEntries src listing entries) n := by
    rintro n (hnil | ⟨ha, hsim⟩)
    · rw [List.append_eq_nil_iff] at hnil
      rw [hnil.1, hnil.2]
      intro v hv
      rcases hv with hv | hv
      · cases hv
      · unfold shownEntries at hv
        split at hv <;> cases hv
    refine C24.neutral_of_absent _ _ _ n ha.name.1 hsim fun v hv => ?_
    rcases hv with hv | hv
    · obtain ⟨f, hf, rfl⟩ := List.mem_map.1 hv
      rw [shows_header (hshow f (hmem f hf)) ha.name.2.1 ha.name.2.2 ha.page,
        ha.header f (List.mem_append.2 (.inl hf))]
    · unfold shownEntries at hv
      split at hv
      · obtain ⟨f, hf, he⟩ := List.mem_map.1 hv
        split at he
        · cases he
        · rename_i hne
          cases he
          rw [shows_header (hsrcs f (.inr hf) hne).2 ha.name.2.1 ha.name.2.2 ha.page,
            ha.header f (List.mem_append.2 (.inr hf))]
      · cases hv
  obtain ⟨tmpl, out, n, h1, h2, h3⟩ := C22.rendered_partial (evaluator h.sys) (C24.total h.sys) ts req.tokens t ht hmean
    ⟨l.map vars, listing⟩ (shownEntries src listing entries) g (used l)
    (noLeak_map (c := ⟨l, listing⟩) (c' := ⟨l.map vars, listing⟩) rfl
      List.map_eq_nil_iff.symm hneu t (hn l count hlisted))
  obtain ⟨tb, h4, h5⟩ := req.text
  refine ⟨out, n + b + tb.length + 3, ⟨l, count, vars, src, g, hlisted, hshow, fun f hf hne => (hsrcs f (.inr hf) hne).2,
    hg', h2⟩, fun fuel hfuel stdin o hval hlist hprint hentries htemplate hsrc => ?_⟩
  have hsame : Main.body { Program.env h files depth fuel with stdin := stdin } o =
      Main.body { Program.env h files depth fuel with stdin := stdin } { o with config := conf } :=
    Main.body_congr ⟨rfl, rfl, rfl, fun _ _ _ => rfl, fun _ _ => rfl⟩ rfl rfl rfl rfl rfl rfl
      (Render.sameValues_of fun k hk => (hval k hk).trans (hconf k hk).symm)
  have hsrc' : Main.allSources { Program.env h files depth fuel with stdin := stdin } { o with config := conf } = names := hsrc
  have hent : (if o.listing then Main.loadEntries { Program.env h files depth fuel with stdin := stdin } (g.lookup b!"TOCTREE_MAXDEPTH") o.entries
      else some []) = some (shownEntries src listing entries) := by
    have hgl : g.lookup b!"TOCTREE_MAXDEPTH" = conf.lookup b!"TOCTREE_MAXDEPTH" := by
      rw [hg _ (by decide)]
      have e1 : pageValue count l b!"TOCTREE_MAXDEPTH" pg = none := by cases pg <;> rfl
      rw [e1]
      rfl
    rw [hlist, hgl, hentries]
    unfold shownEntries
    split
    · rw [C85.entries_exact]
      show List.Forall₂ _ entries _
      rw [List.forall₂_map_right_iff, List.forall₂_same]
      intro f hf
      by_cases hne : f = []
      · exact .inl ⟨hne, if_pos hne⟩
      · exact .inr ⟨hne, _, hparse fuel (by omega) f (.inr hf) hne, if_neg hne⟩
    · rfl
  have htm : (Program.env h files depth fuel).template tname = some tmpl := by
    show Program.value (Program.readTemplate files fuel tname) = _
    unfold Program.readTemplate
    rw [Page.readText_ok h4 (by rw [h5]; exact req.utf8) (by omega), h5]
    show Program.value (match Template.parse _ with | .ub => _ | .ok (.error _) => _ | .ok (.ok l) => _) = _
    rw [h1]
    rfl
  rw [hsame]
  unfold Main.body
  rw [hsrc']
  have hcount : (!o.listing && names.length != 1) = false := by
    rw [hlist]
    rcases req.count with hc | hc <;> simp [hc]
  simp only [hcount, Bool.false_eq_true, if_false]
  rw [hload fuel (by omega)]
  simp only [hent, hprint]
  unfold Main.renderAll
  simp only [htemplate, htm]
  rw [show Render.render (evaluator (Program.env h files depth fuel).sys) (Program.env h files depth fuel).fuel tmpl
    ⟨l.map vars, o.listing⟩ (shownEntries src listing entries) g = .ok out by
      rw [hlist]; exact h3 fuel (by omega)]
  rfl

/-- Every block of a template outside blocks is an `entry` block. -/
def EntryOnly : T → Prop
  | .done => True
  | .text _ rest | .var _ rest => EntryOnly rest
  | .cond _ yes rest => EntryOnly yes ∧ EntryOnly rest
  | .condElse _ yes no rest => EntryOnly yes ∧ EntryOnly no ∧ EntryOnly rest
  | .foreach _ body rest => EntryOnly body ∧ EntryOnly rest
  | .block k _ rest => k = b!"entry" ∧ EntryOnly rest

theorem noLeak_entry {L : Type} {c : Ctx L} (hl : c.listing = false) {N : Str → Prop} (t : T) (h : EntryOnly t)
    (seen : Bool) : NoLeak c N True seen t := by
  induction t generalizing seen with
  | done => trivial
  | text s rest ih => exact ih h _
  | var n rest ih => exact ⟨.inl trivial, ih h _⟩
  | cond c yes rest ih1 ih2 => exact ⟨.inl trivial, ih1 h.1 _, ih2 h.2 _⟩
  | condElse c yes no rest ih1 ih2 ih3 => exact ⟨.inl trivial, ih1 h.1 _, ih2 h.2.1 _, ih3 h.2.2 _⟩
  | foreach n body rest ih1 ih2 => exact ⟨.inl trivial, ih1 h.1 _, ih2 h.2 _⟩
  | block k body rest ih1 ih2 =>
    obtain ⟨rfl, h⟩ := h
    exact ⟨fun _ => .inl ⟨rfl, hl⟩, fun p => absurd p (by unfold Plain; decide), ih2 h _⟩

end Blogc.PageRun
