import Verif.Spec.SitePages
import Verif.Lemmas.PageRun
import Verif.Lemmas.Incremental
import Verif.Props.C62
import Verif.Props.C88

/-!
# The runs of blogc for a site are requests for pages
-/

namespace Blogc.SitePages

open Blogc Blogc.Make Blogc.Spec Blogc.Spec.Page Blogc.Spec.MakeJobs Blogc.Spec.MakeRun Blogc.Spec.Entries Blogc.Doc
open Blogc.Spec.SitePages Blogc.Spec.Incremental Blogc.Build

/-! ## Variables -/

theorem exists_describes (l : List (Str × Str)) (h : ∀ kv ∈ l, NulFree kv.1) : ∃ t, Describes t l := by
  induction l with
  | nil => exact ⟨.nil, describes_nil⟩
  | cons kv l ih =>
    obtain ⟨t, ht⟩ := ih fun kv hkv => h kv (by simp [hkv])
    exact ⟨_, describes_set ht kv.1 kv.2 (h kv (by simp))⟩

theorem validKey_nulFree {k : Str} (h : Spec.MakeSettings.ValidKey k) : NulFree k := by
  obtain ⟨c, rest, rfl, h1, h2⟩ := h
  intro x hx e
  subst e
  rcases List.mem_cons.1 hx with e | e
  · subst e; exact absurd h1 (by decide)
  · exact absurd (h2 _ e) (by decide)

/-- The variables of a run are those of a table. -/
theorem table_exists (s : Site) (hs : Clean s) (version : Str) (own : List (Str × Str)) (hown : ∀ kv ∈ own, NulFree kv.1) :
    ∃ t : Trie Str, ∀ k, NulFree k → t.lookup k = value s version own k := by
  obtain ⟨v, hv⟩ := exists_describes own hown
  refine ⟨(Trie.inserts ((b!"BLOGC_VERSION", version) :: C87.definitions s v none)).1, fun k hk => ?_⟩
  have hck : CKeys ((b!"BLOGC_VERSION", version) :: C87.definitions s v none) := by
    intro kv hkv
    rcases List.mem_cons.1 hkv with rfl | hkv
    · show NulFree b!"BLOGC_VERSION"
      decide
    · unfold C87.definitions at hkv
      simp only [List.mem_append] at hkv
      rcases hkv with (((h | h) | h) | h) | h
      · obtain ⟨t, _, rfl⟩ := List.mem_map.1 h
        show NulFree b!"MAKE_TAGS"
        decide
      · exact ((C87.mem_defs hs.filled kv.1 kv.2).1 h).1
      · exact ((C87.mem_defs hv.filled kv.1 kv.2).1 h).1
      · cases h
      · cases hd : s.dev with
        | false => rw [hd] at h; cases h
        | true =>
          rw [hd] at h
          simp only [if_true, List.mem_cons, List.not_mem_nil, or_false] at h
          rcases h with rfl | rfl
          · show NulFree b!"MAKE_ENV_DEV"; decide
          · show NulFree b!"MAKE_ENV"; decide
  rw [C07.lookup_inserts _ hck _ hk]
  exact C87.config_value s hs version (ll := []) hv rfl k hk

variable {s : Site} {files seconds : Str → Option Str} {post : Str → Post} {time : Str → Int} {m : Int}

theorem size_perPage {option : Str} (h : SizeOk s option) : perPage s option = numeral (s.getStr option) := by
  unfold perPage
  rw [Render.strtol_digits h.1]
  have := h.2.2
  simp only
  omega

theorem paged (h : Written s files seconds post time m) (ht : TextOk (s.getStr b!"posts_per_page"))
    (hl : ∀ f ∈ postSources s, LineOk f) : MakeRun.Paged s (numeral (s.getStr b!"posts_per_page")) where
  size := size_perPage h.size
  positive := h.size.2.1
  fits := h.size.2.2
  text := ht
  sources := hl
  global := h.global

/-- The variables of a run that matter for what it lists: those that order the posts come from `ordering`, and those that
select a page are given. -/
structure Own (s : Site) (own : List (Str × Str)) (tag : Option Str) (page perPage : Option Str) : Prop where
  depth : own.lookup b!"TOCTREE_MAXDEPTH" = none
  tag : own.lookup b!"FILTER_TAG" = tag
  page : own.lookup b!"FILTER_PAGE" = page
  perPage : own.lookup b!"FILTER_PER_PAGE" = perPage
  sort : ∀ v, own.lookup b!"FILTER_SORT" = some v → strToBool (s.get b!"posts_sort") = true

theorem ordering_sort (s : Site) (option : Str) (v : Str) (h : (ordering s option).lookup b!"FILTER_SORT" = some v) :
    strToBool (s.get b!"posts_sort") = true := by
  revert h
  unfold ordering
  cases strToBool (s.get b!"posts_sort") <;> cases C54.OldestFirst (s.get option) <;> simp [List.lookup_cons]

theorem firstPage_eq {option : Str} (h : SizeOk s option) :
    firstPage s option = [(b!"FILTER_PER_PAGE", s.getStr option), (b!"FILTER_PAGE", b!"1")] := by
  unfold firstPage
  rw [size_perPage h, if_neg (by omega)]

theorem own_first {order option : Str} (h : SizeOk s option) (tag : Option Str) (date rule type : Str) :
    Own s (tagVar tag ++ (naming date rule type ++ ordering s order ++ firstPage s option)) tag (some b!"1")
      (some (s.getStr option)) := by
  obtain ⟨o1, o2, o3, o4, o5⟩ := C88.ordering_page s order
  rw [firstPage_eq h]
  have hn := C88.naming_page date rule type
  refine ⟨?_, ?_, ?_, ?_, fun v hv => ?_⟩
  · rw [C88.lookup_append, C88.lookup_append, C88.lookup_append, C88.tagVar_lookup, hn _ (by decide), o5]; rfl
  · rw [C88.lookup_append, C88.lookup_append, C88.lookup_append, C88.tagVar_lookup, hn _ (by decide), o3]
    cases tag <;> rfl
  · rw [C88.lookup_append, C88.lookup_append, C88.lookup_append, C88.tagVar_lookup, hn _ (by decide), o1]; rfl
  · rw [C88.lookup_append, C88.lookup_append, C88.lookup_append, C88.tagVar_lookup, hn _ (by decide), o2]; rfl
  · rw [C88.lookup_append, C88.lookup_append, C88.lookup_append, C88.tagVar_lookup, hn _ (by decide)] at hv
    cases ho : (ordering s order).lookup b!"FILTER_SORT" with
    | none => rw [ho] at hv; exact absurd hv (by simp [List.lookup_cons])
    | some v => exact ordering_sort s order v ho

theorem own_page (tag : Option Str) (rule : Str) (n : Nat) :
    Own s (tagVar tag ++ pageVars s rule n) tag (some (decNat n)) (some (s.getStr b!"posts_per_page")) := by
  obtain ⟨o1, o2, o3, o4, o5⟩ := C88.ordering_page s b!"html_order"
  have h := C88.page_lookup s rule tag n
  refine ⟨?_, ?_, ?_, ?_, fun v hv => ?_⟩
  · rw [h _ (by decide), if_neg (by decide), if_neg (by decide), C88.lookup_append, C88.tagVar_lookup, o5]; rfl
  · rw [h _ (by decide), if_neg (by decide), if_neg (by decide), C88.lookup_append, C88.tagVar_lookup, o3]; cases tag <;> rfl
  · rw [h _ (by decide), if_pos rfl]
  · rw [h _ (by decide), if_neg (by decide), if_pos rfl]
  · rw [h _ (by decide), if_neg (by decide), if_neg (by decide), C88.lookup_append, C88.tagVar_lookup] at hv
    exact ordering_sort s b!"html_order" v hv

theorem own_post (slug date rule type : Str) :
    Own s ([(b!"MAKE_SLUG", slug)] ++ (naming date rule type ++ ordering s b!"html_order" ++ [(b!"IS_POST", b!"1")]))
      none none none := by
  obtain ⟨o1, o2, o3, o4, o5⟩ := C88.ordering_page s b!"html_order"
  have hn := C88.naming_page date rule type
  refine ⟨?_, ?_, ?_, ?_, fun v hv => ?_⟩
  · rw [C88.lookup_append, C88.lookup_append, C88.lookup_append, hn _ (by decide), o5]; rfl
  · rw [C88.lookup_append, C88.lookup_append, C88.lookup_append, hn _ (by decide), o3]; rfl
  · rw [C88.lookup_append, C88.lookup_append, C88.lookup_append, hn _ (by decide), o1]; rfl
  · rw [C88.lookup_append, C88.lookup_append, C88.lookup_append, hn _ (by decide), o2]; rfl
  · rw [C88.lookup_append, C88.lookup_append, C88.lookup_append, hn _ (by decide)] at hv
    cases ho : (ordering s b!"html_order").lookup b!"FILTER_SORT" with
    | none => rw [ho] at hv; exact absurd hv (by simp [List.lookup_cons])
    | some v => exact ordering_sort s _ v ho

theorem own_static (slug date rule type : Str) :
    Own s ([(b!"MAKE_SLUG", slug)] ++ naming date rule type) none none none := by
  have hn := C88.naming_page date rule type
  refine ⟨?_, ?_, ?_, ?_, fun v hv => ?_⟩
  · rw [C88.lookup_append, hn _ (by decide)]; rfl
  · rw [C88.lookup_append, hn _ (by decide)]; rfl
  · rw [C88.lookup_append, hn _ (by decide)]; rfl
  · rw [C88.lookup_append, hn _ (by decide)]; rfl
  · rw [C88.lookup_append, hn _ (by decide)] at hv
    exact absurd hv (by simp [List.lookup_cons])

/-! ## Requests -/

theorem digits_dec (n : Nat) : Digits (decNat n) := by
  refine ⟨decNat_ne_nil n, fun c hc => ?_⟩
  have := decNat_digits n c hc
  unfold isDigit at this
  simpa [Digit, UInt8.le_iff_toNat_le] using this

theorem numeral_dec {n : Nat} (h : n < 2 ^ 63 - 1) : numeral (decNat n) = n := by
  have h1 := strtol_decNat n (by omega)
  rw [Render.strtol_digits (digits_dec n)] at h1
  have := congrArg Prod.fst h1
  simp only at this
  omega

/-- What a run of blogc for a site lists. -/
structure Shape (s : Site) (w : Wanted) : Prop where
  sources : (w.listing = true ∧ w.sources = postSources s) ∨ ∃ f ∈ siteSources s, w.sources = [f]
  entry : ∀ e, w.entry = some e → w.listing = true ∧ e ∈ siteSources s
  own : ∃ tag page per, Own s (ownVars w) tag page per ∧
    (page = none ∨ ∃ v n, page = some v ∧ per = some n ∧ Digits v ∧ Digits n ∧ 0 < numeral n ∧
      max 1 (numeral v) * numeral n < 2 ^ 63)
  sorted : ∀ v, (ownVars w).lookup b!"FILTER_SORT" = some v → ∀ f ∈ w.sources, f ∈ postSources s

theorem shape_listing (out : Str) (v : List (Str × Str)) {tag page per : Option Str} (h : Own s v tag page per)
    (hp : ∃ a n, page = some a ∧ per = some n ∧ Digits a ∧ Digits n ∧ 0 < numeral n ∧
      max 1 (numeral a) * numeral n < 2 ^ 63) : Shape s (listing s out v) where
  sources := .inl ⟨rfl, rfl⟩
  entry e he := by
    have : listingEntry s = some e := he
    unfold siteSources
    rw [this]
    simp [listing]
  own := ⟨tag, page, per, h, .inr hp⟩
  sorted _ _ _ hf := hf

theorem shape_feed (out : Str) (v : List (Str × Str)) {tag page per : Option Str} (h : Own s v tag page per)
    (hp : ∃ a n, page = some a ∧ per = some n ∧ Digits a ∧ Digits n ∧ 0 < numeral n ∧
      max 1 (numeral a) * numeral n < 2 ^ 63) : Shape s (feed s out v) where
  sources := .inl ⟨rfl, rfl⟩
  entry e he := by cases he
  own := ⟨tag, page, per, h, .inr hp⟩
  sorted _ _ _ hf := hf

theorem one_page {option : Str} (h : SizeOk s option) : ∃ a n, some b!"1" = some a ∧ some (s.getStr option) = some n ∧
    Digits a ∧ Digits n ∧ 0 < numeral n ∧ max 1 (numeral a) * numeral n < 2 ^ 63 :=
  ⟨_, _, rfl, rfl, digits_dec 1, h.1, h.2.1, by
    have h1 : numeral b!"1" = 1 := by decide
    have := h.2.2
    rw [h1, Nat.max_self]
    omega⟩

theorem number_page {option : Str} (h : SizeOk s option) {total count i : Nat} (ht : total < 2 ^ 24)
    (hc : IsPageCount (numeral (s.getStr option)) total count) (hi : i < count) :
    ∃ a n, some (decNat (i + 1)) = some a ∧ some (s.getStr option) = some n ∧
    Digits a ∧ Digits n ∧ 0 < numeral n ∧ max 1 (numeral a) * numeral n < 2 ^ 63 := by
  refine ⟨_, _, rfl, rfl, digits_dec _, h.1, h.2.1, ?_⟩
  have e := C29.pageCount_eq _ _ _ h.2.1 hc
  have h1 : (i + 1) * numeral (s.getStr option) ≤ count * numeral (s.getStr option) := Nat.mul_le_mul_right _ hi
  have h2 : count * numeral (s.getStr option) ≤ total + numeral (s.getStr option) - 1 := by
    rw [e]; exact Nat.div_mul_le_self _ _
  have h3 := h.2.2
  have h4 : i + 1 ≤ (i + 1) * numeral (s.getStr option) := Nat.le_mul_of_pos_right _ h.2.1
  rw [numeral_dec (by omega), Nat.max_eq_right (by omega)]
  omega

theorem mem_ite {w : Wanted} {c : Prop} [Decidable c] {l : List Wanted} (h : w ∈ if c then [] else l) : w ∈ l := by
  split at h
  · cases h
  · exact h

theorem shape (hw : Written s files seconds post time m) {count : Nat} {counts : Str → Nat}
    (hc : Counted s post count counts) {w : Wanted} (h : w ∈ runs s count counts) : Shape s w := by
  unfold runs at h
  simp only [List.mem_append] at h
  rcases h with ((((((h | h) | h) | h) | h) | h) | h) | h
  · have h := mem_ite h
    rw [List.mem_singleton] at h
    subst h
    exact shape_listing _ _ (own_first hw.size none _ _ _) (one_page hw.size)
  · have h := mem_ite h
    rw [List.mem_singleton] at h
    subst h
    exact shape_feed _ _ (own_first hw.feedSize none _ _ _) (one_page hw.feedSize)
  · obtain ⟨tag, -, rfl⟩ := List.mem_map.1 (mem_ite h)
    exact shape_feed _ _ (own_first hw.feedSize (some tag) _ _ _) (one_page hw.feedSize)
  · obtain ⟨i, hi, rfl⟩ := List.mem_map.1 (mem_ite h)
    exact shape_listing _ _ (own_page none _ _) (number_page hw.size hw.few hc.all (List.mem_range.1 hi))
  · obtain ⟨tag, htag, h⟩ := List.mem_flatMap.1 (mem_ite h)
    obtain ⟨i, hi, rfl⟩ := List.mem_map.1 h
    exact shape_listing _ _ (own_page (some tag) _ _)
      (number_page hw.size (Nat.lt_of_le_of_lt (List.length_filter_le _ _) hw.few) (hc.tag tag htag) (List.mem_range.1 hi))
  · obtain ⟨slug, hs, rfl⟩ := List.mem_map.1 h
    have hm : postSource s slug ∈ postSources s := List.mem_map.2 ⟨slug, hs, rfl⟩
    refine ⟨.inr ⟨_, ?_, rfl⟩, fun e he => (nomatch he), ⟨_, _, _, own_post slug _ _ _, .inl rfl⟩, fun v _ f hf => ?_⟩
    · unfold siteSources; simp [hm]
    · rw [List.mem_singleton.1 hf]; exact hm
  · obtain ⟨tag, -, rfl⟩ := List.mem_map.1 (mem_ite h)
    exact shape_listing _ _ (own_first hw.size (some tag) _ _ _) (one_page hw.size)
  · obtain ⟨slug, hs, rfl⟩ := List.mem_map.1 h
    have hm : pageSource s slug ∈ pageSources s := List.mem_map.2 ⟨slug, hs, rfl⟩
    refine ⟨.inr ⟨_, ?_, rfl⟩, fun e he => (nomatch he), ⟨_, _, _, own_static slug _ _ _, .inl rfl⟩, fun v hv => ?_⟩
    · unfold siteSources; simp [hm]
    · exfalso
      revert hv
      show ([(b!"MAKE_SLUG", slug)] ++ naming _ _ _).lookup b!"FILTER_SORT" = some v → False
      rw [C88.lookup_append, C88.naming_page _ _ _ _ (by decide)]
      simp [List.lookup_cons]

theorem vars_depth (version : Str) {own : List (Str × Str)} (ho : own.lookup b!"TOCTREE_MAXDEPTH" = none) :
    value s version own b!"TOCTREE_MAXDEPTH" = s.cfg.global.lookup b!"TOCTREE_MAXDEPTH" := by
  rw [C88.value_congr s version own [] _ ho]
  unfold MakeRun.value
  have h1 : ((if s.dev then [(b!"MAKE_ENV", b!"dev"), (b!"MAKE_ENV_DEV", b!"1")] else []) ++ []).lookup
      b!"TOCTREE_MAXDEPTH" = none := by
    cases s.dev <;> rfl
  have h2 : ((s.cfg.tags.toList.map fun tags => (b!"MAKE_TAGS", join b!" " tags)) ++
      [(b!"BLOGC_VERSION", version)]).lookup b!"TOCTREE_MAXDEPTH" = none := by
    cases s.cfg.tags <;> rfl
  rw [h1, h2]
  cases s.cfg.global.lookup b!"TOCTREE_MAXDEPTH" <;> rfl

/-- A run is a request for a page. -/
theorem request (hw : Written s files seconds post time m) {n : Nat} (hn : MakeRun.Paged s n) (version : Str) {w : Wanted}
    (h : Shape s w) {ts : List Tokens.Tok} {t : T} (ht : TemplateWritten files w.template ts t) :
    ∃ pg, Request.Render seconds files (vars s version w) w.listing w.sources w.entry.toList post time w.template ts m pg := by
  obtain ⟨tag, page, per, ho, hp⟩ := h.own
  have hv := fun k hk => C88.value_page hn version (ownVars w) k hk
  have hsub : ∀ f ∈ w.sources, f ∈ siteSources s := by
    rcases h.sources with ⟨-, e⟩ | ⟨f, hf, e⟩
    · rw [e]; intro f hf; unfold siteSources; simp [hf]
    · rw [e]; intro g hg; rw [List.mem_singleton.1 hg]; exact hf
  have hpg : ∃ pg, Request.Paged (vars s version w) pg := by
    rcases hp with hp | ⟨v, k, h1, h2, h3, h4, h5, h6⟩
    · exact ⟨none, .all ((hv _ (by decide)).trans (ho.page.trans hp))⟩
    · refine ⟨_, .page ((hv _ (by decide)).trans (ho.page.trans h1)) h3 (n := numeral k) ?_ h6⟩
      rw [show vars s version w b!"FILTER_PER_PAGE" = some k from (hv _ (by decide)).trans (ho.perPage.trans h2)]
      exact .given h4 h5
  obtain ⟨pg, hpg⟩ := hpg
  refine ⟨pg, ?_, ht.text, ht.utf8, ht.tokens, ?_, ?_, fun f hf => (hw.posts f (hsub f hf)).1, ?_, ?_, ?_, hpg⟩
  · rw [show vars s version w b!"TOCTREE_MAXDEPTH" = _ from vars_depth version ho.depth]
    exact hw.depth
  · rcases h.sources with ⟨e, -⟩ | ⟨f, -, e⟩
    · exact .inl e
    · exact .inr (by rw [e]; rfl)
  · rcases h.sources with ⟨-, e⟩ | ⟨f, -, e⟩
    · rw [e]; exact hw.few
    · rw [e, List.length_singleton]; omega
  · intro f hf _
    rcases hf with hf | hf
    · exact (hw.posts f (hsub f hf)).2
    · rw [Option.mem_toList] at hf
      exact (hw.posts f (h.entry f hf).2).2
  · rcases h.sources with ⟨-, e⟩ | ⟨f, -, e⟩
    · rw [e]; exact hw.dates
    · rw [e]
      by_cases hd : (post f).header b!"DATE" = none
      · exact .inr fun g hg => by rw [List.mem_singleton.1 hg]; exact hd
      · exact .inl fun g hg => by rw [List.mem_singleton.1 hg]; exact hd
  · rintro ⟨v, hv', -⟩
    have hl : (ownVars w).lookup b!"FILTER_SORT" = some v := (hv _ (by decide)).symm.trans hv'
    obtain ⟨y, hy1, hy2⟩ := (Listing.on_iff (val := s.get) rfl).1 (ho.sort v hl)
    have := hw.sorted y hy1 hy2
    have hm := h.sorted v hl
    exact ⟨fun f hf => this.dated f (hm f hf), fun f hf => this.range f (hm f hf),
      fun f hf g hg => this.near f (hm f hf) g (hm g hg)⟩

/-! ## The number of pages -/

variable {S : Setup} {out : Str → Prop} {cfg : MakeSettings.Settings}

theorem real_on (S : Setup) (h : Program.Host) (depth fuel : Nat) (cfg : MakeSettings.Settings) (d : Files) :
    (S.real h depth fuel).on cfg d = Program.env h (S.seen cfg d) depth fuel := by
  have h1 : (fun m f => ((S.real h depth fuel).seen cfg d f).bind ((S.real h depth fuel).source m f)) =
      fun m f => Program.value (Program.readSource (S.seen cfg d) depth fuel m f) := by
    funext m f
    show (S.seen cfg d f).bind _ = _
    unfold Program.readSource Program.readText
    cases he : S.seen cfg d f with
    | none => rfl
    | some text => 
      show Program.value (Program.readSource (fun _ => some text) depth fuel m f) = _
      unfold Program.readSource Program.readText
      rfl
  have h2 : (fun f => ((S.real h depth fuel).seen cfg d f).bind (S.real h depth fuel).template) =
      fun f => Program.value (Program.readTemplate (S.seen cfg d) fuel f) := by
    funext f
    show (S.seen cfg d f).bind _ = _
    unfold Program.readTemplate Program.readText
    cases he : S.seen cfg d f with
    | none => rfl
    | some text =>
      show Program.value (Program.readTemplate (fun _ => some text) fuel []) = _
      unfold Program.readTemplate Program.readText
      rfl
  unfold Setup.on
  rw [h1, h2]
  rfl

/-- All posts, or those with a tag. -/
noncomputable def among (post : Str → Post) (tag : Option Str) (names : List Str) : List Str :=
  match tag with
  | none => names
  | some t => withTag post t names

theorem tagged_length (val : Str → Option Str) (tag : Option Str) (hv : val b!"FILTER_TAG" = tag) {all names : List Str}
    (hp : all.Perm names) : (Request.tagged val post all).length =
      (among post tag names).length := by
  classical
  unfold Request.tagged among
  rw [(hp.filter _).length_eq]
  cases tag with
  | none =>
    simp only
    rw [List.filter_eq_self.2]
    intro f _
    have : Request.Tagged val (post f) := fun t e => by rw [hv] at e; cases e
    simp [this]
  | some t =>
    simp only
    unfold withTag
    congr 1
    refine List.filter_congr fun f _ => ?_
    have : Request.Tagged val (post f) ↔ HasTag post t f := by
      unfold Request.Tagged HasTag
      rw [hv]
      exact ⟨fun h => h t rfl, fun h t' e => by cases e; exact h⟩
    simp [this]

/-- The entries for all posts, or for those with a tag. -/
theorem all_entries (hs : Clean s) (h : Program.Host) (hw : Written s files (PageRun.seconds h) post time m) {n : Nat}
    (hn : MakeRun.Paged s n) (tag : Option Str) :
    ∃ b, ∀ depth ≥ b, ∀ fuel ≥ b, ∃ all, AllEntries s (Program.env h files depth fuel) tag all ∧
      all.length = (among post tag (postSources s)).length := by
  obtain ⟨b, hb⟩ := PageRun.bound (fun f => ((files f).getD []).length) (postSources s)
  have hown : ∀ kv ∈ tagVar tag ++ ordering s b!"html_order", NulFree kv.1 := by
    intro kv hkv
    have : kv.1 ∈ [b!"FILTER_TAG", b!"FILTER_REVERSE", b!"FILTER_SORT"] := by
      rcases List.mem_append.1 hkv with hk | hk
      · obtain ⟨t, -, rfl⟩ := List.mem_map.1 hk
        simp
      · unfold ordering at hk
        rcases List.mem_append.1 hk with hk | hk
        · split at hk
          · rw [List.mem_singleton.1 hk]; simp
          · cases hk
        · split at hk
          · rw [List.mem_singleton.1 hk]; simp
          · cases hk
    have hall : ∀ k ∈ [b!"FILTER_TAG", b!"FILTER_REVERSE", b!"FILTER_SORT"], NulFree k := by unfold NulFree; decide
    exact hall _ this
  obtain ⟨conf, hconf⟩ := table_exists s hs h.version _ hown
  obtain ⟨o1, o2, o3, o4, o5⟩ := C88.ordering_page s b!"html_order"
  have hval := fun k hk => C88.value_page hn h.version (tagVar tag ++ ordering s b!"html_order") k hk
  have hmd : MakeRun.value s h.version (tagVar tag ++ ordering s b!"html_order") b!"TOCTREE_MAXDEPTH" =
      s.cfg.global.lookup b!"TOCTREE_MAXDEPTH" :=
    vars_depth h.version (by rw [C88.lookup_append, C88.tagVar_lookup, o5]; rfl)
  refine ⟨b + 3, fun depth hdep fuel hfuel => ?_⟩
  have hread : ∀ f, ∃ v : Trie Str, f ∈ postSources s →
      Program.readSource files depth fuel (s.cfg.global.lookup b!"TOCTREE_MAXDEPTH") f = .ok (some v) ∧
      Shows f m (post f) v.lookup := by
    intro f
    by_cases hf : f ∈ postSources s
    · obtain ⟨hne, bytes, h1, h2⟩ := hw.posts f (by unfold siteSources; simp [hf])
      have h3 := hb f hf
      rw [h1, Option.getD_some] at h3
      obtain ⟨v, h4, h5⟩ := Page.readSource_shows h1 hne h2 hw.depth (depth := depth) (by omega)
      exact ⟨v, fun _ => ⟨h4 fuel (by omega), h5⟩⟩
    · exact ⟨.nil, fun h1 => absurd h1 hf⟩
  choose src hsrc using hread
  obtain ⟨l, count, vars, conf', h1, h2, -, -⟩ := Listing.loaded (Program.env h files depth fuel).loader conf
    (MakeRun.value s h.version (tagVar tag ++ ordering s b!"html_order")) (postSources s) post time src none
    (.all ((hval _ (by decide)).trans (by rw [C88.lookup_append, C88.tagVar_lookup, o1]; rfl))) hconf hw.few
    (fun f hf => by
      show Program.value _ = _
      rw [hconf _ (by decide), hmd, (hsrc f hf).1]
      rfl)
    (fun f hf k hk => PageRun.shows_header (hsrc f hf).2 (by revert k; decide) (by revert k; decide) (by revert k; decide))
    hw.dates
    (by
      rintro ⟨v, hv, -⟩
      rw [hval _ (by decide), C88.lookup_append, C88.tagVar_lookup] at hv
      obtain ⟨y, hy1, hy2⟩ := (Listing.on_iff (val := s.get) rfl).1 (ordering_sort s b!"html_order" v hv)
      exact hw.sorted y hy1 hy2)
  refine ⟨l.map vars, ⟨conf, conf', hconf, h1⟩, ?_⟩
  obtain ⟨all, h3, rfl⟩ := h2
  rw [List.length_map]
  exact tagged_length _ tag ((hval _ (by decide)).trans (by
    rw [C88.lookup_append, C88.tagVar_lookup, o3]; cases tag <;> rfl)) h3.perm

theorem among_le (tag : Option Str) (names : List Str) : (among post tag names).length ≤ names.length := by
  cases tag with
  | none => exact Nat.le_refl _
  | some t => exact List.length_filter_le _ _

/-- blogc tells the right number of pages. -/
theorem page_count (hg : Good S out cfg) (h : Program.Host) {d : Files}
    (hw : Written (base S cfg) (S.seen cfg d) (PageRun.seconds h) post time m) (tag : Option Str)
    (htag : ∀ t, tag = some t → TextOk t) {count : Nat}
    (hc : IsPageCount (numeral ((base S cfg).getStr b!"posts_per_page"))
      (among post tag (postSources (base S cfg))).length count) :
    ∃ b, ∀ depth ≥ b, ∀ fuel ≥ b, rounds (getVariable (S.site cfg (times d)) (shell ((S.real h depth fuel).on cfg d))
      (postsPagination cfg.settings b!"posts_per_page" .nil) (tag.map (set .nil b!"FILTER_TAG")) b!"LAST_PAGE" true
      (S.site cfg (times d)).posts false) = count := by
  have hn := paged hw hg.perPage fun f hf => (hg.posts f hf).1
  obtain ⟨b, hb⟩ := all_entries hg.clean h hw hn tag
  refine ⟨b, fun depth hdep fuel hfuel => ?_⟩
  obtain ⟨all, h1, h2⟩ := hb depth hdep fuel hfuel
  rw [real_on]
  obtain ⟨v, h3, h4⟩ := C88.last_page_partial (S.site cfg (times d)) (C100.clean_site hg.clean _) (C100.ok_site hg.ok _)
    (Program.env h (S.seen cfg d) depth fuel) tag htag _ ⟨hn.size, hn.positive, hn.fits, hn.text, hn.sources, hn.global⟩ all h1
    (by rw [h2]; exact Nat.lt_of_le_of_lt (among_le _ _) hw.few) count (by rw [h2]; exact hc)
  rw [show getVariable (S.site cfg (times d)) _ (postsPagination cfg.settings b!"posts_per_page" .nil) _ _ _ _ _ = _ from h3]
  exact h4

/-- The runs wanted are those for the documented numbers of pages. -/
theorem wants (hg : Good S out cfg) (h : Program.Host) {d : Files}
    (hw : Written (base S cfg) (S.seen cfg d) (PageRun.seconds h) post time m) {count : Nat} {counts : Str → Nat}
    (hc : Counted (base S cfg) post count counts) :
    ∃ b, ∀ depth ≥ b, ∀ fuel ≥ b, ∀ w, Wants (S.real h depth fuel) cfg d w ↔ w ∈ runs (base S cfg) count counts := by
  obtain ⟨b1, hb1⟩ := page_count hg h hw none (by intro t e; cases e) hc.all
  have htags : ∀ t ∈ siteTags (base S cfg), TextOk t := by
    intro t ht
    refine (hg.clean.tags t ?_).1
    unfold siteTags at ht
    split at ht
    · cases ht
    · exact ht
  have hex : ∀ t, ∃ b, t ∈ siteTags (base S cfg) → ∀ depth ≥ b, ∀ fuel ≥ b,
      rounds ((S.site cfg (times d)).lastPageOf (shell ((S.real h depth fuel).on cfg d)) t) = counts t := by
    intro t
    by_cases ht : t ∈ siteTags (base S cfg)
    · obtain ⟨b, hb⟩ := page_count hg h hw (some t) (by rintro t' ⟨⟩; exact htags t ht) (hc.tag t ht)
      exact ⟨b, fun _ => hb⟩
    · exact ⟨0, fun h => absurd h ht⟩
  choose f hf using hex
  obtain ⟨b2, hb2⟩ := PageRun.bound f (siteTags (base S cfg))
  refine ⟨b1 + b2, fun depth hdep fuel hfuel w => ?_⟩
  have e1 : pagination (base S cfg) (rounds ((S.site cfg (times d)).lastPage (shell ((S.real h depth fuel).on cfg d)))) =
      pagination (base S cfg) count := congrArg _ (hb1 depth (by omega) fuel (by omega))
  have e2 : paginationTags (base S cfg) (fun t => rounds ((S.site cfg (times d)).lastPageOf
      (shell ((S.real h depth fuel).on cfg d)) t)) = paginationTags (base S cfg) counts := by
    unfold paginationTags
    split
    · rfl
    · refine List.flatMap_congr fun t ht => ?_
      beta_reduce
      rw [hf t ht depth (by have := hb2 t ht; omega) fuel (by have := hb2 t ht; omega)]
  unfold Wants wantedBy
  show (∃ ws ∈ [index (base S cfg), atom (base S cfg), atomTags (base S cfg),
    pagination (base S cfg) (rounds ((S.site cfg (times d)).lastPage (shell ((S.real h depth fuel).on cfg d)))),
    paginationTags (base S cfg) (fun t => rounds ((S.site cfg (times d)).lastPageOf
      (shell ((S.real h depth fuel).on cfg d)) t)), posts (base S cfg), tags (base S cfg), pages (base S cfg)], w ∈ ws) ↔ _
  rw [e1, e2]
  unfold runs
  simp only [List.mem_cons, List.not_mem_nil, or_false, List.mem_append, exists_eq_or_imp, exists_eq_left, or_assoc]

/-! ## The runs -/

theorem possible_runs {count : Nat} {counts : Str → Nat} {w : Wanted} (h : w ∈ runs s count counts) : Possible s w := by
  unfold runs at h
  simp only [List.mem_append] at h
  unfold Possible
  rcases h with ((((((h | h) | h) | h) | h) | h) | h) | h
  · exact .inl h
  · exact .inr (.inl h)
  · exact .inr (.inr (.inl h))
  · exact .inr (.inr (.inr (.inl ⟨_, h⟩)))
  · exact .inr (.inr (.inr (.inr (.inl ⟨_, h⟩))))
  · exact .inr (.inr (.inr (.inr (.inr (.inl h)))))
  · exact .inr (.inr (.inr (.inr (.inr (.inr (.inl h))))))
  · exact .inr (.inr (.inr (.inr (.inr (.inr (.inr h))))))

theorem good_real (hg : Good S out cfg) (h : Program.Host) (depth fuel : Nat) : Good (S.real h depth fuel) out cfg :=
  ⟨hg.ok, hg.clean, hg.runs, hg.perPage, hg.posts, hg.settingsFile, hg.outputs, hg.inputs, hg.distinct⟩

/-- The settings file can be read, and gives the settings `cfg`. -/
def ReadAs (files : Str → Option Str) (f : Str) (cfg : MakeSettings.Settings) : Prop :=
  ∃ bytes, files f = some bytes ∧ WellFormedUtf8 (dropBom bytes) ∧
    MakeSettings.parse (dropBom bytes) = some (.ok (.ok cfg))

theorem config_real {d : Files} (hr : ReadAs (texts d) S.settingsFile cfg) :
    ∃ n, ∀ fuel ≥ n, ∀ h depth, (S.real h depth fuel).config d = some cfg := by
  obtain ⟨bytes, h1, h2, h3⟩ := hr
  refine ⟨bytes.length + 3, fun fuel hf h depth => ?_⟩
  show (texts d S.settingsFile).bind (fun text => Program.value (readSettings (fun _ => some text) fuel [])) = _
  rw [h1, Option.bind_some]
  unfold readSettings
  rw [Page.readText_ok (files := fun _ => some bytes) (f := []) rfl h2 (by omega)]
  simp only [Run.bind_ok, h3]
  rfl

theorem settings_read {files : Str → Option Str} {f : Str} {doc : Spec.Config.Doc} (hw : SettingsWritten files f doc) :
    ∃ cfg, SettingsOf doc cfg ∧ ReadAs files f cfg := by
  obtain ⟨bytes, h1, h2, h3⟩ := hw.text
  obtain ⟨r, h4, h5, h6⟩ := C62.documents doc hw.ok _ h3
  obtain ⟨cfg, rfl⟩ := h5.2 hw.acceptable
  obtain ⟨g1, g2, g3, g4, g5, g6⟩ := h6 cfg rfl
  exact ⟨cfg, ⟨g1, g2, g3, g4, g5, g6⟩, bytes, h1, h2, h4⟩

theorem effects_writeOut (o : Main.Opts) (p text : Str) (ho : o.output = some p) (hp : p ≠ b!"-") :
    effects (Main.writeOut o text) = ([(p, text)], .exit 0) := by
  unfold Main.writeOut
  rw [ho]
  simp only
  rw [if_neg hp, C100.effects_mkdirs]
  rfl

/-- What a run writes. -/
theorem run_shows (hg : Good S out cfg) (h : Program.Host) {d : Files}
    (hw : Written (base S cfg) (S.seen cfg d) (PageRun.seconds h) post time m) {count : Nat} {counts : Str → Nat}
    (hc : Counted (base S cfg) post count counts) {w : Wanted} (hr : w ∈ runs (base S cfg) count counts)
    {ts : List Tokens.Tok} {t : T} (ht : TemplateWritten (S.seen cfg d) w.template ts t) (used : List Str → Prop)
    (hn : ∀ pg l count, Request.Paged (vars (base S cfg) h.version w) pg →
      Request.Listed (vars (base S cfg) h.version w) post time w.sources l count pg →
      NoLeak ⟨l, w.listing⟩ (PageRun.Apart (l ++ w.entry.toList) post) (used l) false t) :
    ∃ b, ∀ depth ≥ b, ∃ text n, RunPage (base S cfg) h post time m t w text ∧
      ∀ fuel ≥ n, ∀ text', Shows (S.real h depth fuel) cfg d w text' ↔ text' = text := by
  have hp := possible_runs hr
  have hcl := hg.runs w hp
  have hpg := paged hw hg.perPage fun f hf => (hg.posts f hf).1
  have hsh := shape hw hc hr
  obtain ⟨pg, req⟩ := request hw hpg h.version hsh ht
  obtain ⟨conf, hconf⟩ := table_exists (base S cfg) hg.clean h.version (ownVars w) fun kv hkv =>
    validKey_nulFree (hcl.vars kv hkv).1
  obtain ⟨b, hb⟩ := PageRun.body_page h (S.seen cfg d) (vars (base S cfg) h.version w) w.listing w.sources w.entry.toList post
    time w.template ts m pg conf hconf req t ht.ok ht.meaning used (fun l count hl => hn pg l count req.page hl)
  refine ⟨b, fun depth hdep => ?_⟩
  obtain ⟨text, n, h1, h2⟩ := hb depth hdep
  have hne := (hg.outputs w hp).2
  have hen : (if w.listing then w.entry.toList else []) = w.entry.toList := by
    cases he : w.entry with
    | none => simp
    | some e => rw [(hsh.entry e he).1]; rfl
  refine ⟨text, n, ⟨pg, req.page, h1⟩, fun fuel hfuel text' => ⟨?_, ?_⟩⟩
  · rintro ⟨o, input, ha, he⟩
    rw [real_on] at ha he
    rw [h2 fuel hfuel input o ha.config ha.listing ha.print (ha.entries.trans hen) ha.template ha.sources,
      effects_writeOut o _ _ ha.output hne] at he
    injection he with he
    injection he with he
    injection he with _ he
    exact he.symm
  · rintro rfl
    let o : Main.Opts := ⟨false, false, w.listing, some w.template, some w.output, none, w.sources, w.entry.toList, conf⟩
    have hs : ∀ env, Main.allSources env o = w.sources := fun env => List.append_nil _
    refine ⟨o, [], ⟨rfl, rfl, rfl, hen.symm, rfl, rfl, hs _, fun k hk => ?_⟩, ?_⟩
    · exact hconf k hk
    · rw [real_on, h2 fuel hfuel [] o hconf rfl rfl rfl rfl (hs _)]
      exact effects_writeOut o _ _ rfl hne

end Blogc.SitePages
