import Verif.Lemmas.LoaderCount
import Verif.Props.C29
import Verif.Props.C87

/-!
# C88: the pages built by blogc-make show every post exactly once
-/

namespace Blogc.C88

open Blogc Blogc.Make
open Blogc.Spec Blogc.Spec.MakeJobs Blogc.Spec.MakeRun
open Blogc.Spec.Entries (page IsPageCount)

/-- The variables about pages. -/
def pageNames : List Str :=
  [b!"FILTER_SORT", b!"FILTER_REVERSE", b!"FILTER_TAG", b!"FILTER_PAGE", b!"FILTER_PER_PAGE", b!"LAST_PAGE"]

theorem names_nulFree : ∀ k ∈ pageNames, NulFree k := by unfold NulFree; decide

theorem lookup_append (a b : List (Str × Str)) (k : Str) : (a ++ b).lookup k = (a.lookup k <|> b.lookup k) := by
  rw [List.lookup_append]
  cases a.lookup k <;> rfl

/-- The variables about pages come from the run only. -/
theorem value_page {s : Site} {n : Nat} (h : Paged s n) (version : Str) (own : List (Str × Str)) (k : Str)
    (hk : k ∈ pageNames) : value s version own k = own.lookup k := by
  have h1 : (if s.dev then [(b!"MAKE_ENV", b!"dev"), (b!"MAKE_ENV_DEV", b!"1")] else []).lookup k = none := by
    have : ∀ k ∈ pageNames, [(b!"MAKE_ENV", b!"dev"), (b!"MAKE_ENV_DEV", b!"1")].lookup k = none := by decide
    cases s.dev with
    | false => rfl
    | true => exact this k hk
  have h2 : ((s.cfg.tags.toList.map fun tags => (b!"MAKE_TAGS", join b!" " tags)) ++
      [(b!"BLOGC_VERSION", version)]).lookup k = none := by
    rw [List.lookup_eq_none_iff]
    have k1 : b!"MAKE_TAGS" ∉ pageNames := by decide
    have k2 : b!"BLOGC_VERSION" ∉ pageNames := by decide
    intro p hp
    simp only [bne_iff_ne, ne_eq]
    rintro rfl
    rcases List.mem_append.1 hp with hp | hp
    · obtain ⟨t, _, rfl⟩ := List.mem_map.1 hp
      exact k1 hk
    · rw [List.mem_singleton.1 hp] at hk
      exact k2 hk
  unfold value
  rw [lookup_append _ own, h1, h2, h.global k hk]
  cases own.lookup k <;> rfl

theorem value_congr (s : Site) (version : Str) (own own' : List (Str × Str)) (k : Str)
    (h : own.lookup k = own'.lookup k) : value s version own k = value s version own' k := by
  unfold value
  rw [lookup_append _ own, lookup_append _ own', h]

theorem ordering_page (s : Site) (option : Str) :
    (ordering s option).lookup b!"FILTER_PAGE" = none ∧ (ordering s option).lookup b!"FILTER_PER_PAGE" = none ∧
      (ordering s option).lookup b!"FILTER_TAG" = none ∧ (ordering s option).lookup b!"LAST_PAGE" = none ∧
      (ordering s option).lookup b!"TOCTREE_MAXDEPTH" = none := by
  unfold ordering
  cases strToBool (s.get b!"posts_sort") <;> cases C54.OldestFirst (s.get option) <;> decide

/-- What is printed for LAST_PAGE. -/
theorem printed (env : Main.Env) (o : Main.Opts) (l : List (Trie Str)) (c : Trie Str) (ho : o.listing = true) :
    variableValue (finished (Main.printVariable env o l c b!"LAST_PAGE")) = c.lookup b!"LAST_PAGE" := by
  unfold Main.printVariable
  rw [ho]
  simp only [if_true]
  unfold Render.formatVariable Render.getVariable
  simp only
  cases h : c.lookup b!"LAST_PAGE" with
  | some v =>
    simp only [finished, variableValue]
    rw [if_neg (by simp)]
    simp [Main.Outcome.exit]
  | none =>
    have e : Render.derived env.sys c none {} b!"LAST_PAGE" = .ok (c, none) := by
      have e1 : Render.splitSize b!"LAST_PAGE" = .ok (b!"LAST_PAGE", -1) := by decide
      have e2 : Render.splitFormatted b!"LAST_PAGE" = (b!"LAST_PAGE", false) := by decide
      have e3 : Render.funcvarsEval env.sys c b!"LAST_PAGE" = c := by
        unfold Render.funcvarsEval
        rw [h]
        rfl
      unfold Render.derived
      rw [e1]
      simp only [Res.bind, e2, Render.baseValue, e3, Render.getVariable, h, Option.map_none]
    simp only
    rw [if_neg (by decide), if_neg (by decide), e]
    rfl

/-- Two runs with the same variables of their own about pages load the same. -/
theorem same_of {c d : Trie Str} {p n : Nat} (hp : 0 < p) (hp' : p < 2 ^ 63) (hn : n < 2 ^ 63) (v : Str)
    (hv : (strtol v).1 = n)
    (hs : strToBool (c.lookup b!"FILTER_SORT") = strToBool (d.lookup b!"FILTER_SORT"))
    (hr : strToBool (c.lookup b!"FILTER_REVERSE") = strToBool (d.lookup b!"FILTER_REVERSE"))
    (hm : c.lookup b!"TOCTREE_MAXDEPTH" = d.lookup b!"TOCTREE_MAXDEPTH")
    (ht : c.lookup b!"FILTER_TAG" = d.lookup b!"FILTER_TAG")
    (h1 : c.lookup b!"FILTER_PAGE" = some (decNat p)) (h2 : d.lookup b!"FILTER_PAGE" = some (decNat p))
    (h3 : c.lookup b!"FILTER_PER_PAGE" = some (decNat n)) (h4 : d.lookup b!"FILTER_PER_PAGE" = some v) :
    Loader.Same c d where
  sort := hs
  reverse := hr
  depth := hm
  tag := ht
  paged := by rw [h1, h2]
  page := by rw [h1, h2]
  perPage := by
    rw [h3, h4]
    unfold Loader.perPageOf
    rw [Option.getD_some, Option.getD_some, strtol_decNat n hn, hv]

theorem tagVar_lookup (tag : Option Str) (k : Str) :
    (tagVar tag).lookup k = if k = b!"FILTER_TAG" then tag else none := by
  cases tag with
  | none => simp [tagVar]
  | some t =>
    by_cases h : k = b!"FILTER_TAG"
    · subst h; rfl
    · rw [if_neg h]
      show List.lookup k [(b!"FILTER_TAG", t)] = none
      rw [List.lookup_cons, show (k == b!"FILTER_TAG") = false from by simpa using h]
      rfl

/-- blogc-make learns the right number of pages from blogc. -/
theorem last_page_partial (s : Site) (hs : Clean s) (h : MakeJobs.Ok s) (env : Main.Env) (tag : Option Str)
    (htag : ∀ t, tag = some t → TextOk t) (n : Nat) (hn : Paged s n) (all : List (Trie Str))
    (hall : AllEntries s env tag all) (hlen : all.length < 2 ^ 24) (count : Nat)
    (hcount : IsPageCount n all.length count) :
    ∃ v, getVariable s (shell env) (postsPagination s.cfg.settings b!"posts_per_page" .nil)
        (tag.map (set .nil b!"FILTER_TAG")) b!"LAST_PAGE" true s.posts false = .ok v ∧
      pageRounds v = count := by
  obtain ⟨c, c', hc, hload⟩ := hall
  obtain ⟨cmd, input, o, hcmd, hstart, ha⟩ := C87.variable_runs_partial s hs h env tag htag hn.text hn.sources
    b!"LAST_PAGE" ⟨by decide, by decide⟩
  change Asked s _ o (tagVar tag ++ firstPage s b!"posts_per_page") true (some b!"LAST_PAGE") none none none _ at ha
  obtain ⟨o1, o2, o3, o4, o5⟩ := ordering_page s b!"html_order"
  have hn0 := hn.positive
  have hnf := hn.fits
  have cp : ∀ k ∈ pageNames, c.lookup k = (tagVar tag ++ ordering s b!"html_order").lookup k :=
    fun k hk => (hc k (names_nulFree k hk)).trans (value_page hn _ _ k hk)
  have ol : ∀ k ∈ pageNames, o.config.lookup k = (tagVar tag ++ firstPage s b!"posts_per_page").lookup k :=
    fun k hk => (ha.config k (names_nulFree k hk)).trans (value_page hn _ _ k hk)
  have hfirst : firstPage s b!"posts_per_page" =
      [(b!"FILTER_PER_PAGE", s.getStr b!"posts_per_page"), (b!"FILTER_PAGE", b!"1")] := by
    unfold firstPage
    rw [if_neg (by rw [hn.size]; omega)]
  have cpage : c.lookup b!"FILTER_PAGE" = none := by
    rw [cp _ (by decide), lookup_append, tagVar_lookup, if_neg (by decide), o1]
    rfl
  have clast : c.lookup b!"LAST_PAGE" = none := by
    rw [cp _ (by decide), lookup_append, tagVar_lookup, if_neg (by decide), o4]
    rfl
  -- the same listing without an order
  let d := Loader.set (Loader.set (Loader.set c b!"FILTER_SORT" []) b!"FILTER_REVERSE" []) b!"FILTER_PER_PAGE"
    (decNat n)
  have dl : ∀ k, NulFree k → d.lookup k = if k = b!"FILTER_PER_PAGE" then some (decNat n) else
      if k = b!"FILTER_REVERSE" then some [] else if k = b!"FILTER_SORT" then some [] else c.lookup k := by
    intro k hk
    rw [Loader.lookup_set _ _ _ _ (by decide) hk, Loader.lookup_set _ _ _ _ (by decide) hk,
      Loader.lookup_set _ _ _ _ (by decide) hk]
  have d1 : d.lookup b!"FILTER_PAGE" = none := by rw [dl _ (by decide)]; simpa using cpage
  obtain ⟨l0, d', hd', hl0⟩ := Loader.count_same env.loader c d (postSources s) all c' cpage d1
    (by rw [dl _ (by decide)]; rfl) (by rw [dl _ (by decide)]; rfl) (by rw [dl _ (by decide)]; rfl)
    (by rw [dl _ (by decide)]; rfl) hload
  obtain ⟨e, he, hvars⟩ := C29.page_exact env.loader d (postSources s) l0 d' n 1 count d1
    (.inl (by rw [dl _ (by decide)]; rfl)) hn0 (by omega) (by omega) (by omega) (by rw [hl0]; exact hcount) hd'
  have pl : ∀ k, NulFree k → (Loader.set d b!"FILTER_PAGE" (decNat 1)).lookup k =
      if k = b!"FILTER_PAGE" then some (decNat 1) else d.lookup k :=
    fun k hk => Loader.lookup_set _ _ _ _ (by decide) hk
  have hsame : Loader.Same (Loader.set d b!"FILTER_PAGE" (decNat 1)) o.config := by
    refine same_of (p := 1) (n := n) (by omega) (by omega) (by omega) (s.getStr b!"posts_per_page") hn.size
      ?_ ?_ ?_ ?_ ?_ ?_ ?_ ?_
    · rw [pl _ (by decide), dl _ (by decide), ol _ (by decide), hfirst, lookup_append, tagVar_lookup]
      rfl
    · rw [pl _ (by decide), dl _ (by decide), ol _ (by decide), hfirst, lookup_append, tagVar_lookup]
      rfl
    · rw [pl _ (by decide), dl _ (by decide), ha.config _ (by decide)]
      rw [if_neg (by decide), if_neg (by decide), if_neg (by decide), if_neg (by decide), hc _ (by decide)]
      apply value_congr
      rw [lookup_append _ (ordering s _), lookup_append _ (firstPage s _), tagVar_lookup, o5, hfirst]
      rfl
    · rw [pl _ (by decide), dl _ (by decide), ol _ (by decide), hfirst]
      rw [if_neg (by decide), if_neg (by decide), if_neg (by decide), if_neg (by decide), cp _ (by decide),
        lookup_append, lookup_append, tagVar_lookup, o3]
      rfl
    · rw [pl _ (by decide)]; rfl
    · rw [ol _ (by decide), hfirst, lookup_append, tagVar_lookup]
      rfl
    · rw [pl _ (by decide), dl _ (by decide)]; rfl
    · rw [ol _ (by decide), hfirst, lookup_append, tagVar_lookup]
      rfl
  obtain ⟨e', he', hk'⟩ := Loader.fromFiles_same env.loader hsame (postSources s) _ e he
  have hlp : e.lookup b!"LAST_PAGE" = e'.lookup b!"LAST_PAGE" := by
    apply hk' _ (by decide)
    rw [pl _ (by decide), dl _ (by decide), ol _ (by decide), hfirst, lookup_append, tagVar_lookup]
    exact clast
  have hvalue : variableValue (shell env cmd input) = e'.lookup b!"LAST_PAGE" := by
    unfold shell
    rw [hstart, Option.bind_some]
    unfold Main.body
    rw [ha.listing, if_neg (by simp), ha.sources]
    show variableValue (finished (match Loader.fromFiles env.loader o.config (postSources s) with
      | .ub => _
      | .ok none => _
      | .ok (some (s, config)) => _)) = _
    rw [he']
    simp only
    rw [ha.entries]
    simp only [if_true, Option.toList_none, Main.loadEntries]
    rw [ha.print]
    simp only
    exact printed _ o _ e' ha.listing
  refine ⟨e'.lookup b!"LAST_PAGE", ?_, ?_⟩
  · unfold getVariable
    rw [hcmd]
    show Res.ok _ = _
    rw [hvalue]
  · rw [← hlp]
    by_cases h0 : 0 < count
    · rw [hvars.last h0]
      have hc63 : count < 2 ^ 63 := by
        have := hcount.2 all.length (Nat.le_mul_of_pos_right _ hn0)
        omega
      show ((strtol (decNat count)).1 % 2 ^ 64).toNat = count
      rw [strtol_decNat count hc63]
      simp only
      omega
    · rw [hvars.noLast h0, dl _ (by decide), if_neg (by decide), if_neg (by decide), if_neg (by decide), clast]
      show 0 = count
      omega

theorem naming_page (date rule type : Str) : ∀ k ∈ b!"TOCTREE_MAXDEPTH" :: pageNames,
    (naming date rule type).lookup k = none := by
  intro k hk
  rw [List.lookup_eq_none_iff]
  intro p hp
  simp only [bne_iff_ne, ne_eq]
  rintro rfl
  have h1 : p.1 = b!"MAKE_TYPE" ∨ p.1 = b!"MAKE_RULE" ∨ p.1 = b!"DATE_FORMAT" := by
    simp only [naming, List.mem_cons, List.not_mem_nil, or_false] at hp
    rcases hp with rfl | rfl | rfl <;> simp
  revert hk
  rcases h1 with h | h | h <;> rw [h] <;> decide

/-- The variables of a page of a tag, or of all posts. -/
theorem page_lookup (s : Site) (rule : Str) (tag : Option Str) (p : Nat) (k : Str)
    (hk : k ∈ b!"TOCTREE_MAXDEPTH" :: pageNames) :
    (tagVar tag ++ pageVars s rule p).lookup k = if k = b!"FILTER_PAGE" then some (decNat p) else
      if k = b!"FILTER_PER_PAGE" then some (s.getStr b!"posts_per_page") else
      (tagVar tag ++ ordering s b!"html_order").lookup k := by
  obtain ⟨o1, o2, o3, o4, o5⟩ := ordering_page s b!"html_order"
  rw [lookup_append, lookup_append, tagVar_lookup]
  unfold pageVars
  rw [List.lookup_cons, lookup_append, lookup_append, naming_page _ _ _ k hk]
  simp only [pageNames, List.mem_cons, List.not_mem_nil, or_false] at hk
  rcases hk with rfl | rfl | rfl | rfl | rfl | rfl | rfl
  · rw [o5]; rfl
  · generalize (ordering s b!"html_order").lookup b!"FILTER_SORT" = q
    cases q <;> rfl
  · generalize (ordering s b!"html_order").lookup b!"FILTER_REVERSE" = q
    cases q <;> rfl
  · rw [o3]; cases tag <;> rfl
  · rfl
  · rw [o2]; rfl
  · rw [o4]; rfl

/-- The run for a page loads that page. -/
theorem page_run (s : Site) (hs : Clean s) (env : Main.Env) (tag : Option Str)
    (n : Nat) (hn : Paged s n) (all : List (Trie Str))
    (hall : AllEntries s env tag all) (hlen : all.length < 2 ^ 24) (count : Nat)
    (hcount : IsPageCount n all.length count) (p : Nat) (hp : 0 < p) (hp' : p ≤ count)
    (rule : Str) (w : Wanted) (hw : CleanRun w) (hl : w.listing = true) (hslug : w.slug = none)
    (hsrc : w.sources = postSources s)
    (hvars : w.vars = tagVar tag ++ pageVars s rule p) (j : Job) (hj : Fits w j) :
    ShowsPage s env j w.output (page n p all) count := by
  obtain ⟨c, c', hc, hload⟩ := hall
  obtain ⟨cmd, input, o, hcmd, hin, hstart, ha⟩ := C87.job_runs_partial s hs env w hw j hj
  have hown : ownVars w = tagVar tag ++ pageVars s rule p := by
    unfold ownVars
    rw [hslug, hvars]
    rfl
  rw [hown, hl, hsrc] at ha
  obtain ⟨o1, o2, o3, o4, o5⟩ := ordering_page s b!"html_order"
  have hn0 := hn.positive
  have hnf := hn.fits
  have hpn : p * n < 2 ^ 63 := by
    have h1 : count * n ≤ all.length + n - 1 := by
      rw [C29.pageCount_eq n _ _ hn0 hcount]
      exact Nat.div_mul_le_self _ _
    have h2 := Nat.mul_le_mul_right n hp'
    omega
  have hp63 : p < 2 ^ 63 := by
    have := Nat.le_mul_of_pos_right p hn0
    omega
  have cp : ∀ k ∈ pageNames, c.lookup k = (tagVar tag ++ ordering s b!"html_order").lookup k :=
    fun k hk => (hc k (names_nulFree k hk)).trans (value_page hn _ _ k hk)
  have ol : ∀ k ∈ pageNames, o.config.lookup k = if k = b!"FILTER_PAGE" then some (decNat p) else
      if k = b!"FILTER_PER_PAGE" then some (s.getStr b!"posts_per_page") else c.lookup k := by
    intro k hk
    rw [(ha.config k (names_nulFree k hk)).trans (value_page hn _ _ k hk), cp k hk]
    exact page_lookup s rule tag p k (List.mem_cons_of_mem _ hk)
  have cpage : c.lookup b!"FILTER_PAGE" = none := by
    rw [cp _ (by decide), lookup_append, tagVar_lookup, if_neg (by decide), o1]
    rfl
  let d := Loader.set c b!"FILTER_PER_PAGE" (decNat n)
  have dl : ∀ k, NulFree k → d.lookup k = if k = b!"FILTER_PER_PAGE" then some (decNat n) else c.lookup k :=
    fun k hk => Loader.lookup_set _ _ _ _ (by decide) hk
  have d1 : d.lookup b!"FILTER_PAGE" = none := by rw [dl _ (by decide)]; simpa using cpage
  obtain ⟨d', hd'⟩ := Loader.unpaged env.loader c d (postSources s) all c' cpage d1
    (by rw [dl _ (by decide)]; rfl) (by rw [dl _ (by decide)]; rfl) (by rw [dl _ (by decide)]; rfl)
    (by rw [dl _ (by decide)]; rfl) hload
  obtain ⟨e, he, hpv⟩ := C29.page_exact env.loader d (postSources s) all d' n p count d1
    (.inl (by rw [dl _ (by decide)]; rfl)) hn0 hp hpn hlen hcount hd'
  have pl : ∀ k, NulFree k → (Loader.set d b!"FILTER_PAGE" (decNat p)).lookup k =
      if k = b!"FILTER_PAGE" then some (decNat p) else d.lookup k :=
    fun k hk => Loader.lookup_set _ _ _ _ (by decide) hk
  have hsame : Loader.Same (Loader.set d b!"FILTER_PAGE" (decNat p)) o.config := by
    refine same_of (p := p) (n := n) hp hp63 (by omega) (s.getStr b!"posts_per_page") hn.size ?_ ?_ ?_ ?_ ?_ ?_ ?_ ?_
    · rw [pl _ (by decide), dl _ (by decide), ol _ (by decide)]; rfl
    · rw [pl _ (by decide), dl _ (by decide), ol _ (by decide)]; rfl
    · rw [pl _ (by decide), dl _ (by decide), ha.config _ (by decide)]
      rw [if_neg (by decide), if_neg (by decide), hc _ (by decide)]
      apply value_congr
      rw [page_lookup s rule tag p _ (by decide)]
      rfl
    · rw [pl _ (by decide), dl _ (by decide), ol _ (by decide)]; rfl
    · rw [pl _ (by decide)]; rfl
    · rw [ol _ (by decide)]; rfl
    · rw [pl _ (by decide), dl _ (by decide)]; rfl
    · rw [ol _ (by decide)]; rfl
  obtain ⟨e', he', hk'⟩ := Loader.fromFiles_same env.loader hsame (postSources s) _ e he
  refine ⟨cmd, input, o, e', hcmd, hin, hstart, ha.listing, ha.print, ha.output, ?_, ?_⟩
  · rw [ha.sources]
    exact he'
  · rw [← hk' _ (by decide), hpv.last (by omega)]
    rw [pl _ (by decide), dl _ (by decide), ol _ (by decide)]
    rfl

/-- The property, for all posts. The rule that builds the pages learns their number
from blogc and makes one page after the other: page `i` of the entries listed in the
order of the settings file, with the right number of the last page. All pages
together are all entries, each exactly once and in order. -/
theorem pages_partial (s : Site) (hs : Clean s) (h : MakeJobs.Ok s) (env : Main.Env) (n : Nat) (hn : Paged s n)
    (all : List (Trie Str)) (hall : AllEntries s env none all) (hlen : all.length < 2 ^ 24) (count : Nat)
    (hcount : IsPageCount n all.length count) (hclean : ∀ w ∈ pagination s count, CleanRun w) (exec : Job → Int) :
    (∃ outputs, s.paginationOutputs (shell env) = .ok outputs ∧
      Does s.stat exec (pagination s count) (s.paginationExec exec outputs)) ∧
    (∀ i w j, (pagination s count)[i]? = some w → Fits w j → ShowsPage s env j w.output (page n (i + 1) all) count) ∧
    (List.range count).flatMap (fun i => page n (i + 1) all) = all := by
  obtain ⟨v, hv, hr⟩ := last_page_partial s hs h env none (by intro t e; cases e) n hn all hall hlen count hcount
  refine ⟨?_, ?_, C29.pages_concat n count all hcount.1⟩
  · have := C86.pagination_rule s h (shell env) exec v hv
    rw [hr] at this
    exact this
  · intro i w j hw hj
    have hm := hclean w (List.mem_of_getElem? hw)
    unfold pagination at hw
    split at hw
    · cases hw
    · rw [List.getElem?_map] at hw
      obtain ⟨i', hi, rfl⟩ := Option.map_eq_some_iff.1 hw
      have hi' := List.getElem?_eq_some_iff.1 hi
      obtain ⟨hlt, hi'⟩ := hi'
      rw [List.length_range] at hlt
      rw [List.getElem_range] at hi'
      subst hi'
      exact page_run s hs env none n hn all hall hlen count hcount (i + 1) (by omega) (by omega) b!"pagination" _ hm
        rfl rfl rfl rfl j hj

/-- The property, for each tag. -/
theorem tag_pages_partial (s : Site) (hs : Clean s) (h : MakeJobs.Ok s) (env : Main.Env) (n : Nat) (hn : Paged s n)
    (all : Str → List (Trie Str)) (hall : ∀ t ∈ siteTags s, AllEntries s env (some t) (all t))
    (hlen : ∀ t ∈ siteTags s, (all t).length < 2 ^ 24) (count : Str → Nat)
    (hcount : ∀ t ∈ siteTags s, IsPageCount n (all t).length (count t))
    (hclean : ∀ w ∈ paginationTags s count, CleanRun w) (exec : Job → Int) :
    (∃ outputs, s.paginationTagsOutputs (shell env) = .ok outputs ∧
      Does s.stat exec (paginationTags s count) (s.paginationTagsExec exec outputs)) ∧
    (∀ t ∈ siteTags s, ∀ i < count t, ∃ w ∈ paginationTags s count,
      w.output = C53.tagPathOf (outDir s) (s.get b!"blog_prefix") (s.get b!"tag_prefix")
        (s.get b!"pagination_prefix") t (i + 1) (s.get b!"html_ext") ∧
      ∀ j, Fits w j → ShowsPage s env j w.output (page n (i + 1) (all t)) (count t)) ∧
    ∀ t ∈ siteTags s, (List.range (count t)).flatMap (fun i => page n (i + 1) (all t)) = all t := by
  have htext : ∀ t ∈ siteTags s, TextOk t := by
    intro t ht
    unfold siteTags at ht
    split at ht
    · cases ht
    · exact (hs.tags t ht).1
  refine ⟨?_, ?_, fun t ht => C29.pages_concat n (count t) (all t) (hcount t ht).1⟩
  · have hlast : ∀ t, ∃ v, t ∈ siteTags s → s.lastPageOf (shell env) t = .ok v ∧ pageRounds v = count t := by
      intro t
      by_cases ht : t ∈ siteTags s
      · obtain ⟨v, hv, hr⟩ := last_page_partial s hs h env (some t) (by intro t' e; cases e; exact htext t ht) n hn
          (all t) (hall t ht) (hlen t ht) (count t) (hcount t ht)
        exact ⟨v, fun _ => ⟨hv, hr⟩⟩
      · exact ⟨none, fun h => absurd h ht⟩
    obtain ⟨v, hv⟩ := Classical.axiomOfChoice hlast
    have := C86.pagination_tags_rule s h (shell env) exec v fun t ht => (hv t ht).1
    have e : paginationTags s (fun t => pageRounds (v t)) = paginationTags s count := by
      unfold paginationTags
      split
      · rfl
      · apply List.flatMap_congr
        intro t ht
        exact congrArg (fun m => (List.range m).map _) (hv t ht).2
    rw [e] at this
    exact this
  · intro t ht i hi
    have hm : listing s (C53.tagPathOf (outDir s) (s.get b!"blog_prefix") (s.get b!"tag_prefix")
        (s.get b!"pagination_prefix") t (i + 1) (s.get b!"html_ext"))
        ((b!"FILTER_TAG", t) :: pageVars s b!"pagination_tags" (i + 1)) ∈ paginationTags s count := by
      unfold paginationTags
      rw [if_neg (by rw [hn.size]; have := hn.positive; omega)]
      exact List.mem_flatMap.2 ⟨t, ht, List.mem_map.2 ⟨i, List.mem_range.2 hi, rfl⟩⟩
    refine ⟨_, hm, rfl, fun j hj => ?_⟩
    exact page_run s hs env (some t) n hn (all t) (hall t ht) (hlen t ht) (count t) (hcount t ht) (i + 1)
      (by omega) (by omega) b!"pagination_tags" _ (hclean _ hm) rfl rfl rfl rfl j hj

/-! ## The entries are the posts -/

/-- The variables of a run without variables of its own. -/
theorem base_exists (s : Site) (hs : Clean s) (version : Str) :
    ∃ base : Trie Str, ∀ k, NulFree k → base.lookup k = value s version [] k := by
  refine ⟨(Trie.inserts ((b!"BLOGC_VERSION", version) :: C87.definitions s .nil none)).1, fun k hk => ?_⟩
  have hck : CKeys ((b!"BLOGC_VERSION", version) :: C87.definitions s .nil none) := by
    intro kv hkv
    rcases List.mem_cons.1 hkv with rfl | hkv
    · show NulFree b!"BLOGC_VERSION"
      decide
    · unfold C87.definitions at hkv
      simp only [List.mem_append] at hkv
      rcases hkv with (((h | h) | h) | h) | h
      · obtain ⟨t, _, rfl⟩ := List.mem_map.1 h
        show NulFree b!"MAKE_TAGS"
        decide
      · exact ((C87.mem_defs hs.filled kv.1 kv.2).1 h).1
      · cases h
      · cases h
      · cases hd : s.dev with
        | false => rw [hd] at h; cases h
        | true =>
          rw [hd] at h
          simp only [if_true, List.mem_cons, List.not_mem_nil, or_false] at h
          rcases h with rfl | rfl
          · show NulFree b!"MAKE_ENV_DEV"; decide
          · show NulFree b!"MAKE_ENV"; decide
  rw [C07.lookup_inserts _ hck _ hk]
  exact C87.config_value s hs version (ll := []) describes_nil rfl k hk

theorem base_noFilter {s : Site} {n : Nat} (hn : Paged s n) {version : Str} {base : Trie Str}
    (hbase : ∀ k, NulFree k → base.lookup k = value s version [] k) : C54.NoFilter base := by
  have key : ∀ k ∈ pageNames, base.lookup k = none :=
    fun k hk => (hbase k (names_nulFree k hk)).trans (value_page hn _ _ k hk)
  exact ⟨key _ (by decide), key _ (by decide), key _ (by decide), key _ (by decide)⟩

theorem all_of_lists (s : Site) (env : Main.Env) (n : Nat) (hn : Paged s n)
    (base : Trie Str) (hbase : ∀ k, NulFree k → base.lookup k = value s env.version [] k)
    (vars : Str → Trie Str) (time : Str → Int)
    (hl : C54.Lists env.loader (postsOrdering s.cfg.settings b!"html_order" base) (postSources s) vars
      (C54.OldestFirst (s.get b!"html_order")) time) :
    ∃ fs, fs.Perm (postSources s) ∧ C54.InOrder (C54.OldestFirst (s.get b!"html_order")) time fs ∧
      AllEntries s env none (fs.map vars) := by
  obtain ⟨fs, c', h1, h2, h3⟩ := hl
  refine ⟨fs, h2, h3, _, c', ?_, h1⟩
  intro k hk
  rw [C54.ordering_lookup _ _ _ (base_noFilter hn hbase) k hk]
  have hsort : s.cfg.settings.lookup b!"posts_sort" = s.get b!"posts_sort" := rfl
  have hord : s.cfg.settings.lookup b!"html_order" = s.get b!"html_order" := rfl
  rw [hsort, hord, hbase k hk]
  show _ = value s env.version (ordering s b!"html_order") k
  by_cases e1 : k = b!"FILTER_SORT"
  · subst e1
    rw [if_pos rfl, value_page hn _ _ _ (by decide)]
    unfold ordering
    cases strToBool (s.get b!"posts_sort") <;> cases C54.OldestFirst (s.get b!"html_order") <;> decide
  · rw [if_neg e1]
    by_cases e2 : k = b!"FILTER_REVERSE"
    · subst e2
      rw [if_pos rfl, value_page hn _ _ _ (by decide)]
      unfold ordering
      cases strToBool (s.get b!"posts_sort") <;> cases C54.OldestFirst (s.get b!"html_order") <;> decide
    · rw [if_neg e2]
      apply value_congr
      have f1 : (k == b!"FILTER_SORT") = false := by simpa using e1
      have f2 : (k == b!"FILTER_REVERSE") = false := by simpa using e2
      unfold ordering
      cases strToBool (s.get b!"posts_sort") <;> cases C54.OldestFirst (s.get b!"html_order") <;>
        simp [List.lookup_cons, f1, f2]

theorem base_depth {s : Site} {version : Str} {base : Trie Str}
    (hbase : ∀ k, NulFree k → base.lookup k = value s version [] k) :
    base.lookup b!"TOCTREE_MAXDEPTH" = s.cfg.global.lookup b!"TOCTREE_MAXDEPTH" := by
  rw [hbase _ (by decide)]
  unfold value
  have h1 : ((if s.dev then [(b!"MAKE_ENV", b!"dev"), (b!"MAKE_ENV_DEV", b!"1")] else []) ++ []).lookup
      b!"TOCTREE_MAXDEPTH" = none := by
    cases s.dev <;> rfl
  have h2 : ((s.cfg.tags.toList.map fun tags => (b!"MAKE_TAGS", join b!" " tags)) ++
      [(b!"BLOGC_VERSION", version)]).lookup b!"TOCTREE_MAXDEPTH" = none := by
    cases s.cfg.tags <;> rfl
  rw [h1, h2]
  cases s.cfg.global.lookup b!"TOCTREE_MAXDEPTH" <;> rfl

/-- Without sorting, the entries are the posts of the settings file, each once, in
the order given or in the opposite one. The dates must be all there or all
missing. -/
theorem posts_listed_partial (s : Site) (hs : Clean s) (env : Main.Env) (n : Nat) (hn : Paged s n)
    (src : Str → Trie Str) (hsort : strToBool (s.get b!"posts_sort") = false)
    (hl : ∀ f ∈ postSources s, env.loader.parse (s.cfg.global.lookup b!"TOCTREE_MAXDEPTH") f = some (src f))
    (hdate : (∀ f ∈ postSources s, ((src f).lookup b!"DATE").isSome) ∨
      (∀ f ∈ postSources s, ((src f).lookup b!"DATE").isSome = false))
    (time : Str → Int) (hgiven : (postSources s).Pairwise fun a b => time a ≤ time b) :
    ∃ fs, fs.Perm (postSources s) ∧ C54.InOrder (C54.OldestFirst (s.get b!"html_order")) time fs ∧
      AllEntries s env none (fs.map src) := by
  obtain ⟨base, hbase⟩ := base_exists s hs env.version
  exact all_of_lists s env n hn base hbase src time (C54.unsorted_partial env.loader s.cfg.settings base
    b!"html_order" (postSources s) src time (base_noFilter hn hbase) hsort
    (by rw [base_depth hbase]; exact hl) hdate hgiven)

/-- With sorting, the entries are the posts in the order of their dates. -/
theorem sorted_posts_listed_partial (s : Site) (hs : Clean s) (env : Main.Env) (n : Nat) (hn : Paged s n)
    (src : Str → Trie Str) (hsort : strToBool (s.get b!"posts_sort") = true) (time : Str → Int)
    (hl : ∀ f ∈ postSources s, env.loader.parse (s.cfg.global.lookup b!"TOCTREE_MAXDEPTH") f = some (src f) ∧
      ∃ d, (src f).lookup b!"DATE" = some d ∧ env.loader.stamp d = some (decInt (time f)))
    (hr : ∀ f ∈ postSources s, -(2 ^ 63) ≤ time f ∧ time f < 2 ^ 63)
    (hd : ∀ f ∈ postSources s, ∀ g ∈ postSources s, (time f - time g).natAbs < 2 ^ 31) :
    ∃ fs, fs.Perm (postSources s) ∧ C54.InOrder (C54.OldestFirst (s.get b!"html_order")) time fs ∧
      AllEntries s env none (fs.map (C31.entry src time)) := by
  obtain ⟨base, hbase⟩ := base_exists s hs env.version
  exact all_of_lists s env n hn base hbase _ time (C54.sorted_partial env.loader s.cfg.settings base
    b!"html_order" (postSources s) src time (base_noFilter hn hbase) hsort
    (by intro f hf; rw [base_depth hbase]; exact hl f hf) hr hd)

/-! Non-vacuity: the site of C86, with two posts on a page. -/

def sampleEnv : Main.Env where
  version := b!"1.0"
  make := false
  stdin := []
  loader := ⟨fun _ f => some (Trie.inserts [(b!"FILENAME", f), (b!"TAGS", b!"x")]).1, fun _ => none⟩
  template := fun _ => none
  sys := ⟨none, none, none, none, false, fun _ _ => none⟩
  fuel := 0

theorem site_paged : Paged (C86.site b!"_build") 2 where
  size := by decide +kernel
  positive := by omega
  fits := by omega
  text := C87.utf8_of rfl (by unfold NulFree; decide +kernel)
  sources := C87.site_sources
  global := by intro k _; rfl

/-- What blogc prints for the site: two pages, one for the tag "y" none. -/
example : (C86.site b!"_build").lastPage (shell sampleEnv) = .ok (some b!"2") ∧
    (C86.site b!"_build").lastPageOf (shell sampleEnv) b!"x" = .ok (some b!"2") ∧
    (C86.site b!"_build").lastPageOf (shell sampleEnv) b!"y" = .ok none := by
  decide +kernel

/-- The theorem applies to the site. -/
example : ∃ all, all.length = 3 ∧ AllEntries (C86.site b!"_build") sampleEnv none all := by
  obtain ⟨fs, h1, _, h3⟩ := posts_listed_partial _ C87.site_clean sampleEnv 2 site_paged
    (fun f => (Trie.inserts [(b!"FILENAME", f), (b!"TAGS", b!"x")]).1) rfl (fun _ _ => rfl)
    (.inr (by decide +kernel)) (fun _ => 0) (by decide +kernel)
  exact ⟨_, by rw [List.length_map, h1.length_eq]; rfl, h3⟩

example : IsPageCount 2 3 2 := ⟨by omega, by intro m h; omega⟩

/-- The site, with a variable LAST_PAGE in the settings file. -/
def namedSite : Site :=
  { C86.site b!"_build" with
    cfg := { (C86.site b!"_build").cfg with global := set .nil b!"LAST_PAGE" b!"-1" } }

/-- Without the condition on global variables the number of pages is wrong: if the
settings file defines LAST_PAGE, and no post has the tag, blogc prints the value of
the settings file. With -1 the loop over the pages of the tag has 2^64 - 1 rounds. -/
theorem user_last_page_violated :
    namedSite.lastPageOf (shell sampleEnv) b!"y" = .ok (some b!"-1") ∧
      pageRounds (some b!"-1") = 2 ^ 64 - 1 ∧
      ∀ f v, sampleEnv.loader.parse none f = some v → v.lookup b!"TAGS" = some b!"x" := by
  refine ⟨by decide +kernel, by decide +kernel, ?_⟩
  intro f v h
  have e : v = (Trie.inserts [(b!"FILENAME", f), (b!"TAGS", b!"x")]).1 := (Option.some.inj h).symm
  rw [e, C07.lookup_inserts _ _ _ (by decide)]
  · rfl
  · intro kv hkv
    simp only [List.mem_cons, List.not_mem_nil, or_false] at hkv
    rcases hkv with rfl | rfl
    · show NulFree b!"FILENAME"; decide
    · show NulFree b!"TAGS"; decide

end Blogc.C88
