import Verif.Spec.SiteFeed
import Verif.Lemmas.SitePages
import Verif.Props.C76
import Verif.Props.C90
import Verif.Props.C102

/-!
# The feeds of a site: lemmas
-/

namespace Blogc.SiteFeed

open Blogc Blogc.Make Blogc.Spec Blogc.Spec.Page Blogc.Spec.MakeJobs Blogc.Spec.MakeRun Blogc.Spec.Entries Blogc.Doc
open Blogc.Spec.SitePages Blogc.Spec.SiteFeed Blogc.SitePages Blogc.Render
open Blogc.Spec.Feed (feedPath postPath shown)

variable {s : Site} {post : Str → Post} {time : Str → Int}

/-! ## The runs -/

/-- The variables of a feed. -/
def feedVars (s : Site) (tag : Option Str) : List (Str × Str) :=
  tagVar tag ++ (naming b!"%Y-%m-%dT%H:%M:%SZ" (if tag = none then b!"atom" else b!"atom_tags") b!"atom" ++
    ordering s b!"atom_order" ++ firstPage s b!"atom_posts_per_page")

/-- The run for a feed. -/
def feedRun (s : Site) (tag : Option Str) : Wanted := MakeJobs.feed s (outDir s ++ feedPath s.get tag) (feedVars s tag)

theorem ownVars_feed (tag : Option Str) : ownVars (feedRun s tag) = feedVars s tag := rfl

theorem nonzero (h : SizeOk s b!"atom_posts_per_page") : perPage s b!"atom_posts_per_page" ≠ 0 := by
  rw [size_perPage h]
  have := h.2.1
  omega

theorem atom_eq (h : SizeOk s b!"atom_posts_per_page") (hp : s.cfg.posts ≠ none) :
    MakeJobs.atom s = [feedRun s none] := by
  have h1 : ¬ (s.cfg.posts = none ∨ perPage s b!"atom_posts_per_page" = 0) := by
    rintro (h1 | h1)
    · exact hp h1
    · exact nonzero h h1
  obtain ⟨h2, -, -⟩ := C90.places s
  unfold MakeJobs.atom at h2 ⊢
  rw [if_neg h1] at h2 ⊢
  have h3 := h2 _ (List.mem_singleton.2 rfl)
  unfold feedRun feedVars tagVar
  rw [← h3]
  rfl

theorem atomTags_eq (h : SizeOk s b!"atom_posts_per_page") :
    MakeJobs.atomTags s = (siteTags s).map fun t => feedRun s (some t) := by
  unfold MakeJobs.atomTags
  rw [if_neg (nonzero h)]
  apply List.map_congr_left
  intro t ht
  unfold feedRun feedVars tagVar feedPath
  simp [C53.pathOf]

/-! ## Variables of a run -/

def feedKeys : List Str :=
  [b!"FILTER_TAG", b!"MAKE_TYPE", b!"MAKE_RULE", b!"DATE_FORMAT", b!"FILTER_REVERSE", b!"FILTER_SORT", b!"FILTER_PER_PAGE",
    b!"FILTER_PAGE"]

theorem feedVars_keys (tag : Option Str) : ∀ p ∈ feedVars s tag, p.1 ∈ feedKeys := by
  intro p hp
  unfold feedVars at hp
  rcases List.mem_append.1 hp with h | h
  · unfold tagVar at h
    obtain ⟨t, -, rfl⟩ := List.mem_map.1 h
    simp [feedKeys]
  · rcases List.mem_append.1 h with h | h
    · rcases List.mem_append.1 h with h | h
      · simp only [naming, List.mem_cons, List.not_mem_nil, or_false] at h
        rcases h with rfl | rfl | rfl <;> simp [feedKeys]
      · unfold ordering at h
        simp only at h
        rcases List.mem_append.1 h with h | h
        · split at h
          · rw [List.mem_singleton.1 h]; simp [feedKeys]
          · cases h
        · split at h
          · rw [List.mem_singleton.1 h]; simp [feedKeys]
          · cases h
    · unfold firstPage at h
      split at h
      · cases h
      · simp only [List.mem_cons, List.not_mem_nil, or_false] at h
        rcases h with rfl | rfl <;> simp [feedKeys]

theorem feedVars_other (tag : Option Str) (k : Str) (hk : k ∉ feedKeys) : (feedVars s tag).lookup k = none := by
  rw [List.lookup_eq_none_iff]
  intro p hp
  simp only [bne_iff_ne, ne_eq]
  rintro rfl
  exact hk (feedVars_keys tag p hp)

/-- Variables that only the settings file gives. -/
theorem vars_site (version : Str) (tag : Option Str) (k : Str) (hk : k ∉ feedKeys)
    (hk' : k ∉ [b!"MAKE_ENV", b!"MAKE_ENV_DEV", b!"MAKE_TAGS", b!"BLOGC_VERSION"]) :
    vars s version (feedRun s tag) k = siteValue s k := by
  simp only [List.mem_cons, List.not_mem_nil, or_false, not_or] at hk'
  unfold vars MakeRun.value siteValue
  rw [ownVars_feed, C88.lookup_append, feedVars_other tag k hk]
  have h1 : ((if s.dev then [(b!"MAKE_ENV", b!"dev"), (b!"MAKE_ENV_DEV", b!"1")] else []) : List (Str × Str)).lookup k = none := by
    split
    · rw [List.lookup_eq_none_iff]; simp [hk'.1, hk'.2.1]
    · rfl
  have h2 : ((s.cfg.tags.toList.map fun tags => (b!"MAKE_TAGS", join b!" " tags)) ++
      [(b!"BLOGC_VERSION", version)]).lookup k = none := by
    rw [List.lookup_eq_none_iff]
    cases s.cfg.tags <;> simp [hk'.2.2.1, hk'.2.2.2]
  rw [h1, h2]
  cases s.cfg.global.lookup k <;> rfl

theorem vars_format (version : Str) (tag : Option Str) :
    vars s version (feedRun s tag) b!"DATE_FORMAT" = some b!"%Y-%m-%dT%H:%M:%SZ" := by
  unfold vars MakeRun.value
  rw [ownVars_feed, C88.lookup_append]
  have h1 : ((if s.dev then [(b!"MAKE_ENV", b!"dev"), (b!"MAKE_ENV_DEV", b!"1")] else []) : List (Str × Str)).lookup
      b!"DATE_FORMAT" = none := by
    split <;> rfl
  have h2 : (feedVars s tag).lookup b!"DATE_FORMAT" = some b!"%Y-%m-%dT%H:%M:%SZ" := by
    unfold feedVars
    rw [C88.lookup_append, C88.tagVar_lookup, if_neg (by decide), C88.lookup_append, C88.lookup_append]
    rfl
  rw [h1, h2]
  rfl

/-! ## Order -/

theorem ordering_lookup (s : Site) (option k : Str) (hk : k = b!"FILTER_SORT" ∨ k = b!"FILTER_REVERSE") :
    (ordering s option).lookup k =
      if k = b!"FILTER_SORT" then (if strToBool (s.get b!"posts_sort") then some b!"1" else none)
      else if strToBool (s.get b!"posts_sort") = C54.OldestFirst (s.get option) then some b!"1" else none := by
  unfold ordering
  rcases hk with rfl | rfl <;>
  cases strToBool (s.get b!"posts_sort") <;> cases C54.OldestFirst (s.get option) <;> decide

theorem true_one : TrueWord b!"1" := (C65.strToBool_iff _).1 (by decide)

theorem feed_order (version : Str) {n : Nat} (hn : MakeRun.Paged s n) (tag : Option Str) (k : Str)
    (hk : k = b!"FILTER_SORT" ∨ k = b!"FILTER_REVERSE") :
    vars s version (feedRun s tag) k = (ordering s b!"atom_order").lookup k := by
  have hk1 : k ∈ C88.pageNames := by rcases hk with rfl | rfl <;> decide
  have hk2 : k ≠ b!"FILTER_TAG" := by rcases hk with rfl | rfl <;> decide
  unfold vars
  rw [C88.value_page hn version _ k hk1, ownVars_feed]
  unfold feedVars
  rw [C88.lookup_append, C88.tagVar_lookup, if_neg hk2, C88.lookup_append, C88.lookup_append,
    C88.naming_page _ _ _ k (by simp [hk1])]
  have : (firstPage s b!"atom_posts_per_page").lookup k = none := by
    unfold firstPage
    split
    · rfl
    · rcases hk with rfl | rfl <;> simp [List.lookup_cons]
  rw [this]
  cases (ordering s b!"atom_order").lookup k <;> rfl

theorem in_order (version : Str) {n : Nat} (hn : MakeRun.Paged s n) (tag : Option Str) {all : List Str}
    (h : Request.Ordered (vars s version (feedRun s tag)) time (postSources s) all) : InOrder s b!"atom_order" time all := by
  have hs : Request.On (vars s version (feedRun s tag)) b!"FILTER_SORT" ↔ Request.On s.get b!"posts_sort" := by
    rw [← Listing.on_iff (val := s.get) (k := b!"posts_sort") rfl]
    unfold Request.On
    rw [feed_order version hn tag _ (.inl rfl), ordering_lookup _ _ _ (.inl rfl), if_pos rfl]
    cases strToBool (s.get b!"posts_sort") with
    | true => exact ⟨fun _ => rfl, fun _ => ⟨_, rfl, true_one⟩⟩
    | false => exact ⟨fun ⟨_, h, _⟩ => absurd h (by simp), fun h => absurd h (by simp)⟩
  have hr : Request.On (vars s version (feedRun s tag)) b!"FILTER_REVERSE" ↔
      strToBool (s.get b!"posts_sort") = C54.OldestFirst (s.get b!"atom_order") := by
    unfold Request.On
    rw [feed_order version hn tag _ (.inr rfl), ordering_lookup _ _ _ (.inr rfl), if_neg (by decide)]
    split
    · rename_i h1
      exact ⟨fun _ => h1, fun _ => ⟨_, rfl, true_one⟩⟩
    · rename_i h1
      exact ⟨fun ⟨_, h, _⟩ => absurd h (by simp), fun h => absurd h h1⟩
  have e : Request.On s.get b!"posts_sort" ↔ strToBool (s.get b!"posts_sort") = true :=
    (Listing.on_iff (val := s.get) (k := b!"posts_sort") rfl).symm
  constructor
  · exact h.perm
  · intro h1 h2
    refine h.given (hs.not.2 h1) ?_
    rw [hr, h2]
    exact fun h3 => h1 (e.2 h3)
  · intro h1 h2
    refine h.reversed (hs.not.2 h1) ?_
    rw [hr, h2]
    exact Bool.not_eq_true _ ▸ fun h3 => h1 (e.2 h3)
  · intro h1 h2
    refine h.oldest (hs.2 h1) ?_
    rw [hr, h2]
    exact e.1 h1
  · intro h1 h2
    refine h.newest (hs.2 h1) ?_
    rw [hr, h2, e.1 h1]
    simp
  · intro h1
    exact h.stable (hs.2 h1)

/-! ## What is shown -/

def plainNames : List Str :=
  [b!"SITE_TITLE", b!"SITE_TAGLINE", b!"BASE_DOMAIN", b!"BASE_URL", b!"AUTHOR_NAME", b!"AUTHOR_EMAIL", b!"TITLE", b!"CONTENT",
    b!"FILENAME"]

theorem shown_plain (sys : Sys) (g : Table) (loc : Option Table) : ∀ n ∈ plainNames,
    shown sys g loc n = (getVariable n g loc).getD [] := by
  intro n hn
  have h1 : ∀ n ∈ plainNames, splitSize n = .ok (n, -1) ∧ splitFormatted n = (n, false) ∧ n ≠ b!"FOREACH_ITEM" ∧
      n ≠ b!"FOREACH_VALUE" ∧ ¬ b!"BLOGC_" <+: n ∧ NulFree n := by
    unfold NulFree; decide +kernel
  obtain ⟨e1, e2, e3, e4, e5, e6⟩ := h1 n hn
  unfold Feed.shown formatVariable
  cases h : getVariable n g loc with
  | some v => rfl
  | none =>
    simp only [if_neg e3, if_neg e4]
    unfold derived
    rw [e1]
    simp only [Res.bind, e2, baseValue]
    rw [C76.getVariable_elsewhere sys g loc n n e6 e5, h]
    rfl

theorem stamp_of (sys : Sys) (g : Table) (loc : Option Table) (name : Str)
    (hname : name = b!"DATE" ∨ name = b!"DATE_FIRST") (hu : getVariable (name ++ b!"_FORMATTED") g loc = none)
    (hf : getVariable b!"DATE_FORMAT" g loc = some b!"%Y-%m-%dT%H:%M:%SZ") :
    Stamp sys (getVariable name g loc) (shown sys g loc (name ++ b!"_FORMATTED")) := by
  have h1 : NulFree name ∧ ¬ b!"BLOGC_" <+: name ∧ name ≠ b!"FOREACH_ITEM" ∧ name ≠ b!"FOREACH_VALUE" ∧
      b!"DATE_" <+: name ++ b!"_" := by
    rcases hname with rfl | rfl <;> (unfold NulFree; decide +kernel)
  obtain ⟨e1, e2, e3, e4, e5⟩ := h1
  cases h : getVariable name g loc with
  | none =>
    obtain ⟨g', h2⟩ := C76.undefined sys g loc ⟨none, none⟩ name hu h e1 e2 ⟨e3, e4⟩
    unfold Feed.shown
    rw [h2]
    exact .none
  | some v =>
    obtain ⟨g', out, h2, h3, -⟩ := C76.formats sys g loc ⟨none, none⟩ name v hu h (.inl rfl)
    unfold Feed.shown
    rw [h2]
    simp only
    rw [hf] at h3
    generalize hF : (some b!"%Y-%m-%dT%H:%M:%SZ" : Option Str) = F at h3
    cases h3 with
    | other h => exact absurd e5 h
    | noFormat _ => cases hF
    | date _ hs =>
      cases hF
      obtain ⟨tm, h4, h5⟩ := hs
      exact .date h4 h5
    | invalid _ hn =>
      cases hF
      exact .invalid fun out tm h4 h5 => hn out ⟨tm, h4, h5⟩

/-! ## The names of the files -/

theorem baseName_unique {f a b : Str} (ha : BaseName f a) (hb : BaseName f b) : a = b := by
  obtain ⟨d1, c1, e1, hd1, hc1, h1⟩ := ha
  obtain ⟨d2, c2, e2, hd2, hc2, h2⟩ := hb
  have key : ∀ {d1 c1 d2 c2 : Str}, d1 ++ c1 = d2 ++ c2 → (∀ c, d1.getLast? = some c → Separator c) →
      (∀ c ∈ c2, ¬ Separator c) → d1.length ≤ d2.length := by
    intro d1 c1 d2 c2 e hd hc
    by_contra hlt
    rw [Nat.not_le] at hlt
    rcases List.append_eq_append_iff.1 e with ⟨x, hx, -⟩ | ⟨x, hx, hx2⟩
    · rw [hx, List.length_append] at hlt; omega
    · cases hxr : x.getLast? with
      | none =>
        rw [List.getLast?_eq_none_iff] at hxr
        subst hxr
        rw [hx] at hlt
        simp at hlt
      | some c =>
        have h3 : d1.getLast? = some c := by rw [hx, List.getLast?_append, hxr]; rfl
        exact hc c (by rw [hx2]; exact List.mem_append_left _ (List.mem_of_getLast? hxr)) (hd c h3)
  have hl1 := key (e1.symm.trans e2) hd1 hc2
  have hl2 := key (e2.symm.trans e1) hd2 hc1
  obtain ⟨-, e⟩ := List.append_inj (e1.symm.trans e2) (by omega)
  subst e
  have dot : ∀ {x y a : Str}, c!"." ∉ a → c1 = x ++ c!"." :: y → c1 = a → False := by
    intro x y a h e1 e2
    rw [← e2, e1] at h
    exact h (by simp)
  rcases h1 with ⟨n1, rfl⟩ | ⟨x, n1, q1⟩ <;> rcases h2 with ⟨n2, rfl⟩ | ⟨y, n2, q2⟩
  · rfl
  · exact (dot n1 q2 rfl).elim
  · exact (dot n2 q1 rfl).elim
  · have r := q1.symm.trans q2
    have cut : ∀ {a b x y : Str}, a ++ c!"." :: x = b ++ c!"." :: y → c!"." ∉ x → c!"." ∉ y → ¬ a.length < b.length := by
      intro a b x y e hx hy hlt
      rcases List.append_eq_append_iff.1 e with ⟨z, hz, hz2⟩ | ⟨z, hz, hz2⟩
      · cases z with
        | nil => rw [hz] at hlt; simp at hlt
        | cons c z =>
          rw [List.cons_append] at hz2
          injection hz2 with _ hz2
          exact hx (by rw [hz2]; simp)
      · rw [hz, List.length_append] at hlt; omega
    have c1 := cut r n1 n2
    have c2 := cut r.symm n2 n1
    exact (List.append_inj r (by omega)).1

theorem base_of_post (h : Usual s post) {g : Str} (hg : g ∈ s.cfg.posts.getD []) : BaseName (postSource s g) g := by
  obtain ⟨e, he, h1, h2⟩ := h.ext
  obtain ⟨g1, -, g2⟩ := h.slugs g hg
  have hi : ¬ C53.IsIndex (s.get b!"post_prefix") g (s.get b!"source_ext") := by
    rintro ⟨-, h3, -⟩
    rw [he] at h3
    exact absurd h3 (by simp [slashFirst])
  unfold postSource C53.pathOf
  rw [if_neg hi, he]
  refine ⟨contentDir s ++ C53.slashed [s.get b!"blog_prefix", s.get b!"post_prefix"] ++ b!"/", g ++ c!"." :: e, ?_, ?_, ?_,
    .inr ⟨e, h1, rfl⟩⟩
  · cases g with
    | nil => exact absurd rfl g1
    | cons c g => simp [C53.slashed, have?, Make.text]
  · intro c hc
    rw [List.getLast?_append] at hc
    cases hc
    exact .inl rfl
  · intro c hc
    rcases List.mem_append.1 hc with hc | hc
    · exact g2 c hc
    · rcases List.mem_cons.1 hc with rfl | hc
      · rintro (h | h) <;> exact absurd h (by decide)
      · exact h2 c hc

/-! ## The template -/

theorem print_text {t : Str} {k : List Tokens.Tok} (ht : WellFormedUtf8 t) (hk : WellFormedUtf8 (Tokens.print k)) :
    WellFormedUtf8 (Tokens.print (.text t :: k)) := C87.utf8_append ht hk

theorem print_ascii {t : Tokens.Tok} {k : List Tokens.Tok} (ht : ∀ c ∈ t.print, c.toNat < 0x80)
    (hk : WellFormedUtf8 (Tokens.print k)) : WellFormedUtf8 (Tokens.print (t :: k)) :=
  C87.utf8_append (C102.ascii _ ht) hk

theorem utf8_nil : WellFormedUtf8 [] := ⟨[], by simp, rfl⟩

theorem print_url {pre : Str} (index : Bool) {k : List Tokens.Tok} (hp : WellFormedUtf8 pre)
    (hk : WellFormedUtf8 (Tokens.print k)) : WellFormedUtf8 (Tokens.print (C90.urlToks pre index k)) := by
  have h1 : WellFormedUtf8 (Tokens.print (C90.st (.ifdef b!" " b!"FILTER_TAG" b!" ") :: .text b!"/" ::
      C90.var b!"FILTER_TAG" ::
      ((if index then [C90.st (.else_ b!" "), .text b!"/index"] else []) ++ C90.st (.endif b!" ") :: k))) := by
    refine print_ascii (by decide) (print_ascii (by decide) (print_ascii (by decide) ?_))
    cases index
    · exact print_ascii (by decide) hk
    · exact print_ascii (by decide) (print_ascii (by decide) (print_ascii (by decide) hk))
  unfold C90.urlToks C90.txt
  split
  · exact h1
  · exact print_text hp h1

theorem print_entry {link ext : Str} {k : List Tokens.Tok} (hl : WellFormedUtf8 link) (he : WellFormedUtf8 ext)
    (hk : WellFormedUtf8 (Tokens.print k)) : WellFormedUtf8 (Tokens.print (C90.entryToks link ext k)) := by
  have a : ∀ {t : Str}, (∀ c ∈ t, c.toNat < 0x80) → WellFormedUtf8 t := fun h => C102.ascii _ h
  unfold C90.entryToks
  repeat' first
    | exact hk
    | refine print_ascii (by decide) ?_
    | refine print_text (C87.utf8_append hl (a (by decide))) ?_
    | refine print_text (C87.utf8_append he (a (by decide))) ?_

theorem print_toks {pre aext link hext : Str} (index : Bool) (h1 : WellFormedUtf8 pre) (h2 : WellFormedUtf8 aext)
    (h3 : WellFormedUtf8 link) (h4 : WellFormedUtf8 hext) :
    WellFormedUtf8 (Tokens.print (C90.toks pre index aext link hext)) := by
  have a : ∀ {t : Str}, (∀ c ∈ t, c.toNat < 0x80) → WellFormedUtf8 t := fun h => C102.ascii _ h
  unfold C90.toks
  repeat' first
    | exact utf8_nil
    | refine print_url index h1 ?_
    | refine print_entry h3 h4 ?_
    | refine print_text (C87.utf8_append h2 (a (by decide))) ?_
    | refine print_ascii (by decide) ?_

theorem utf8_slashed (l : List (Option Str)) (h : ∀ o ∈ l, WellFormedUtf8 (o.getD [])) : WellFormedUtf8 (C53.slashed l) := by
  induction l with
  | nil => exact utf8_nil
  | cons o l ih =>
    rw [C53.slashed]
    refine C87.utf8_append ?_ (ih fun o ho => h o (by simp [ho]))
    split
    · exact C87.utf8_append (a := b!"/") (C102.ascii _ (by decide)) (h o (by simp))
    · exact utf8_nil

/-- The items and the meaning of the default template. -/
def siteToks (s : Site) : List Tokens.Tok :=
  C90.toks (C90.feedPre s.get) (C90.isIndex s.get) (Make.text (s.get b!"atom_ext")) (C90.postPre s.get)
    (Make.text (s.get b!"html_ext"))

def siteTree (s : Site) : T :=
  C90.tree (C90.feedPre s.get) (C90.isIndex s.get) (Make.text (s.get b!"atom_ext")) (C90.postPre s.get)
    (Make.text (s.get b!"html_ext"))

theorem dropBom_other (t : Str) (h : t.head? ≠ some 0xEF) : dropBom t = t := by
  unfold dropBom
  rw [if_neg]
  intro hb
  cases t with
  | nil => cases hb
  | cons c t =>
    apply h
    simp only [bom, List.isPrefixOf, Bool.and_eq_true, beq_iff_eq] at hb
    rw [List.head?_cons, ← hb.1]

theorem template_written (S : Build.Setup) (cfg : MakeSettings.Settings) (d : Build.Files) (tag : Option Str)
    (h : Usual (Incremental.base S cfg) post) :
    TemplateWritten (S.seen cfg d) (feedRun (Incremental.base S cfg) tag).template (siteToks (Incremental.base S cfg))
      (siteTree (Incremental.base S cfg)) where
  text := by
    have e : (feedRun (Incremental.base S cfg) tag).template = absPath S.root S.deployed := by
      show atomTemplate (Incremental.base S cfg) = _
      unfold atomTemplate
      rw [h.noTemplate]
      rfl
    have hg := C90.generated _ h.settings
    refine ⟨Tokens.print (siteToks (Incremental.base S cfg)), ?_, dropBom_other _ ?_⟩
    · rw [e]
      unfold Build.Setup.seen
      rw [if_pos ⟨h.noTemplate, rfl⟩]
      have hg' : atomGenerate (cfg.settings.lookup ·) = _ := hg
      rw [hg']
      rfl
    · intro he
      have : (Tokens.print (siteToks (Incremental.base S cfg))).head? = some c!"<" := rfl
      rw [this] at he
      exact absurd he (by decide)
  utf8 := by
    refine print_toks _ ?_ (h.utf8 b!"atom_ext" (by decide)) ?_ (h.utf8 b!"html_ext" (by decide))
    · refine utf8_slashed _ fun o ho => ?_
      simp only [List.mem_cons, List.not_mem_nil, or_false] at ho
      rcases ho with rfl | rfl
      · exact h.utf8 b!"blog_prefix" (by decide)
      · exact h.utf8 b!"atom_prefix" (by decide)
    · refine utf8_slashed _ fun o ho => ?_
      simp only [List.mem_cons, List.not_mem_nil, or_false] at ho
      rcases ho with rfl | rfl
      · exact h.utf8 b!"blog_prefix" (by decide)
      · exact h.utf8 b!"post_prefix" (by decide)
  tokens := by
    have hb := fun b hb => (h.settings.blogPrefix b hb).1
    obtain ⟨p, hp, hp1⟩ := h.settings.atomPrefix
    obtain ⟨e, he, he1⟩ := h.settings.atomExt
    have hl : ∀ o : Option Str, (∀ v, o = some v → Spec.Feed.Literal v) → Spec.Feed.Literal (Make.text o) := by
      intro o ho
      cases o with
      | none => decide
      | some v => exact ho v rfl
    refine C90.toks_ok _ (C90.slashed_literal _ fun v hv => ?_) (hl _ fun v hv => ?_)
      (C90.slashed_literal _ fun v hv => ?_) (hl _ h.settings.htmlExt)
    · simp only [List.mem_cons, List.not_mem_nil, or_false] at hv
      rcases hv with hv | hv
      · exact hb v hv.symm
      · rw [hp] at hv; cases hv; exact hp1
    · rw [he] at hv; cases hv; exact he1
    · simp only [List.mem_cons, List.not_mem_nil, or_false] at hv
      rcases hv with hv | hv
      · exact hb v hv.symm
      · exact h.settings.postPrefix v hv.symm
  ok := C90.tree_ok _ _ _ _ _
  meaning := C90.toks_meaning _ _ _ _ _

/-- No entry is visible where it should not be. -/
theorem tree_apart (l : List Str) :
    NoLeak ⟨l, true⟩ (PageRun.Apart l post) (l ≠ []) false (siteTree s) := by
  have hN : ∀ n, l ≠ [] ∨ PageRun.Apart l post n := by
    intro n
    by_cases h : l = []
    · exact .inr (.inl h)
    · exact .inl h
  have hC : l ≠ [] ∨ ∀ n ∈ (Cond.defined b!"FILTER_TAG").names, PageRun.Apart l post n := by
    by_cases h : l = []
    · exact .inr fun n _ => .inl h
    · exact .inl h
  have hu : ∀ pre index t, NoLeak ⟨l, true⟩ (PageRun.Apart l post) (l ≠ []) false t →
      NoLeak ⟨l, true⟩ (PageRun.Apart l post) (l ≠ []) false (C90.urlT pre index t) := by
    intro pre index t ht
    unfold C90.urlT C90.txtT
    split
    · cases index
      · exact ⟨hC, ⟨hN _, trivial⟩, ht⟩
      · exact ⟨hC, ⟨hN _, trivial⟩, trivial, ht⟩
    · cases index
      · exact ⟨hC, ⟨hN _, trivial⟩, ht⟩
      · exact ⟨hC, ⟨hN _, trivial⟩, trivial, ht⟩
  unfold siteTree C90.tree
  refine ⟨hN _, hC, ⟨hN _, trivial⟩, hN _, hN _, hu _ _ _ ?_⟩
  refine ⟨hN _, hN _, hN _, hN _, hN _, hu _ _ _ ?_⟩
  refine ⟨hN _, hN _, hN _, fun h => .inr (.inl ⟨rfl, rfl, h⟩), fun h => .inl rfl, trivial⟩

/-! ## The feed -/

theorem having_eq {val : Str → Option Str} {tag : Option Str} (h : val b!"FILTER_TAG" = tag) (all : List Str) :
    Request.tagged val post all = having post all tag := by
  subst h
  unfold having Request.tagged Request.Tagged
  cases e : val b!"FILTER_TAG" with
  | none => simp
  | some t =>
    simp only
    unfold withTag HasTag
    congr 1
    funext f
    simp

theorem page_one (n : Nat) (l : List Str) : page n 1 l = l.take n := by
  simp [page]

theorem post_variable {f : Str} {m : Int} {vs g : Table} (h : Shows f m (post f) vs.lookup) (k : Str) (hk : NulFree k)
    (hk' : k ∉ [b!"c", b!"FILENAME", b!"RAW_CONTENT", b!"CONTENT", b!"EXCERPT", b!"FIRST_HEADER", b!"DESCRIPTION",
      b!"TOCTREE"]) : getVariable k g (some vs) = ((post f).header k).or (g.lookup k) := by
  simp only [List.mem_cons, List.not_mem_nil, or_false, not_or] at hk'
  obtain ⟨n1, n2, n3, n4, n5, n6, n7, n8⟩ := hk'
  obtain ⟨base, toc, n, -, -, -, hv⟩ := h
  have e : vs.lookup k = (post f).header k := by
    rw [hv k hk n1]
    unfold Post.value Post.generated
    rw [if_neg n2, if_neg n3, if_neg n4, if_neg n5, if_neg n6, if_neg n7, if_neg n8]
    cases (post f).header k <;> rfl
  unfold Render.getVariable
  simp only [e]
  cases (post f).header k <;> rfl

theorem is_feed (host : Program.Host) {m : Int} {n : Nat} (hu : Usual s post) (hn : MakeRun.Paged s n)
    (hsize : SizeOk s b!"atom_posts_per_page") {tag : Option Str} (ht : ∀ t, tag = some t → t ∈ siteTags s) {text : Str}
    (h : RunPage s host post time m (siteTree s) (feedRun s tag) text) : IsFeed s host.sys post time tag text := by
  obtain ⟨pg, hpg, l, count, vs, evars, g, hl, hsh, -, hg, htext⟩ := h
  have hown : Own s (ownVars (feedRun s tag)) tag (some b!"1") (some (s.getStr b!"atom_posts_per_page")) :=
    own_first hsize tag _ _ _
  have hv := fun k hk => C88.value_page hn host.version (ownVars (feedRun s tag)) k hk
  have hpage : vars s host.version (feedRun s tag) b!"FILTER_PAGE" = some b!"1" := (hv _ (by decide)).trans hown.page
  have hper : vars s host.version (feedRun s tag) b!"FILTER_PER_PAGE" = some (s.getStr b!"atom_posts_per_page") :=
    (hv _ (by decide)).trans hown.perPage
  have htag : vars s host.version (feedRun s tag) b!"FILTER_TAG" = tag := (hv _ (by decide)).trans hown.tag
  obtain rfl : pg = some (1, numeral (s.getStr b!"atom_posts_per_page")) := by
    cases hpg with
    | all h => rw [hpage] at h; cases h
    | page h1 h2 h3 h4 =>
      rw [hpage] at h1
      cases h1
      rw [hper] at h3
      have e : max 1 (numeral b!"1") = 1 := by decide
      rw [e]
      generalize ho : (some (s.getStr b!"atom_posts_per_page") : Option Str) = o at h3
      cases h3 with
      | default => cases ho
      | given _ _ => cases ho; rfl
  obtain ⟨all, ha, hl', -⟩ := hl
  rw [having_eq htag, page_one] at hl'
  have hmem : ∀ f ∈ l, f ∈ postSources s := by
    intro f hf
    rw [hl'] at hf
    have h1 := List.mem_of_mem_take hf
    have h2 : f ∈ all := by
      cases tag with
      | none => exact h1
      | some t => exact (List.mem_filter.1 h1).1
    exact ha.perm.mem_iff.1 h2
  -- the global variables
  have gv : ∀ k, NulFree k → k ∉ feedKeys → k ∉ [b!"MAKE_ENV", b!"MAKE_ENV_DEV", b!"MAKE_TAGS", b!"BLOGC_VERSION",
      b!"CURRENT_PAGE", b!"PREVIOUS_PAGE", b!"NEXT_PAGE", b!"FIRST_PAGE", b!"LAST_PAGE", b!"DATE_FIRST", b!"DATE_LAST",
      b!"FILENAME_FIRST", b!"FILENAME_LAST"] → g.lookup k = siteValue s k := by
    intro k hk h1 h2
    simp only [List.mem_cons, List.not_mem_nil, or_false, not_or] at h2
    obtain ⟨m1, m2, m3, m4, m5, m6, m7, m8, m9, m10, m11, m12, m13⟩ := h2
    rw [hg k hk, vars_site host.version tag k h1 (by simp [m1, m2, m3, m4])]
    unfold Request.pageValue Request.edge
    simp only
    rw [if_neg m5, if_neg m6, if_neg m7, if_neg m8, if_neg m9, if_neg m10, if_neg m11, if_neg m12, if_neg m13]
    rfl
  have gtag : g.lookup b!"FILTER_TAG" = tag := by
    rw [hg _ (by decide), htag]
    cases tag <;> rfl
  have gformat : g.lookup b!"DATE_FORMAT" = some b!"%Y-%m-%dT%H:%M:%SZ" := by
    rw [hg _ (by decide), vars_format]
    rfl
  have gfirst : g.lookup b!"DATE_FIRST" = l.head?.bind fun f => (post f).header b!"DATE" := by
    rw [hg _ (by decide), vars_site _ _ _ (by decide) (by decide), hu.global _ (by decide)]
    have e : ∀ f ∈ l, (vs f).lookup b!"DATE" = (post f).header b!"DATE" := by
      intro f hf
      obtain ⟨base, toc, n, -, -, -, hv⟩ := hsh f (hmem f hf)
      rw [hv _ (by decide) (by decide)]
      show ((post f).header b!"DATE").or none = _
      cases (post f).header b!"DATE" <;> rfl
    cases l with
    | nil => rfl
    | cons f l =>
      show (((vs f).lookup b!"DATE").or none) = (post f).header b!"DATE"
      rw [e f (by simp)]
      cases (post f).header b!"DATE" <;> rfl
  -- names of files
  have fname : ∀ slug ∈ s.cfg.posts.getD [], shown host.sys g (some (vs (postSource s slug))) b!"FILENAME" = slug := by
    intro slug hs
    have hm : postSource s slug ∈ postSources s := List.mem_map_of_mem hs
    obtain ⟨base, toc, n, hb, -, -, hv⟩ := hsh _ hm
    rw [shown_plain _ _ _ _ (by decide)]
    have e : (vs (postSource s slug)).lookup b!"FILENAME" = some base := by
      rw [hv _ (by decide) (by decide)]
      rfl
    unfold Render.getVariable
    simp only [e]
    exact baseName_unique hb (base_of_post hu hs)
  have hsays := C90.says_feed (sys := host.sys) (ctx := ⟨l.map vs, true⟩) (g := g) rfl (C90.feedPre s.get) (C90.isIndex s.get)
    (Make.text (s.get b!"atom_ext")) (C90.postPre s.get) (Make.text (s.get b!"html_ext"))
  unfold Doc.text at htext
  have e1 : Request.shownEntries evars (feedRun s tag).listing (feedRun s tag).entry.toList = [] := rfl
  have e2 : (⟨l.map vs, (feedRun s tag).listing⟩ : Render.Ctx Table) = ⟨l.map vs, true⟩ := rfl
  unfold C90.Says at hsays
  unfold siteTree at htext
  rw [e1, e2, hsays] at htext
  injection htext with htext
  have htext' := htext.symm
  rw [gtag, C90.feedPath_eq _ hu.settings tag (fun t e => hu.tags t (ht t e))] at htext'
  refine ⟨all, l, shown host.sys g none, fun f => shown host.sys g (some (vs f)),
    fun f => C90.postPre s.get ++ b!"/" ++ shown host.sys g (some (vs f)) b!"FILENAME" ++ Make.text (s.get b!"html_ext"),
    in_order host.version hn tag ha, hl', ?_, ?_, ?_, ?_, ?_⟩
  · intro k hk
    have h1 : ∀ k ∈ siteNames, NulFree k ∧ k ∉ feedKeys ∧ k ∉ [b!"MAKE_ENV", b!"MAKE_ENV_DEV", b!"MAKE_TAGS", b!"BLOGC_VERSION",
      b!"CURRENT_PAGE", b!"PREVIOUS_PAGE", b!"NEXT_PAGE", b!"FIRST_PAGE", b!"LAST_PAGE", b!"DATE_FIRST", b!"DATE_LAST",
      b!"FILENAME_FIRST", b!"FILENAME_LAST"] ∧ k ∈ plainNames := by unfold NulFree; decide +kernel
    obtain ⟨e1, e2, e3, e4⟩ := h1 k hk
    rw [shown_plain _ _ _ k e4]
    show (g.lookup k).getD [] = _
    rw [gv k e1 e2 e3]
  · rw [← gfirst]
    refine stamp_of host.sys g none b!"DATE_FIRST" (.inr rfl) ?_ gformat
    show g.lookup b!"DATE_FIRST_FORMATTED" = none
    rw [gv _ (by decide) (by decide) (by decide)]
    exact hu.global _ (by decide)
  · intro f hf
    have hsf := hsh f (hmem f hf)
    refine ⟨?_, ?_, ?_⟩
    · intro k hk
      have h1 : ∀ k ∈ postNames, NulFree k ∧ k ∉ feedKeys ∧ k ∉ [b!"MAKE_ENV", b!"MAKE_ENV_DEV", b!"MAKE_TAGS", b!"BLOGC_VERSION",
        b!"CURRENT_PAGE", b!"PREVIOUS_PAGE", b!"NEXT_PAGE", b!"FIRST_PAGE", b!"LAST_PAGE", b!"DATE_FIRST", b!"DATE_LAST",
        b!"FILENAME_FIRST", b!"FILENAME_LAST"] ∧ k ∈ plainNames ∧ k ∉ [b!"c", b!"FILENAME", b!"RAW_CONTENT", b!"CONTENT",
        b!"EXCERPT", b!"FIRST_HEADER", b!"DESCRIPTION", b!"TOCTREE"] := by unfold NulFree; decide +kernel
      obtain ⟨e1, e2, e3, e4, e5⟩ := h1 k hk
      beta_reduce
      rw [shown_plain _ _ _ k e4, post_variable hsf k e1 e5, gv k e1 e2 e3]
      rfl
    · beta_reduce
      rw [shown_plain _ _ _ _ (by decide)]
      obtain ⟨base, toc, n, hb, -, -, hv⟩ := hsf
      have e : (vs f).lookup b!"CONTENT" = some (docHtml (post f).ending (post f).parts) := by
        rw [hv _ (by decide) (by decide)]
        rfl
      unfold Render.getVariable
      simp only [e]
      rfl
    · have e1 : getVariable b!"DATE" g (some (vs f)) = (post f).header b!"DATE" := by
        rw [post_variable hsf _ (by decide) (by decide), gv _ (by decide) (by decide) (by decide), hu.global _ (by decide)]
        cases (post f).header b!"DATE" <;> rfl
      rw [← e1]
      refine stamp_of host.sys g (some (vs f)) b!"DATE" (.inl rfl) ?_ ?_
      · show getVariable b!"DATE_FORMATTED" g (some (vs f)) = none
        rw [post_variable hsf _ (by decide) (by decide), gv _ (by decide) (by decide) (by decide), hu.global _ (by decide),
          hu.headers f (hmem f hf) _ (by decide)]
        rfl
      · rw [post_variable hsf _ (by decide) (by decide), gformat, hu.headers f (hmem f hf) _ (by decide)]
        rfl
  · intro slug hs
    beta_reduce
    rw [fname slug hs]
    exact C90.postPath_eq s.get slug (hu.slugs slug hs).1 (hu.slugs slug hs).2.1
  · rw [htext', List.map_map]
    rfl

end Blogc.SiteFeed
