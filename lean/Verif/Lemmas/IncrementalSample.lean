import Verif.Spec.Incremental
import Verif.Props.C87
import Verif.Props.C88

/-!
# A site that meets the hypotheses of C100
-/

namespace Blogc.C100
open Blogc Blogc.Make Blogc.Build
open Blogc.Spec.MakeJobs Blogc.Spec.MakeRun Blogc.Spec.Incremental

def sampleGlobals : List (Str × Str) :=
  [(b!"AUTHOR_NAME", b!"A"), (b!"AUTHOR_EMAIL", b!"a@b"), (b!"SITE_TITLE", b!"T\""), (b!"SITE_TAGLINE", b!"g"),
    (b!"BASE_DOMAIN", b!"http://d")]

/-- A site with a post, a page and a tag. -/
def sampleCfg : MakeSettings.Settings := ⟨(Trie.inserts sampleGlobals).1, C86.table, some [b!"one"], some [b!"about"], none, some [b!"x"]⟩

def sample : Setup where
  root := b!"/site"
  settingsFile := b!"/site/blogcfile"
  outDir := b!"_build"
  blogc := b!"'blogc'"
  dev := false
  deployed := b!"/tmp/feed"
  settings := fun t => if t = b!"settings" then some sampleCfg else none
  source := fun _ f text => some (Trie.inserts [(b!"FILENAME", f), (b!"CONTENT", text), (b!"TAGS", b!"x")]).1
  template := fun text => some [if text = b!"env" then ⟨.variable, .none, some b!"MAKE_ENV", none⟩
    else ⟨.content, .none, some text, none⟩]
  env := { C88.sampleEnv with fuel := 100 }

def isOut (p : Str) : Prop := startsWith p b!"/site/_build/" = true

def sampleSite : Site := base sample sampleCfg

/-- The runs other than those for numbered pages. -/
def fixed : List Wanted :=
  index sampleSite ++ atom sampleSite ++ atomTags sampleSite ++ posts sampleSite ++ tags sampleSite ++ pages sampleSite

def pageRun (n : Nat) : Wanted :=
  listing sampleSite (b!"/site/_build/page/" ++ (decNat n ++ b!"/index.html")) (pageVars sampleSite b!"pagination" n)

def tagRun (n : Nat) : Wanted :=
  listing sampleSite (b!"/site/_build/tag/x/page/" ++ (decNat n ++ b!"/index.html"))
    ((b!"FILTER_TAG", b!"x") :: pageVars sampleSite b!"pagination_tags" n)

theorem html_ext : sampleSite.get b!"html_ext" = some b!"/index.html" := by decide +kernel
theorem out_dir : outDir sampleSite = b!"/site/_build" := by decide +kernel
theorem blog_prefix : sampleSite.get b!"blog_prefix" = none := by decide +kernel
theorem pagination_prefix : sampleSite.get b!"pagination_prefix" = some b!"page" := by decide +kernel
theorem tag_prefix : sampleSite.get b!"tag_prefix" = some b!"tag" := by decide +kernel

theorem have_dec (n : Nat) : have? (some (decNat n)) = true := C53.have_some _ (decNat_ne_nil n)

theorem sample_cases {w : Wanted} (h : Possible sampleSite w) :
    w ∈ fixed ∨ (∃ n, w = pageRun n) ∨ ∃ n, w = tagRun n := by
  rcases h with h | h | h | ⟨n, h⟩ | ⟨n, h⟩ | h | h | h
  · exact .inl (by simp [fixed, h])
  · exact .inl (by simp [fixed, h])
  · exact .inl (by simp [fixed, h])
  · right; left
    unfold pagination at h
    rw [if_neg (by decide +kernel)] at h
    obtain ⟨i, -, rfl⟩ := List.mem_map.1 h
    refine ⟨i + 1, ?_⟩
    unfold pageRun
    congr 1
    rw [html_ext, out_dir, blog_prefix, pagination_prefix]
    unfold C53.pathOf
    rw [if_neg (by rintro ⟨-, -, h⟩; cases h)]
    simp only [C53.slashed, have_dec, text]
    simp [have?]
  · right; right
    unfold paginationTags at h
    rw [if_neg (by decide +kernel), show siteTags sampleSite = [b!"x"] by decide +kernel, List.flatMap_singleton] at h
    obtain ⟨i, -, rfl⟩ := List.mem_map.1 h
    refine ⟨i + 1, ?_⟩
    unfold tagRun
    congr 1
    rw [html_ext, out_dir, blog_prefix, pagination_prefix, tag_prefix]
    unfold C53.tagPathOf
    simp only [C53.slashed, have_dec, text]
    simp [have?]
  · exact .inl (by simp [fixed, h])
  · exact .inl (by simp [fixed, h])
  · exact .inl (by simp [fixed, h])

def keyOk : Str → Bool
  | [] => false
  | c :: rest => decide (c!"A" ≤ c ∧ c ≤ c!"Z") &&
      rest.all fun x => decide ((c!"A" ≤ x ∧ x ≤ c!"Z") ∨ (c!"0" ≤ x ∧ x ≤ c!"9") ∨ x = c!"_")

theorem validKey_of {k : Str} (h : keyOk k = true) : Spec.MakeSettings.ValidKey k := by
  cases k with
  | nil => cases h
  | cons c rest =>
    unfold keyOk at h
    rw [Bool.and_eq_true, List.all_eq_true] at h
    exact ⟨c, rest, rfl, by simpa using h.1, fun x hx => by simpa using h.2 x hx⟩

def varOk (kv : Str × Str) : Bool :=
  keyOk kv.1 && decide (NulFree kv.2) && (match utf8Validate kv.2 with | .ok true => true | _ => false)

theorem var_of {kv : Str × Str} (h : varOk kv = true) : Spec.MakeSettings.ValidKey kv.1 ∧ TextOk kv.2 := by
  unfold varOk at h
  rw [Bool.and_eq_true, Bool.and_eq_true] at h
  refine ⟨validKey_of h.1.1, C87.utf8_of ?_ (of_decide_eq_true h.1.2)⟩
  have := h.2
  split at this
  · assumption
  · cases this

theorem text_dec (n : Nat) : TextOk (decNat n) := by
  have hd := decNat_digits n
  have hb : ∀ c ∈ decNat n, 48 ≤ c.toNat ∧ c.toNat ≤ 57 := by
    intro c hc
    have := hd c hc
    revert this
    unfold isDigit
    simp only [Bool.and_eq_true, decide_eq_true_eq, UInt8.le_iff_toNat_le]
    exact id
  refine ⟨fun c hc e => ?_, (decNat n).map (·.toNat), ?_, ?_⟩
  · have := (hb c hc).1
    rw [e] at this
    simp at this
  · intro c hc
    obtain ⟨b, hb', rfl⟩ := List.mem_map.1 hc
    have := (hb b hb').2
    left; omega
  · have : ∀ l : Str, (∀ c ∈ l, c.toNat ≤ 57) → l = (l.map (·.toNat)).flatMap Spec.encode := by
      intro l
      induction l with
      | nil => intro _; rfl
      | cons c l ih =>
        intro h
        rw [List.map_cons, List.flatMap_cons, ← ih fun x hx => h x (by simp [hx])]
        have hc := h c (by simp)
        unfold Spec.encode
        rw [if_pos (by omega)]
        simp
    exact this _ fun c hc => (hb c hc).2

theorem sample_sources : postSources sampleSite = [b!"/site/content/post/one.txt"] := by decide +kernel

theorem pageVars_ok (rule : Str) (n : Nat) (hr : TextOk rule) :
    ∀ kv ∈ pageVars sampleSite rule n, Spec.MakeSettings.ValidKey kv.1 ∧ TextOk kv.2 := by
  intro kv hkv
  unfold pageVars naming at hkv
  rcases List.mem_cons.1 hkv with rfl | hkv
  · exact ⟨validKey_of rfl, text_dec n⟩
  · have h0 : ∀ kv ∈ ordering sampleSite b!"html_order" ++
        [(b!"FILTER_PER_PAGE", sampleSite.getStr b!"posts_per_page"), (b!"MAKE_TYPE", b!"post"),
          (b!"DATE_FORMAT", sampleSite.getStr b!"date_format")], varOk kv = true := by decide +kernel
    simp only [List.cons_append, List.nil_append, List.mem_cons, List.mem_append, List.not_mem_nil, or_false] at hkv h0
    rcases hkv with rfl | rfl | rfl | hkv | rfl
    · exact var_of (h0 _ (by simp))
    · exact ⟨validKey_of rfl, hr⟩
    · exact var_of (h0 _ (by simp))
    · exact var_of (h0 _ (.inl hkv))
    · exact var_of (h0 _ (by simp))

theorem nul_dec (n : Nat) : NulFree (decNat n) := (text_dec n).1

theorem nul_append {a b : Str} (ha : NulFree a) (hb : NulFree b) : NulFree (a ++ b) := by
  intro c hc
  rcases List.mem_append.1 hc with h | h
  · exact ha c h
  · exact hb c h

theorem sample_lines : ∀ f ∈ postSources sampleSite, LineOk f := by
  rw [sample_sources]
  intro f hf
  rw [List.mem_singleton.1 hf]
  exact ⟨by unfold NulFree; decide, by decide, by decide⟩

theorem listing_clean (o : Str) (v : List (Str × Str)) (ho : NulFree o)
    (hv : ∀ kv ∈ v, Spec.MakeSettings.ValidKey kv.1 ∧ TextOk kv.2) : CleanRun (listing sampleSite o v) where
  vars := hv
  output := ho
  template := show NulFree (mainTemplate sampleSite) by decide +kernel
  entry := by
    intro e h
    have : (listing sampleSite o v).entry = none := (show listingEntry sampleSite = none by decide +kernel)
    rw [this] at h
    cases h
  sources := sample_lines

/-- What is checked of a run. -/
def runOk (w : Wanted) : Bool :=
  (ownVars w).all varOk && decide (NulFree w.output) && decide (NulFree w.template) && w.entry.isNone &&
    w.sources.all fun f => decide (NulFree f) && f.all (fun c => decide (c ≠ 0x0a ∧ c ≠ 0x0d)) &&
      decide (Spec.FileList.entry f = some f)

theorem cleanRun_of {w : Wanted} (h : runOk w = true) : CleanRun w := by
  simp only [runOk, Bool.and_eq_true, List.all_eq_true, decide_eq_true_eq, Option.isNone_iff_eq_none] at h
  obtain ⟨⟨⟨⟨h1, h2⟩, h3⟩, h4⟩, h5⟩ := h
  refine ⟨fun kv hkv => var_of (h1 kv hkv), h2, h3, fun e he => ?_, fun f hf => ?_⟩
  · rw [h4] at he; cases he
  · obtain ⟨⟨a, b⟩, c⟩ := h5 f hf
    exact ⟨a, b, c⟩

theorem sampleGlobals_cKeys : Spec.CKeys sampleGlobals :=
  show ∀ kv ∈ sampleGlobals, NulFree kv.1 by unfold NulFree; decide +kernel

theorem mem_of_lastValue {l : List (Str × Str)} {k v : Str} (h : Spec.lastValue l k = some v) : (k, v) ∈ l := by
  unfold Spec.lastValue at h
  obtain ⟨p, h1, rfl⟩ := Option.map_eq_some_iff.1 h
  have h2 := List.find?_some h1
  have h3 := List.mem_of_find?_eq_some h1
  rw [beq_iff_eq] at h2
  rw [← h2]
  simpa using h3

theorem sample_good : Good sample isOut sampleCfg where
  ok := {
    settingsFile := rfl
    outDir := by decide
    contentDir := ⟨b!"content", rfl, by decide⟩
    templateDir := show C86.table.lookup b!"template_dir" |>.getD [] |> (· ≠ []) by decide +kernel
    mainTemplate := rfl
    htmlExt := rfl
    atomExt := rfl
    dateFormat := rfl
    perPage := rfl
    atomPerPage := rfl
    listingEntry := show C86.table.lookup b!"listing_entry" ≠ _ by decide +kernel
    posts := show ∀ x ∈ [b!"one"], x ≠ [] ∧ slashFirst (some x) = false by decide
    pages := show ∀ x ∈ [b!"about"], x ≠ [] ∧ slashFirst (some x) = false by decide
    tags := show ∀ x ∈ [b!"x"], x ≠ [] ∧ slashFirst (some x) = false by decide }
  clean := {
    exe := ⟨b!"blogc", rfl, by decide⟩
    locale := by
      intro l h
      have : sampleSite.get b!"locale" = none := rfl
      rw [show (base sample sampleCfg).get b!"locale" = none from this] at h
      cases h
    tags := by
      intro t ht
      have : t = b!"x" := by simpa [base, Setup.site, sampleCfg] using ht
      subst this
      exact ⟨C87.utf8_of rfl (by unfold NulFree; decide), by decide⟩
    filled := ⟨sampleGlobals, sampleGlobals_cKeys, rfl⟩
    global := by
      intro k v hk h
      have h : (Trie.inserts sampleGlobals).1.lookup k = some v := h
      rw [C07.lookup_inserts _ sampleGlobals_cKeys k hk] at h
      exact var_of ((show ∀ p ∈ sampleGlobals, varOk p = true by decide +kernel) (k, v) (mem_of_lastValue h)) }
  runs := by
    intro w hw
    rcases sample_cases hw with h | ⟨n, rfl⟩ | ⟨n, rfl⟩
    · exact cleanRun_of ((show ∀ w ∈ fixed, runOk w = true by decide +kernel) w h)
    · exact listing_clean _ _ (nul_append (by unfold NulFree; decide) (nul_append (nul_dec n) (by unfold NulFree; decide)))
        (pageVars_ok _ n (C87.utf8_of rfl (by unfold NulFree; decide)))
    · refine listing_clean _ _ (nul_append (by unfold NulFree; decide) (nul_append (nul_dec n) (by unfold NulFree; decide))) ?_
      intro kv hkv
      rcases List.mem_cons.1 hkv with rfl | hkv
      · exact var_of (by decide +kernel)
      · exact pageVars_ok _ n (C87.utf8_of rfl (by unfold NulFree; decide)) kv hkv
  perPage := C87.utf8_of rfl (by unfold NulFree; decide +kernel)
  posts := by
    intro f hf
    refine ⟨sample_lines f hf, ?_⟩
    rw [show postSources (base sample sampleCfg) = [b!"/site/content/post/one.txt"] from sample_sources] at hf
    rw [List.mem_singleton.1 hf]
    unfold isOut
    decide
  settingsFile := by unfold isOut; decide
  outputs := by
    intro w hw
    rcases sample_cases hw with h | ⟨n, rfl⟩ | ⟨n, rfl⟩
    · exact (show ∀ w ∈ fixed, startsWith w.output b!"/site/_build/" = true ∧ w.output ≠ b!"-" by decide +kernel) w h
    · exact ⟨rfl, by intro h; cases h⟩
    · exact ⟨rfl, by intro h; cases h⟩
  inputs := by
    intro w hw
    have hl : ∀ i ∈ [sampleSite.settingsFile, mainTemplate sampleSite] ++ (listingEntry sampleSite).toList ++
        postSources sampleSite, ¬ startsWith i b!"/site/_build/" = true := by decide +kernel
    rcases sample_cases hw with h | ⟨n, rfl⟩ | ⟨n, rfl⟩
    · exact (show ∀ w ∈ fixed, ∀ i ∈ w.inputs, ¬ startsWith i b!"/site/_build/" = true by decide +kernel) w h
    · exact hl
    · exact hl
  distinct := by
    have h0 : ∀ w ∈ fixed, ∀ w' ∈ fixed, w.output = w'.output → w = w' := by decide +kernel
    have h1 : ∀ w ∈ fixed, startsWith w.output b!"/site/_build/page/" = false ∧
        startsWith w.output b!"/site/_build/tag/x/page/" = false := by decide +kernel
    have hp : ∀ n, startsWith (pageRun n).output b!"/site/_build/page/" = true := fun n => rfl
    have ht : ∀ n, startsWith (tagRun n).output b!"/site/_build/tag/x/page/" = true := fun n => rfl
    have hpt : ∀ n, startsWith (tagRun n).output b!"/site/_build/page/" = false := fun n => rfl
    intro w w' hw hw' e
    rcases sample_cases hw with h | ⟨n, rfl⟩ | ⟨n, rfl⟩ <;> rcases sample_cases hw' with h' | ⟨m, rfl⟩ | ⟨m, rfl⟩
    · exact h0 w h w' h' e
    · have := (h1 w h).1; rw [e, hp] at this; cases this
    · have := (h1 w h).2; rw [e, ht] at this; cases this
    · have := (h1 w' h').1; rw [← e, hp] at this; cases this
    · have : decNat n = decNat m := List.append_cancel_right (List.append_cancel_left e)
      rw [C53.decNat_inj this]
    · have := hpt m; rw [← e, hp] at this; cases this
    · have := (h1 w' h').2; rw [← e, ht] at this; cases this
    · have := hpt n; rw [e, hp] at this; cases this
    · have : decNat n = decNat m := List.append_cancel_right (List.append_cancel_left e)
      rw [C53.decNat_inj this]

theorem sample_goodNow (d : Files) : GoodNow sample isOut d := by
  intro cfg h
  obtain ⟨text, -, h⟩ := Option.bind_eq_some_iff.1 h
  have h : (if text = b!"settings" then some sampleCfg else none) = some cfg := h
  split at h
  · injection h with h; subst h; exact sample_good
  · cases h

/-- The files of the site, all written at second 1. -/
def sampleFiles : Files := fun p =>
  if p = b!"/site/blogcfile" then some (b!"settings", (1, 0))
  else if p = b!"/site/templates/main.tmpl" then some (b!"old", (1, 0))
  else if p = b!"/site/templates/other.tmpl" then some (b!"other", (1, 0))
  else if p = b!"/site/content/post/one.txt" then some (b!"text", (1, 0))
  else if p = b!"/site/content/about.txt" then some (b!"text", (1, 0))
  else none

/-- The files without outputs. -/
def without (d : Files) : Files := fun p => if startsWith p b!"/site/_build/" then none else d p

theorem cleaned_without (d : Files) : Cleaned isOut d (without d) :=
  ⟨fun p hp => if_pos hp, fun p hp => if_neg hp⟩

theorem sampleFiles_out (p : Str) (hp : isOut p) : sampleFiles p = none := by
  unfold sampleFiles
  rw [if_neg (by rintro rfl; exact absurd hp (by unfold isOut; decide)),
    if_neg (by rintro rfl; exact absurd hp (by unfold isOut; decide)),
    if_neg (by rintro rfl; exact absurd hp (by unfold isOut; decide)),
    if_neg (by rintro rfl; exact absurd hp (by unfold isOut; decide)),
    if_neg (by rintro rfl; exact absurd hp (by unfold isOut; decide))]

theorem sampleFiles_start : Reachable sample isOut sampleFiles := .start _ sampleFiles_out

/-- Build at a time. -/
def builtAt (S : Setup) (t : Int) (d : Files) : Option (Files × Int) := S.build (fun _ => (t, 0)) d

def text? (r : Option (Files × Int)) (p : Str) : Option Str := r.bind fun r => texts r.1 p
def status? (r : Option (Files × Int)) : Option Int := r.map (·.2)

theorem of_status {r : Option (Files × Int)} {n : Int} (h : status? r = some n) : ∃ d, r = some (d, n) := by
  obtain ⟨⟨d, m⟩, rfl, rfl⟩ := Option.map_eq_some_iff.1 h
  exact ⟨d, rfl⟩

/-- The files after a first build at second 2. -/
def builtOnce : Files := ((builtAt sample 2 sampleFiles).map (·.1)).getD fun _ => none

theorem first_status : status? (builtAt sample 2 sampleFiles) = some 0 := by decide +kernel

theorem first_build : builtAt sample 2 sampleFiles = some (builtOnce, 0) := by
  obtain ⟨d, h⟩ := of_status first_status
  unfold builtOnce
  rw [h]
  rfl

/-- The main template and the first page of the site. -/
def tmpl : Str := b!"/site/templates/main.tmpl"
def first : Str := b!"/site/_build/index.html"

theorem tmpl_not_out : ¬ isOut tmpl := by unfold isOut; decide
theorem first_out : isOut first := by unfold isOut; decide

theorem wants_first (S : Setup) (dev : Bool) (hS : S = { sample with dev }) (d : Files) :
    ∃ w, Wants S sampleCfg d w ∧ w.output = first := by
  subst hS
  cases dev
  · refine ⟨(index sampleSite).headD (pageRun 0), ⟨index sampleSite, List.mem_cons_self .., ?_⟩, ?_⟩ <;> decide +kernel
  · refine ⟨(index (base { sample with dev := true } sampleCfg)).headD (pageRun 0),
      ⟨index (base { sample with dev := true } sampleCfg), List.mem_cons_self .., ?_⟩, ?_⟩ <;> decide +kernel

/-- What is checked of files for which a build leaves an old first page. -/
theorem outdated (dev : Bool) (t : Int) (d : Files) {a b : Str}
    (hc : texts d b!"/site/blogcfile" = some b!"settings")
    (h1 : status? (builtAt { sample with dev } t d) = some 0)
    (h2 : status? (builtAt { sample with dev } t (without d)) = some 0)
    (h3 : text? (builtAt { sample with dev } t d) first = some a)
    (h4 : text? (builtAt { sample with dev } t (without d)) first = some b) (hab : a ≠ b) :
    Outdated { sample with dev } isOut d := by
  obtain ⟨d', h1⟩ := of_status h1
  obtain ⟨d₀', h2⟩ := of_status h2
  obtain ⟨w, hw, ho⟩ := wants_first _ dev rfl d
  rw [h1] at h3
  rw [h2] at h4
  refine ⟨_, d', without d, d₀', sampleCfg, w, h1, cleaned_without d, h2, ?_, hw, ?_⟩
  · show (texts d b!"/site/blogcfile").bind _ = _
    rw [hc]
    rfl
  · rw [ho, show texts d' first = some a from h3, show texts d₀' first = some b from h4]
    simpa using hab

theorem writeAll_times (clock : Str → Int × Int) (l : List (Str × Str)) (d : Files) (p : Str) :
    writeAll clock d l p = d p ∨ ∃ text, writeAll clock d l p = some (text, clock p) := by
  induction l generalizing d with
  | nil => exact .inl rfl
  | cons w l ih =>
    rcases ih (put d w.1 (some (w.2, clock w.1))) with h | h
    · by_cases hp : p = w.1
      · right; exact ⟨w.2, h.trans (by unfold put; rw [if_pos hp, hp])⟩
      · left; exact h.trans (if_neg hp)
    · exact .inr h

theorem after_times (S : Setup) (cfg : MakeSettings.Settings) (clock : Str → Int × Int) (d : Files) (jobs : List Job)
    (p : Str) : S.after cfg clock d jobs p = d p ∨ ∃ text, S.after cfg clock d jobs p = some (text, clock p) := by
  have key : ∀ (jobs : List Job) (e : Files),
      jobs.foldl (fun d' j => writeAll clock d' (S.run cfg d j).1) e p = e p ∨
        ∃ text, jobs.foldl (fun d' j => writeAll clock d' (S.run cfg d j).1) e p = some (text, clock p) := by
    intro jobs
    induction jobs with
    | nil => intro e; exact .inl rfl
    | cons j jobs ih =>
      intro e
      rcases ih (writeAll clock e (S.run cfg d j).1) with h | h
      · rcases writeAll_times clock (S.run cfg d j).1 e p with h' | ⟨t, h'⟩
        · exact .inl (h.trans h')
        · exact .inr ⟨t, h.trans h'⟩
      · exact .inr h
  exact key jobs d

/-- A build leaves a file, or writes it at the time of the clock. -/
theorem all_times (S : Setup) (cfg : MakeSettings.Settings) (clock : Str → Int × Int) (rs : List Rule) (d d' : Files)
    (rv : Int) (h : S.all cfg clock rs d = some (d', rv)) (p : Str) :
    d' p = d p ∨ ∃ text, d' p = some (text, clock p) := by
  induction rs generalizing d with
  | nil => injection h with h; injection h with h _; exact .inl (by rw [h])
  | cons r rs ih =>
    unfold Setup.all at h
    split at h
    · cases h
    · rename_i jobs n _
      split at h
      · injection h with h; injection h with h _; rw [← h]; exact after_times ..
      · rcases ih _ h with g | g
        · rw [g]; exact after_times ..
        · exact .inr g

theorem build_config (S : Setup) {cfg : MakeSettings.Settings} {d : Files} (h : S.config d = some cfg)
    (clock : Str → Int × Int) : S.build clock d = S.all cfg clock rules d := by
  unfold Setup.build
  rw [h]

theorem builtOnce_times (q : Str) (c : Str) (t : Int × Int) (hq : isOut q) (h : builtOnce q = some (c, t)) :
    t = (2, 0) := by
  have hc : sample.config sampleFiles = some sampleCfg := rfl
  have hb := (build_config sample hc fun _ => (2, 0)).symm.trans first_build
  rcases all_times _ _ _ _ _ _ _ hb q with g | ⟨text, g⟩
  · rw [h, sampleFiles_out q hq] at g; cases g
  · exact congrArg Prod.snd (Option.some.inj (h.symm.trans g))

theorem builtOnce_reachable : Reachable sample isOut builtOnce :=
  .build _ _ _ _ sampleFiles_start (sample_goodNow _) first_build

end Blogc.C100
