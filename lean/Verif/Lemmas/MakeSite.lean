import Verif.Spec.MakeJobs
import Verif.Lemmas.Loader
import Verif.Lemmas.Trie

/-!
# Lemmas about the build rules of blogc-make
-/

namespace Blogc.Make

open Blogc
open Blogc.Spec.MakeJobs
open Blogc.C53 (slashed pathOf tagPathOf)

/-! ## Variables -/

theorem filled_set {t : Trie Str} (h : Filled t) (k v : Str) (hk : NulFree k) : Filled (set t k v) := by
  obtain ⟨h, hc, rfl⟩ := h
  refine ⟨h ++ [(k, v)], ?_, ?_⟩
  · intro kv hkv
    rcases List.mem_append.1 hkv with hm | hm
    · exact hc kv hm
    · rw [List.mem_singleton.1 hm]
      exact hk
  · rw [Trie.inserts_append]
    rfl

theorem describes_nil : Describes .nil [] := ⟨⟨[], by simp [Blogc.Spec.CKeys], rfl⟩, fun _ _ => rfl⟩

theorem describes_set {t : Trie Str} {l : List (Str × Str)} (h : Describes t l) (k v : Str) (hk : NulFree k) :
    Describes (set t k v) ((k, v) :: l) := by
  refine ⟨filled_set h.filled k v hk, ?_⟩
  intro k' hk'
  rw [Make.set, Loader.lookup_set t k k' v hk hk', List.lookup_cons]
  by_cases e : k' = k
  · simp [e]
  · rw [if_neg e, h.lookup k' hk', show (k' == k) = false from by simpa using e]

theorem describes_congr {t : Trie Str} {l l' : List (Str × Str)} (h : Describes t l)
    (e : ∀ k, l.lookup k = l'.lookup k) : Describes t l' := ⟨h.filled, fun k hk => (h.lookup k hk).trans (e k)⟩

theorem describes_page (s : Site) (option : Str) (h : (s.get option).isSome) {t : Trie Str}
    {l : List (Str × Str)} (hl : Describes t l) :
    Describes (postsPagination s.cfg.settings option t) (firstPage s option ++ l) := by
  obtain ⟨v, hv⟩ := Option.isSome_iff_exists.1 h
  have e : s.getStr option = v := by rw [Site.getStr, hv]; rfl
  have hv' : s.cfg.settings.lookup option = some v := hv
  unfold postsPagination firstPage perPage
  rw [e, hv']
  simp only [Option.getD_some]
  by_cases hn : (strtol v).1 < 0
  · rw [if_pos hn, if_neg (by omega)]
    exact hl
  · rw [if_neg hn, if_pos (by omega)]
    exact describes_set (describes_set hl _ _ (by decide)) _ _ (by decide)

theorem describes_ordering (s : Site) (option : Str) {t : Trie Str} {l : List (Str × Str)}
    (hl : Describes t l) :
    Describes (postsOrdering s.cfg.settings option t) (ordering s option ++ l) := by
  have hasc : caseEq ((s.cfg.settings.lookup option).getD []) b!"asc" = C54.OldestFirst (s.get option) := rfl
  have hsort : s.cfg.settings.lookup b!"posts_sort" = s.get b!"posts_sort" := rfl
  unfold postsOrdering ordering
  simp only [hasc, hsort]
  cases strToBool (s.get b!"posts_sort") <;> cases C54.OldestFirst (s.get option)
  · exact describes_set hl _ _ (by decide)
  · exact hl
  · exact describes_set hl _ _ (by decide)
  · exact describes_set (describes_set hl _ _ (by decide)) _ _ (by decide)

theorem describes_names (date rule type : Str) {t : Trie Str} {l : List (Str × Str)} (hl : Describes t l) :
    Describes (Site.names date rule type t) (naming date rule type ++ l) :=
  describes_set (describes_set (describes_set hl _ _ (by decide)) _ _ (by decide)) _ _ (by decide)

/-! ## Paths -/

theorem absPath_append (root d x : Str) (hd : d ≠ []) : absPath root (d ++ x) = absPath root d ++ x := by
  obtain ⟨c, r, rfl⟩ := List.exists_cons_of_ne_nil hd
  unfold absPath
  simp only [List.cons_append, List.head?_cons]
  by_cases h : c = c!"/" <;> simp [h]

theorem listing_name (dir : Str) (g pre ext : Option Str) (he : have? ext = true) :
    generateFilename (some dir) g pre none ext = some (listingPath dir g pre ext) := by
  have hlen : text ext ≠ [] := by
    rcases ext with _ | _ | _ <;> simp_all [have?, text]
  have hn : have? none = false := rfl
  have hnn : ∀ x : Str, (x ++ text ext).length ≠ 0 := by
    intro x h
    rw [List.length_append] at h
    exact hlen (List.length_eq_zero_iff.1 (by omega))
  unfold generateFilename listingPath slashed slashed
  simp only [he, hn]
  cases hg : have? g <;> cases hp : have? pre <;> cases hs : slashFirst ext <;>
    simp only [Bool.false_eq_true, Bool.true_or, Bool.or_true, Bool.or_false, Bool.and_true, Bool.true_and,
      Bool.and_false, Bool.false_and, Bool.not_false, Bool.not_true, Option.isSome_some, if_true, if_false,
      hnn, Bool.false_or, text, Option.getD_some] <;> simp
  exact fun _ => hlen

/-! ## Files -/

/-- The file at a path, as the context stores it. -/
def Site.at (s : Site) (f : Str) (slug : Option Str) : FileCtx :=
  match s.stat (absPath s.root f) with
  | none => ⟨absPath s.root f, f, slug, 0, 0, false⟩
  | some (sec, nsec) => ⟨absPath s.root f, f, slug, sec, nsec, true⟩

theorem file_eq (s : Site) (f : Str) (slug : Option Str) : s.file (some f) slug = some (s.at f slug) := rfl

theorem at_path (s : Site) (f : Str) (slug : Option Str) : (s.at f slug).path = absPath s.root f := by
  unfold Site.at
  split <;> rfl

theorem at_shortPath (s : Site) (f : Str) (slug : Option Str) : (s.at f slug).shortPath = f := by
  unfold Site.at
  split <;> rfl

theorem at_slug (s : Site) (f : Str) (slug : Option Str) : (s.at f slug).slug = slug := by
  unfold Site.at
  split <;> rfl

/-- An input of a given path makes an output out of date. -/
def outdates (s : Site) (t : Int × Int) (i : Str) : Bool :=
  match s.stat i with
  | none => true
  | some u => decide (Later u t)

theorem at_newer (s : Site) (f fo : Str) (slug g : Option Str) (t : Int × Int)
    (ht : s.stat (absPath s.root fo) = some t) :
    inputNewer (some (s.at f slug)) (s.at fo g) = outdates s t (absPath s.root f) := by
  unfold inputNewer outdates Site.at
  rw [ht]
  cases s.stat (absPath s.root f) with
  | none => rfl
  | some u =>
    simp only [Bool.not_true, Bool.false_eq_true, if_false, Later]
    by_cases h : u.1 = t.1
    · rw [if_pos h]
      simp [h]
    · rw [if_neg h]
      simp [h]

theorem anyNewer_eq (s : Site) (fo : Str) (g : Option Str) (t : Int × Int)
    (ht : s.stat (absPath s.root fo) = some t) (l : List (Str × Option Str)) :
    anyNewer (s.at fo g) (l.map fun p => some (s.at p.1 p.2)) =
      (l.map fun p => absPath s.root p.1).any (outdates s t) := by
  induction l with
  | nil => rfl
  | cons p l ih =>
    rw [List.map_cons, List.map_cons, anyNewer, at_newer s p.1 fo p.2 g t ht, ih, List.any_cons]
    cases outdates s t (absPath s.root p.1) <;> rfl

theorem relevant_all (l : List (Option FileCtx)) : relevant false l = l := by
  induction l with
  | nil => rfl
  | cons a l ih => rw [relevant, if_neg (by simp), ih]

/-- The test for rebuilding is that of the specification. -/
theorem stale_eq (s : Site) (fo : Str) (w : Wanted) (l : List (Str × Option Str))
    (ho : w.output = absPath s.root fo) (hl : w.inputs = l.map fun p => absPath s.root p.1)
    (sources : List (Option FileCtx)) (settings entry template : Option FileCtx) (onlyFirst : Bool)
    (h : one settings ++ one template ++ one entry ++ relevant onlyFirst sources =
      l.map fun p => some (s.at p.1 p.2)) :
    needRebuild sources settings entry template (some (s.at fo none)) onlyFirst = stale s.stat w := by
  unfold needRebuild stale
  rw [h, ho, hl]
  cases ht : s.stat (absPath s.root fo) with
  | none =>
    have : (s.at fo none).readable = false := by unfold Site.at; rw [ht]
    simp [this]
  | some t =>
    have : (s.at fo none).readable = true := by unfold Site.at; rw [ht]
    simp only [this, Bool.not_true, Bool.false_eq_true, if_false]
    rw [anyNewer_eq s fo none t ht]
    rfl

theorem sourcePaths_all (s : Site) (l : List (Str × Option Str)) :
    sourcePaths false (l.map fun p => some (s.at p.1 p.2)) = .ok (l.map fun p => absPath s.root p.1) := by
  induction l with
  | nil => rfl
  | cons p l ih =>
    rw [List.map_cons, List.map_cons, sourcePaths, if_neg (by simp), ih, at_path]
    rfl

theorem sourceInput_eq (l : List Str) : sourceInput false l = l.flatMap (· ++ b!"\n") := by
  induction l with
  | nil => rfl
  | cons p l ih => rw [sourceInput, if_neg (by simp), ih, List.flatMap_cons]

/-! ## Loops -/

theorem does_nil (stat : Str → Option (Int × Int)) (exec : Job → Int) : Does stat exec [] ([], 0) :=
  ⟨0, .nil, fun _ => ⟨rfl, by simp⟩, fun h => absurd rfl h⟩

theorem does_skip {stat : Str → Option (Int × Int)} {exec : Job → Int} {w : Wanted} {ws : List Wanted}
    {r : List Job × Int} (hs : stale stat w = false) (h : Does stat exec ws r) :
    Does stat exec (w :: ws) r := by
  unfold Does
  rw [List.filter_cons, hs, if_neg (by simp)]
  exact h

theorem does_fail {stat : Str → Option (Int × Int)} {exec : Job → Int} {w : Wanted} (ws : List Wanted)
    {j : Job} (hs : stale stat w = true) (hf : Fits w j) (he : exec j ≠ 0) :
    Does stat exec (w :: ws) ([j], exec j) := by
  unfold Does
  rw [List.filter_cons, hs, if_pos rfl]
  exact ⟨1, .cons hf .nil, fun h => absurd h he, fun _ => ⟨[], j, rfl, rfl, by simp⟩⟩

theorem does_cons {stat : Str → Option (Int × Int)} {exec : Job → Int} {w : Wanted} {ws : List Wanted}
    {j : Job} {r : List Job × Int} (hs : stale stat w = true) (hf : Fits w j) (he : exec j = 0)
    (h : Does stat exec ws r) : Does stat exec (w :: ws) (j :: r.1, r.2) := by
  obtain ⟨n, h1, h2, h3⟩ := h
  unfold Does
  rw [List.filter_cons, hs, if_pos rfl]
  refine ⟨n + 1, .cons hf h1, fun h0 => ?_, fun h0 => ?_⟩
  · obtain ⟨e, h4⟩ := h2 h0
    refine ⟨by rw [e, List.length_cons], ?_⟩
    intro j' hj'
    rcases List.mem_cons.1 hj' with rfl | hj'
    · exact he
    · exact h4 j' hj'
  · obtain ⟨js, j', e, h4, h5⟩ := h3 h0
    refine ⟨j :: js, j', by rw [show (j :: r.1, r.2).1 = j :: r.1 from rfl, e]; rfl, h4, ?_⟩
    intro x hx
    rcases List.mem_cons.1 hx with rfl | hx
    · exact he
    · exact h5 x hx

/-- The loop of the listing rules, with an invariant for the counter and the
variables. -/
theorem jobLoop_does {σ : Type} (s : Site) (exec : Job → Int)
    (prep : σ → Trie Str → FileCtx → Option (Trie Str)) (next : σ → σ) (need : FileCtx → Bool)
    (job : Trie Str → FileCtx → Job) (R : σ → Trie Str → List (Wanted × Str) → Prop)
    (hR : ∀ i vars w f l, R i vars ((w, f) :: l) → ∃ vars', prep i vars (s.at f none) = some vars' ∧
      need (s.at f none) = stale s.stat w ∧ Fits w (job vars' (s.at f none)) ∧ R (next i) vars' l)
    (l : List (Wanted × Str)) (i : σ) (vars : Trie Str) (h : R i vars l) :
    Does s.stat exec (l.map Prod.fst)
      (jobLoop prep next need job exec i vars (l.map fun p => s.file (some p.2) none)) := by
  induction l generalizing i vars with
  | nil => exact does_nil _ _
  | cons p l ih =>
    obtain ⟨w, f⟩ := p
    obtain ⟨vars', h1, h2, h3, h4⟩ := hR i vars w f l h
    have := ih _ _ h4
    simp only [List.map_cons, file_eq]
    rw [jobLoop, h1]
    simp only
    rw [h2]
    cases hs : stale s.stat w with
    | false => exact does_skip hs this
    | true =>
      rw [if_pos rfl]
      by_cases he : exec (job vars' (s.at f none)) = 0
      · rw [if_neg (by simpa using he)]
        exact does_cons hs h3 he this
      · rw [if_pos he]
        exact does_fail _ hs h3 he

/-- The loop of the rules `posts` and `pages`. -/
theorem pairJobs_does (s : Site) (exec : Job → Int) (need : List (Option FileCtx) → FileCtx → Bool)
    (job : List (Option FileCtx) → FileCtx → Job) (l : List (Wanted × FileCtx × Str))
    (h : ∀ p ∈ l, ∀ rest, need (some p.2.1 :: rest) (s.at p.2.2 none) = stale s.stat p.1 ∧
      Fits p.1 (job (some p.2.1 :: rest) (s.at p.2.2 none))) :
    Does s.stat exec (l.map Prod.fst)
      (pairJobs need job exec (l.map fun p => some p.2.1) (l.map fun p => s.file (some p.2.2) none)) := by
  induction l with
  | nil => exact does_nil _ _
  | cons p l ih =>
    have ih := ih fun q hq => h q (by simp [hq])
    obtain ⟨h2, h3⟩ := h p (by simp) (l.map fun p => some p.2.1)
    obtain ⟨w, c, f⟩ := p
    simp only [List.map_cons, file_eq] at ih h2 h3 ⊢
    rw [pairJobs, h2]
    cases hs : stale s.stat w with
    | false => exact does_skip hs ih
    | true =>
      rw [if_pos rfl]
      by_cases he : exec (job (some c :: l.map fun p => some p.2.1) (s.at f none)) = 0
      · rw [if_neg (by simpa using he)]
        exact does_cons hs h3 he ih
      · rw [if_pos he]
        exact does_fail _ hs h3 he

end Blogc.Make
