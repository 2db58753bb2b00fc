import Verif.Model.MakeRules
import Verif.Props.C29
import Verif.Props.C31

/-!
# C54: post order settings select the documented order
-/

namespace Blogc.C54

open Blogc Blogc.Loader

/-- The order asked for by an `html_order`/`atom_order` setting: oldest first for
"ASC" in any case, newest first otherwise ("DESC" is the default). -/
def OldestFirst (order : Option Str) : Bool := (order.getD []).map toLower == b!"asc"

/-- `fs` is in the order asked for. -/
def InOrder (oldestFirst : Bool) (time : Str → Int) (fs : List Str) : Prop :=
  fs.Pairwise fun a b => if oldestFirst then time a ≤ time b else time b ≤ time a

/-- The variables given by blogc-make, apart from the ordering: no filters. -/
structure NoFilter (base : Vars) : Prop where
  sort : base.lookup b!"FILTER_SORT" = none
  reverse : base.lookup b!"FILTER_REVERSE" = none
  tag : base.lookup b!"FILTER_TAG" = none
  page : base.lookup b!"FILTER_PAGE" = none

/-- The entries of the files, all of them, in the order asked for. -/
def Lists (env : Env) (conf : Vars) (files : List Str) (vars : Str → Vars) (oldestFirst : Bool)
    (time : Str → Int) : Prop :=
  ∃ fs conf', fromFiles env conf files = .ok (some (fs.map vars, conf')) ∧ fs.Perm files ∧
    InOrder oldestFirst time fs

theorem ordering_lookup (settings base : Vars) (option : Str) (hb : NoFilter base) (k : Str) (hk : NulFree k) :
    (Make.postsOrdering settings option base).lookup k =
      if k = b!"FILTER_SORT" then
        (if strToBool (settings.lookup b!"posts_sort") then some b!"1" else none)
      else if k = b!"FILTER_REVERSE" then
        (if strToBool (settings.lookup b!"posts_sort") = OldestFirst (settings.lookup option) then some b!"1"
         else none)
      else base.lookup k := by
  have hasc : caseEq ((settings.lookup option).getD []) b!"asc" = OldestFirst (settings.lookup option) := rfl
  have n1 : NulFree b!"FILTER_SORT" := by decide
  have n2 : NulFree b!"FILTER_REVERSE" := by decide
  simp only [Make.postsOrdering, hasc, Make.set]
  by_cases h1 : k = b!"FILTER_SORT"
  · subst h1
    cases hs : strToBool (settings.lookup b!"posts_sort") <;>
      cases ha : OldestFirst (settings.lookup option) <;>
      simp [lookup_set _ _ _ _ n1 n1, lookup_set _ _ _ _ n1 n2, lookup_set _ _ _ _ n2 n1, hb.sort]
  · by_cases h2 : k = b!"FILTER_REVERSE"
    · subst h2
      cases hs : strToBool (settings.lookup b!"posts_sort") <;>
        cases ha : OldestFirst (settings.lookup option) <;>
        simp [lookup_set _ _ _ _ n2 n2, lookup_set _ _ _ _ n1 n2, lookup_set _ _ _ _ n2 n1, hb.reverse]
    · cases hs : strToBool (settings.lookup b!"posts_sort") <;>
        cases ha : OldestFirst (settings.lookup option) <;>
        simp [lookup_set _ _ _ _ n2 hk, lookup_set _ _ _ _ n1 hk, lookup_set _ _ _ _ hk n1,
          lookup_set _ _ _ _ hk n2, h1, h2]

/-- Proved part: with `posts_sort` on, provided any two dates are less than
`2 ^ 31` seconds apart (see C31). -/
theorem sorted_partial (env : Env) (settings base : Vars) (option : Str) (files : List Str)
    (src : Str → Vars) (time : Str → Int) (hb : NoFilter base)
    (hs : strToBool (settings.lookup b!"posts_sort") = true)
    (hl : C31.Loads env base files src time)
    (hr : ∀ f ∈ files, -(2 ^ 63) ≤ time f ∧ time f < 2 ^ 63)
    (hd : ∀ f ∈ files, ∀ g ∈ files, (time f - time g).natAbs < 2 ^ 31) :
    Lists env (Make.postsOrdering settings option base) files (C31.entry src time)
      (OldestFirst (settings.lookup option)) time := by
  have lk := ordering_lookup settings base option hb
  have hso : C31.SortOnly (Make.postsOrdering settings option base) (OldestFirst (settings.lookup option)) := by
    refine ⟨?_, ?_, ?_, ?_⟩
    · rw [lk _ (by decide), if_pos rfl, hs]; rfl
    · rw [lk _ (by decide), if_neg (by decide), if_pos rfl, hs]
      cases OldestFirst (settings.lookup option) <;> rfl
    · rw [lk _ (by decide), if_neg (by decide), if_neg (by decide), hb.tag]
    · rw [lk _ (by decide), if_neg (by decide), if_neg (by decide), hb.page]
  have hl' : C31.Loads env (Make.postsOrdering settings option base) files src time := by
    intro f hf
    rw [lk _ (by decide), if_neg (by decide), if_neg (by decide)]
    exact hl f hf
  obtain ⟨fs, conf', h1, h2, h3, -⟩ := C31.chronological_partial env _ _ files src time hso hl' hr hd
  exact ⟨fs, conf', h1, h2, h3⟩

theorem loadLoop_unsorted (env : Env) (md : Option Str) (src : Str → Vars) (files : List Str)
    (h : ∀ f ∈ files, env.parse md f = some (src f)) :
    loadLoop env md false files =
      some (files.map src, (files.filter fun f => ((src f).lookup b!"DATE").isSome).length) := by
  induction files with
  | nil => rfl
  | cons f l ih =>
    have := ih (fun g hg => h g (by simp [hg]))
    simp only [loadLoop, h f (by simp), this, Bool.false_eq_true, if_false, List.map_cons, List.filter_cons]
    cases ((src f).lookup b!"DATE").isSome
    · simp
    · simp [Nat.add_comm]

/-- Proved part: with `posts_sort` off, for files given oldest first. -/
theorem unsorted_partial (env : Env) (settings base : Vars) (option : Str) (files : List Str)
    (src : Str → Vars) (time : Str → Int) (hb : NoFilter base)
    (hs : strToBool (settings.lookup b!"posts_sort") = false)
    (hl : ∀ f ∈ files, env.parse (base.lookup b!"TOCTREE_MAXDEPTH") f = some (src f))
    (hdate : (∀ f ∈ files, ((src f).lookup b!"DATE").isSome) ∨
      (∀ f ∈ files, ((src f).lookup b!"DATE").isSome = false))
    (hgiven : files.Pairwise fun a b => time a ≤ time b) :
    Lists env (Make.postsOrdering settings option base) files src
      (OldestFirst (settings.lookup option)) time := by
  have lk := ordering_lookup settings base option hb
  have e1 : strToBool ((Make.postsOrdering settings option base).lookup b!"FILTER_SORT") = false := by
    rw [lk _ (by decide), if_pos rfl, hs]; rfl
  have e2 : strToBool ((Make.postsOrdering settings option base).lookup b!"FILTER_REVERSE") =
      !OldestFirst (settings.lookup option) := by
    rw [lk _ (by decide), if_neg (by decide), if_pos rfl, hs]
    cases OldestFirst (settings.lookup option) <;> rfl
  have e3 : (Make.postsOrdering settings option base).lookup b!"TOCTREE_MAXDEPTH" =
      base.lookup b!"TOCTREE_MAXDEPTH" := by
    rw [lk _ (by decide), if_neg (by decide), if_neg (by decide)]
  have e4 : (Make.postsOrdering settings option base).lookup b!"FILTER_TAG" = none := by
    rw [lk _ (by decide), if_neg (by decide), if_neg (by decide), hb.tag]
  have e5 : (Make.postsOrdering settings option base).lookup b!"FILTER_PAGE" = none := by
    rw [lk _ (by decide), if_neg (by decide), if_neg (by decide), hb.page]
  generalize Make.postsOrdering settings option base = conf at e1 e2 e3 e4 e5
  have hsel : ∀ l : List Vars, ∃ conf', select conf l = .ok (l, conf') := by
    intro l
    unfold select
    rw [e4, e5]
    have hp : pageOf none = 1 := by decide
    simp only [hp, Option.isSome_none, Bool.false_eq_true, if_false, pageLoop_all]
    rw [if_neg (by simp)]
    refine ⟨_, by
      congr 2
      rw [List.filter_eq_self]
      intro a _; rfl⟩
  have hd : ¬ ((files.filter fun f => ((src f).lookup b!"DATE").isSome).length > 0 ∧
      (files.filter fun f => ((src f).lookup b!"DATE").isSome).length < files.length) := by
    rcases hdate with h | h
    · rw [List.filter_eq_self.2 h]; omega
    · rw [List.filter_eq_nil_iff.2 (by intro f hf; simp [h f hf])]; simp
  cases ho : OldestFirst (settings.lookup option) with
  | true =>
    obtain ⟨conf', h⟩ := hsel (files.map src)
    refine ⟨files, conf', ?_, List.Perm.refl _, by simpa [InOrder] using hgiven⟩
    unfold fromFiles
    rw [e1, e2, e3, ho]
    simp only
    rw [loadLoop_unsorted env _ src files hl]
    simp only
    rw [if_neg hd]
    simp [order, h]
  | false =>
    obtain ⟨conf', h⟩ := hsel (files.map src).reverse
    refine ⟨files.reverse, conf', ?_, List.reverse_perm _, ?_⟩
    · unfold fromFiles
      rw [e1, e2, e3, ho]
      simp only
      rw [loadLoop_unsorted env _ src files hl]
      simp only
      rw [if_neg hd]
      rw [List.map_reverse]
      simp [order, h]
    · simpa [InOrder, List.pairwise_reverse] using hgiven

/-- The pages of such a listing are the pages of the ordered list (C29). -/
theorem paged_partial (env : Env) (conf : Vars) (files : List Str) (vars : Str → Vars) (oldestFirst : Bool)
    (time : Str → Int) (hL : Lists env conf files vars oldestFirst time)
    (n p count : Nat) (hp0 : conf.lookup b!"FILTER_PAGE" = none) (hn : C29.PerPage conf n)
    (hn0 : 0 < n) (hp : 1 ≤ p) (hov : p * n < 2 ^ 63) (hall : files.length < 2 ^ 24)
    (hcount : Spec.Entries.IsPageCount n files.length count) :
    ∃ fs conf'', fs.Perm files ∧ InOrder oldestFirst time fs ∧
      fromFiles env (set conf b!"FILTER_PAGE" (decNat p)) files =
        .ok (some ((Spec.Entries.page n p fs).map vars, conf'')) := by
  obtain ⟨fs, conf', h1, h2, h3⟩ := hL
  have hlen := h2.length_eq
  obtain ⟨conf'', h4, -⟩ := C29.page_exact env conf files (fs.map vars) conf' n p count hp0 hn hn0 hp hov
    (by simpa [hlen] using hall) (by simpa [hlen] using hcount) h1
  refine ⟨fs, conf'', h2, h3, ?_⟩
  rw [h4]
  simp [Spec.Entries.page, List.map_take, List.map_drop]

/-- Two dates 100 years apart are listed in the wrong order, as in C31. -/
theorem sorted_violated : ∃ env settings base option files src time,
    NoFilter base ∧ strToBool (settings.lookup b!"posts_sort") = true ∧
    C31.Loads env base files src time ∧
    ¬ Lists env (Make.postsOrdering settings option base) files (C31.entry src time)
      (OldestFirst (settings.lookup option)) time := by
  refine ⟨C31.farEnv, (Trie.inserts [(b!"posts_sort", b!"1")]).1, .nil, b!"html_order", C31.farFiles,
    fun f => (Trie.inserts [(b!"DATE", f)]).1, C31.farTime, ⟨rfl, rfl, rfl, rfl⟩, by decide, ?_, ?_⟩
  · have := C31.farLoads
    intro f hf
    exact this f hf
  · rintro ⟨fs, conf', h, hperm, hpw⟩
    have hr : (match fromFiles C31.farEnv
          (Make.postsOrdering (Trie.inserts [(b!"posts_sort", b!"1")]).1 b!"html_order" .nil) C31.farFiles with
        | .ok (some (l, _)) => l.map (·.lookup b!"DATE")
        | _ => []) = [some b!"1900-01-01", some b!"2000-01-01"] := by decide +kernel
    rw [h] at hr
    simp only [List.map_map] at hr
    match fs, hr with
    | [a, b], hr =>
      simp only [List.map_cons, List.map_nil, Function.comp, List.cons.injEq, and_true] at hr
      have hmem : ∀ f ∈ [a, b], f = b!"1900-01-01" ∨ f = b!"2000-01-01" := by
        intro f hf
        have := hperm.mem_iff.1 hf
        simpa [C31.farFiles] using this
      have ha : a = b!"1900-01-01" := by
        rcases hmem a (by simp) with h | h
        · exact h
        · rw [h] at hr; exact absurd hr.1 (by decide)
      have hb' : b = b!"2000-01-01" := by
        rcases hmem b (by simp) with h | h
        · rw [h] at hr; exact absurd hr.2 (by decide)
        · exact h
      subst ha hb'
      simp only [InOrder, List.pairwise_cons] at hpw
      have := hpw.1 _ (List.mem_singleton.2 rfl)
      revert this
      decide

/-! ## Samples -/

def sampleEnv : Env where
  parse := fun _ f => some (Trie.inserts [(b!"DATE", f)]).1
  stamp := fun d => some d

/-- The dates of the entries listed for given settings and files. -/
def listed (settings : List (Str × Str)) (files : List Str) : List (Option Str) :=
  match fromFiles sampleEnv (Make.postsOrdering (Trie.inserts settings).1 b!"html_order" .nil) files with
  | .ok (some (l, _)) => l.map (·.lookup b!"DATE")
  | _ => []

example : listed [(b!"posts_sort", b!"yes"), (b!"html_order", b!"DESC")] [b!"20", b!"30", b!"10"] =
    [some b!"30", some b!"20", some b!"10"] := by decide +kernel
example : listed [(b!"posts_sort", b!"yes"), (b!"html_order", b!"asc")] [b!"20", b!"30", b!"10"] =
    [some b!"10", some b!"20", some b!"30"] := by decide +kernel
example : listed [(b!"html_order", b!"DESC")] [b!"10", b!"20", b!"30"] =
    [some b!"30", some b!"20", some b!"10"] := by decide +kernel
example : listed [(b!"html_order", b!"ASC")] [b!"10", b!"20", b!"30"] =
    [some b!"10", some b!"20", some b!"30"] := by decide +kernel
example : NoFilter (Trie.inserts [(b!"DATE_FORMAT", b!"%c")]).1 := ⟨by decide, by decide, by decide, by decide⟩

end Blogc.C54
