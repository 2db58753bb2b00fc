import Verif.Props.C29

/-!
# C77: first and last entry of a listing; dates in all sources or in none
-/

namespace Blogc.C77

open Blogc Blogc.Loader

theorem lookup_copyVar_same (conf s : Vars) (src dst : Str) (hd : NulFree dst) :
    (copyVar conf s src dst).lookup dst = ((s.lookup src).or (conf.lookup dst)) := by
  unfold copyVar
  cases s.lookup src with
  | none => rfl
  | some v => simp [lookup_set _ _ _ _ hd hd]

/-- What the global variables at the edges of the listing `rs` are. -/
structure Edges (conf conf' : Vars) (rs : List Vars) : Prop where
  dateFirst : conf'.lookup b!"DATE_FIRST" = (rs.head?.bind (·.lookup b!"DATE")).or (conf.lookup b!"DATE_FIRST")
  dateLast : conf'.lookup b!"DATE_LAST" = (rs.getLast?.bind (·.lookup b!"DATE")).or (conf.lookup b!"DATE_LAST")
  fileFirst : conf'.lookup b!"FILENAME_FIRST" =
    (rs.head?.bind (·.lookup b!"FILENAME")).or (conf.lookup b!"FILENAME_FIRST")
  fileLast : conf'.lookup b!"FILENAME_LAST" =
    (rs.getLast?.bind (·.lookup b!"FILENAME")).or (conf.lookup b!"FILENAME_LAST")

theorem firstLast_false : ∀ (rs : List Vars) (conf : Vars),
    (firstLast false rs conf).lookup b!"DATE_FIRST" = conf.lookup b!"DATE_FIRST" ∧
    (firstLast false rs conf).lookup b!"FILENAME_FIRST" = conf.lookup b!"FILENAME_FIRST" ∧
    (firstLast false rs conf).lookup b!"DATE_LAST" =
      (rs.getLast?.bind (·.lookup b!"DATE")).or (conf.lookup b!"DATE_LAST") ∧
    (firstLast false rs conf).lookup b!"FILENAME_LAST" =
      (rs.getLast?.bind (·.lookup b!"FILENAME")).or (conf.lookup b!"FILENAME_LAST")
  | [], conf => ⟨rfl, rfl, rfl, rfl⟩
  | [s], conf => by
    simp only [firstLast, List.isEmpty_nil, if_true, Bool.false_eq_true, if_false, List.getLast?_singleton,
      Option.bind_some]
    refine ⟨?_, ?_, ?_, ?_⟩
    · rw [lookup_copyVar _ _ _ _ _ (by decide) (by decide) (by decide),
        lookup_copyVar _ _ _ _ _ (by decide) (by decide) (by decide)]
    · rw [lookup_copyVar _ _ _ _ _ (by decide) (by decide) (by decide),
        lookup_copyVar _ _ _ _ _ (by decide) (by decide) (by decide)]
    · rw [lookup_copyVar _ _ _ _ _ (by decide) (by decide) (by decide), lookup_copyVar_same _ _ _ _ (by decide)]
    · rw [lookup_copyVar_same _ _ _ _ (by decide), lookup_copyVar _ _ _ _ _ (by decide) (by decide) (by decide)]
  | s :: s2 :: l, conf => by
    have ih := firstLast_false (s2 :: l) conf
    rw [firstLast]
    simp only [List.isEmpty_cons, Bool.false_eq_true, if_false, List.getLast?_cons_cons]
    exact ih

theorem firstLast_edges (rs : List Vars) (conf : Vars) : Edges conf (firstLast true rs conf) rs := by
  match rs with
  | [] => exact ⟨rfl, rfl, rfl, rfl⟩
  | [s] =>
    simp only [firstLast, List.isEmpty_nil, if_true]
    refine ⟨?_, ?_, ?_, ?_⟩ <;> simp only [List.head?_cons, List.getLast?_singleton, Option.bind_some]
    · rw [lookup_copyVar _ _ _ _ _ (by decide) (by decide) (by decide),
        lookup_copyVar _ _ _ _ _ (by decide) (by decide) (by decide),
        lookup_copyVar _ _ _ _ _ (by decide) (by decide) (by decide), lookup_copyVar_same _ _ _ _ (by decide)]
    · rw [lookup_copyVar _ _ _ _ _ (by decide) (by decide) (by decide), lookup_copyVar_same _ _ _ _ (by decide),
        lookup_copyVar _ _ _ _ _ (by decide) (by decide) (by decide),
        lookup_copyVar _ _ _ _ _ (by decide) (by decide) (by decide)]
    · rw [lookup_copyVar _ _ _ _ _ (by decide) (by decide) (by decide),
        lookup_copyVar _ _ _ _ _ (by decide) (by decide) (by decide), lookup_copyVar_same _ _ _ _ (by decide),
        lookup_copyVar _ _ _ _ _ (by decide) (by decide) (by decide)]
    · rw [lookup_copyVar_same _ _ _ _ (by decide), lookup_copyVar _ _ _ _ _ (by decide) (by decide) (by decide),
        lookup_copyVar _ _ _ _ _ (by decide) (by decide) (by decide),
        lookup_copyVar _ _ _ _ _ (by decide) (by decide) (by decide)]
  | s :: s2 :: l =>
    rw [firstLast]
    simp only [List.isEmpty_cons, if_true, Bool.false_eq_true, if_false]
    obtain ⟨h1, h2, h3, h4⟩ := firstLast_false (s2 :: l)
      (copyVar (copyVar conf s b!"DATE" b!"DATE_FIRST") s b!"FILENAME" b!"FILENAME_FIRST")
    refine ⟨?_, ?_, ?_, ?_⟩ <;> simp only [List.head?_cons, List.getLast?_cons_cons, Option.bind_some]
    · rw [h1, lookup_copyVar _ _ _ _ _ (by decide) (by decide) (by decide), lookup_copyVar_same _ _ _ _ (by decide)]
    · rw [h3, lookup_copyVar _ _ _ _ _ (by decide) (by decide) (by decide),
        lookup_copyVar _ _ _ _ _ (by decide) (by decide) (by decide)]
    · rw [h2, lookup_copyVar_same _ _ _ _ (by decide), lookup_copyVar _ _ _ _ _ (by decide) (by decide) (by decide)]
    · rw [h4, lookup_copyVar _ _ _ _ _ (by decide) (by decide) (by decide),
        lookup_copyVar _ _ _ _ _ (by decide) (by decide) (by decide)]

def pageNames : List Str :=
  [b!"CURRENT_PAGE", b!"PREVIOUS_PAGE", b!"NEXT_PAGE", b!"FIRST_PAGE", b!"LAST_PAGE"]

theorem pageVars_elsewhere (conf conf' : Vars) (page perPage counter : Nat) (e : Bool) (k : Str) (hk : NulFree k)
    (h : k ∉ pageNames) (hp : pageVars conf page perPage counter e = .ok conf') :
    conf'.lookup k = conf.lookup k := by
  simp only [pageNames, List.mem_cons, List.not_mem_nil, or_false, not_or] at h
  obtain ⟨h1, h2, h3, h4, h5⟩ := h
  have s : ∀ (t : Vars) (n v : Str), NulFree n → k ≠ n → (set t n v).lookup k = t.lookup k := fun t n v hn hne => by
    rw [lookup_set _ _ _ _ hn hk, if_neg hne]
  have u : ∀ (c : Prop) [Decidable c] (t : Vars) (n v : Str), NulFree n → k ≠ n →
      (if c then set t n v else t).lookup k = t.lookup k := by
    intro c _ t n v hn hne
    by_cases hc : c
    · rw [if_pos hc, s t n v hn hne]
    · rw [if_neg hc]
  have u' : ∀ (c : Prop) [Decidable c] (t : Vars) (n v : Str), NulFree n → k ≠ n →
      (if c then t else set t n v).lookup k = t.lookup k := by
    intro c _ t n v hn hne
    by_cases hc : c
    · rw [if_pos hc]
    · rw [if_neg hc, s t n v hn hne]
  cases hl : lastPage counter perPage with
  | ub => simp [pageVars, hl] at hp
  | ok last =>
    simp only [pageVars, hl, Res.bind_ok, Res.pure_eq, Res.ok.injEq] at hp
    rw [← hp, u _ _ _ _ (by decide) h5, u' _ _ _ _ (by decide) h4, u _ _ _ _ (by decide) h3,
      u _ _ _ _ (by decide) h2, s _ _ _ (by decide) h1]

theorem select_edges (conf conf' : Vars) (sources rs : List Vars) (h : select conf sources = .ok (rs, conf')) :
    Edges conf conf' rs := by
  unfold select at h
  simp only at h
  split at h
  · cases h
  split at h
  · cases hp : pageVars (firstLast true (pageLoop (conf.lookup b!"FILTER_TAG")
        (conf.lookup b!"FILTER_PAGE").isSome ((pageOf (conf.lookup b!"FILTER_PAGE") - 1) *
          perPageOf (conf.lookup b!"FILTER_PER_PAGE")) ((pageOf (conf.lookup b!"FILTER_PAGE") - 1) *
          perPageOf (conf.lookup b!"FILTER_PER_PAGE") + perPageOf (conf.lookup b!"FILTER_PER_PAGE")) sources 0).1
          conf) (pageOf (conf.lookup b!"FILTER_PAGE")) (perPageOf (conf.lookup b!"FILTER_PER_PAGE"))
        (pageLoop (conf.lookup b!"FILTER_TAG")
        (conf.lookup b!"FILTER_PAGE").isSome ((pageOf (conf.lookup b!"FILTER_PAGE") - 1) *
          perPageOf (conf.lookup b!"FILTER_PER_PAGE")) ((pageOf (conf.lookup b!"FILTER_PAGE") - 1) *
          perPageOf (conf.lookup b!"FILTER_PER_PAGE") + perPageOf (conf.lookup b!"FILTER_PER_PAGE")) sources 0).2
        (pageLoop (conf.lookup b!"FILTER_TAG")
        (conf.lookup b!"FILTER_PAGE").isSome ((pageOf (conf.lookup b!"FILTER_PAGE") - 1) *
          perPageOf (conf.lookup b!"FILTER_PER_PAGE")) ((pageOf (conf.lookup b!"FILTER_PAGE") - 1) *
          perPageOf (conf.lookup b!"FILTER_PER_PAGE") + perPageOf (conf.lookup b!"FILTER_PER_PAGE")) sources 0).1.isEmpty with
    | ub => rw [hp] at h; cases h
    | ok c =>
      rw [hp] at h
      simp only [Res.bind_ok, Res.pure_eq, Res.ok.injEq, Prod.mk.injEq] at h
      obtain ⟨rfl, rfl⟩ := h
      have e := firstLast_edges (pageLoop (conf.lookup b!"FILTER_TAG")
        (conf.lookup b!"FILTER_PAGE").isSome ((pageOf (conf.lookup b!"FILTER_PAGE") - 1) *
          perPageOf (conf.lookup b!"FILTER_PER_PAGE")) ((pageOf (conf.lookup b!"FILTER_PAGE") - 1) *
          perPageOf (conf.lookup b!"FILTER_PER_PAGE") + perPageOf (conf.lookup b!"FILTER_PER_PAGE")) sources 0).1 conf
      have q : ∀ k, NulFree k → k ∉ pageNames → c.lookup k = _ := fun k hk hn =>
        pageVars_elsewhere _ c _ _ _ _ k hk hn hp
      refine ⟨?_, ?_, ?_, ?_⟩
      · rw [q _ (by decide) (by decide)]; exact e.dateFirst
      · rw [q _ (by decide) (by decide)]; exact e.dateLast
      · rw [q _ (by decide) (by decide)]; exact e.fileFirst
      · rw [q _ (by decide) (by decide)]; exact e.fileLast
  · cases h
    exact firstLast_edges _ conf

/-- Whenever a listing is loaded, the date and file name variables are those of its first and of its last
entry. -/
theorem edges (env : Env) (conf conf' : Vars) (files : List Str) (rs : List Vars)
    (h : fromFiles env conf files = .ok (some (rs, conf'))) : Edges conf conf' rs := by
  unfold fromFiles at h
  simp only at h
  split at h
  · cases h
  split at h
  · cases h
  rename_i sources withDate _ _
  cases ho : order (strToBool (conf.lookup b!"FILTER_SORT")) (strToBool (conf.lookup b!"FILTER_REVERSE")) sources with
  | ub => rw [ho] at h; cases h
  | ok srcs =>
    rw [ho] at h
    cases hs : select conf srcs with
    | ub => simp [hs] at h
    | ok r =>
      simp only [hs, Res.bind_ok, Res.pure_eq, Res.ok.injEq, Option.some.injEq] at h
      subst h
      exact select_edges conf conf' srcs rs hs

theorem loadLoop_count (env : Env) (md : Option Str) (sort : Bool) (src : Str → Vars) :
    ∀ files : List Str, (∀ f ∈ files, env.parse md f = some (src f)) → ∀ rs n,
      loadLoop env md sort files = some (rs, n) →
      n = (files.filter fun f => ((src f).lookup b!"DATE").isSome).length
  | [], _, rs, n, h => by
    simp only [loadLoop, Option.some.injEq, Prod.mk.injEq] at h
    rw [← h.2]; rfl
  | f :: l, hs, rs, n, h => by
    rw [loadLoop, hs f (by simp)] at h
    simp only at h
    split at h
    · rename_i rest k _ hl
      have ih := loadLoop_count env md sort src l (fun g hg => hs g (List.mem_cons_of_mem _ hg)) _ _ hl
      simp only [Option.some.injEq, Prod.mk.injEq] at h
      rw [← h.2, ih, List.filter_cons]
      split <;> simp [Nat.add_comm]
    · cases h

/-- Sources are accepted only if all of them have a date, or none. -/
theorem dates (env : Env) (conf conf' : Vars) (files : List Str) (rs : List Vars) (src : Str → Vars)
    (hs : ∀ f ∈ files, env.parse (conf.lookup b!"TOCTREE_MAXDEPTH") f = some (src f))
    (h : fromFiles env conf files = .ok (some (rs, conf'))) :
    (∀ f ∈ files, (src f).lookup b!"DATE" ≠ none) ∨ (∀ f ∈ files, (src f).lookup b!"DATE" = none) := by
  unfold fromFiles at h
  simp only at h
  split at h
  · cases h
  split at h
  · cases h
  rename_i sources n hl hn
  have hc := loadLoop_count env _ _ src files hs _ _ hl
  by_cases h0 : n = 0
  · right
    rw [h0, eq_comm, List.length_eq_zero_iff, List.filter_eq_nil_iff] at hc
    intro f hf
    simpa using hc f hf
  · left
    have hle : n ≤ files.length := by rw [hc]; exact List.length_filter_le _ _
    have he : n = files.length := by omega
    rw [he] at hc
    have := List.length_filter_eq_length_iff.1 hc.symm
    intro f hf
    have := this f hf
    intro e
    simp [e] at this

theorem loadLoop_plain (env : Env) (md : Option Str) (src : Str → Vars) :
    ∀ files : List Str, (∀ f ∈ files, env.parse md f = some (src f)) →
      ∃ n, loadLoop env md false files = some (files.map src, n)
  | [], _ => ⟨0, rfl⟩
  | f :: l, hs => by
    obtain ⟨n, ih⟩ := loadLoop_plain env md src l fun g hg => hs g (List.mem_cons_of_mem _ hg)
    refine ⟨(if ((src f).lookup b!"DATE").isSome then 1 else 0) + n, ?_⟩
    rw [loadLoop, hs f (by simp), ih]
    rfl

/-- Without sorting, sources that can be loaded are rejected exactly when only some have a date. -/
theorem rejected_iff (env : Env) (conf : Vars) (files : List Str) (src : Str → Vars)
    (hsort : strToBool (conf.lookup b!"FILTER_SORT") = false)
    (hs : ∀ f ∈ files, env.parse (conf.lookup b!"TOCTREE_MAXDEPTH") f = some (src f)) :
    fromFiles env conf files = .ok none ↔
      (∃ f ∈ files, (src f).lookup b!"DATE" ≠ none) ∧ ∃ f ∈ files, (src f).lookup b!"DATE" = none := by
  obtain ⟨n, hl⟩ := loadLoop_plain env (conf.lookup b!"TOCTREE_MAXDEPTH") src files hs
  have hc := loadLoop_count env _ _ src files hs _ _ hl
  have key : (0 < n ∧ n < files.length) ↔
      (∃ f ∈ files, (src f).lookup b!"DATE" ≠ none) ∧ ∃ f ∈ files, (src f).lookup b!"DATE" = none := by
    have a : 0 < n ↔ ∃ f ∈ files, (src f).lookup b!"DATE" ≠ none := by
      rw [hc, List.length_pos_iff_exists_mem]
      simp only [List.mem_filter, Option.isSome_iff_ne_none]
    have b : n < files.length ↔ ∃ f ∈ files, (src f).lookup b!"DATE" = none := by
      rw [hc]
      constructor
      · intro h
        by_contra hne
        have : files.filter (fun f => ((src f).lookup b!"DATE").isSome) = files := by
          rw [List.filter_eq_self]
          intro f hf
          rw [Option.isSome_iff_ne_none]
          exact fun e => hne ⟨f, hf, e⟩
        rw [this] at h
        omega
      · rintro ⟨f, hf, he⟩
        refine Nat.lt_of_le_of_ne (List.length_filter_le _ _) fun e => ?_
        have := List.length_filter_eq_length_iff.1 e f hf
        simp [he] at this
    rw [a, b]
  rw [← key]
  unfold fromFiles
  rw [hsort]
  simp only [hl]
  constructor
  · intro h
    by_contra hn
    rw [if_neg hn] at h
    cases ho : order false (strToBool (conf.lookup b!"FILTER_REVERSE")) (files.map src) with
    | ub => rw [ho] at h; cases h
    | ok r =>
      rw [ho] at h
      cases hs : select conf r with
      | ub => simp [hs] at h
      | ok q => simp [hs] at h
  · intro h
    rw [if_pos h]

/-- Two sources with dates, in the given order. -/
example :
    let src : Str → Vars := fun f => (Trie.inserts [(b!"DATE", b!"d-" ++ f), (b!"FILENAME", f)]).1
    let env : Env := ⟨fun _ f => some (src f), fun _ => none⟩
    ∃ conf', fromFiles env (Trie.inserts []).1 [b!"a", b!"b"] = .ok (some ([src b!"a", src b!"b"], conf')) ∧
      conf'.lookup b!"DATE_FIRST" = some b!"d-a" ∧ conf'.lookup b!"DATE_LAST" = some b!"d-b" ∧
      conf'.lookup b!"FILENAME_LAST" = some b!"b" := ⟨_, rfl, by decide, by decide, by decide⟩

/-- Only one of two sources has a date. -/
example :
    let src : Str → Vars := fun f => if f = b!"a" then (Trie.inserts [(b!"DATE", b!"d")]).1 else (Trie.inserts []).1
    let env : Env := ⟨fun _ f => some (src f), fun _ => none⟩
    fromFiles env (Trie.inserts []).1 [b!"a", b!"b"] = .ok none := rfl

end Blogc.C77
