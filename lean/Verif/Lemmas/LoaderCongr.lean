import Verif.Lemmas.Loader

/-!
# The loader depends on few of the variables
-/

namespace Blogc.Loader

open Blogc

/-- Two tables of variables ask for the same. -/
structure Same (c d : Vars) : Prop where
  sort : strToBool (c.lookup b!"FILTER_SORT") = strToBool (d.lookup b!"FILTER_SORT")
  reverse : strToBool (c.lookup b!"FILTER_REVERSE") = strToBool (d.lookup b!"FILTER_REVERSE")
  depth : c.lookup b!"TOCTREE_MAXDEPTH" = d.lookup b!"TOCTREE_MAXDEPTH"
  tag : c.lookup b!"FILTER_TAG" = d.lookup b!"FILTER_TAG"
  paged : (c.lookup b!"FILTER_PAGE").isSome = (d.lookup b!"FILTER_PAGE").isSome
  page : pageOf (c.lookup b!"FILTER_PAGE") = pageOf (d.lookup b!"FILTER_PAGE")
  perPage : perPageOf (c.lookup b!"FILTER_PER_PAGE") = perPageOf (d.lookup b!"FILTER_PER_PAGE")

/-- Two tables agree on the variables `P`. -/
def Agree (P : Str → Prop) (c d : Vars) : Prop := ∀ k, NulFree k → P k → c.lookup k = d.lookup k

theorem agree_set {P : Str → Prop} {c d : Vars} (h : Agree P c d) (k v : Str) (hk : NulFree k) :
    Agree P (set c k v) (set d k v) := by
  intro k' hk' hp
  rw [lookup_set c k k' v hk hk', lookup_set d k k' v hk hk', h k' hk' hp]

theorem agree_copyVar {P : Str → Prop} {c d : Vars} (h : Agree P c d) (s : Vars) (src dst : Str)
    (hk : NulFree dst) : Agree P (copyVar c s src dst) (copyVar d s src dst) := by
  unfold copyVar
  split
  · exact agree_set h _ _ hk
  · exact h

theorem agree_firstLast {P : Str → Prop} (first : Bool) (l : List Vars) {c d : Vars} (h : Agree P c d) :
    Agree P (firstLast first l c) (firstLast first l d) := by
  induction l generalizing first c d with
  | nil => exact h
  | cons s l ih =>
    rw [firstLast, firstLast]
    apply ih
    have h1 : ∀ b : Bool, Agree P
        (if b then copyVar (copyVar c s b!"DATE" b!"DATE_FIRST") s b!"FILENAME" b!"FILENAME_FIRST" else c)
        (if b then copyVar (copyVar d s b!"DATE" b!"DATE_FIRST") s b!"FILENAME" b!"FILENAME_FIRST" else d) := by
      intro b
      cases b
      · exact h
      · exact agree_copyVar (agree_copyVar h _ _ _ (by decide)) _ _ _ (by decide)
    cases l.isEmpty
    · exact h1 first
    · exact agree_copyVar (agree_copyVar (h1 first) _ _ _ (by decide)) _ _ _ (by decide)

/-- Outcomes are alike. -/
def AlikeVars (P : Str → Prop) : Res Vars → Res Vars → Prop
  | .ub, .ub => True
  | .ok c, .ok d => Agree P c d
  | _, _ => False

def Alike (P : Str → Prop) : Res (List Vars × Vars) → Res (List Vars × Vars) → Prop
  | .ub, .ub => True
  | .ok a, .ok b => a.1 = b.1 ∧ Agree P a.2 b.2
  | _, _ => False

def AlikeAll (P : Str → Prop) : Res (Option (List Vars × Vars)) → Res (Option (List Vars × Vars)) → Prop
  | .ub, .ub => True
  | .ok none, .ok none => True
  | .ok (some a), .ok (some b) => a.1 = b.1 ∧ Agree P a.2 b.2
  | _, _ => False

theorem agree_ite {P : Str → Prop} {c d : Vars} (h : Agree P c d) (b : Prop) [Decidable b] (k v : Str)
    (hk : NulFree k) : Agree P (if b then set c k v else c) (if b then set d k v else d) := by
  split
  · exact agree_set h k v hk
  · exact h

theorem agree_ite' {P : Str → Prop} {c d : Vars} (h : Agree P c d) (b : Bool) (k v : Str)
    (hk : NulFree k) : Agree P (if b then c else set c k v) (if b then d else set d k v) := by
  split
  · exact h
  · exact agree_set h k v hk

theorem alike_pageVars {P : Str → Prop} {c d : Vars} (h : Agree P c d) (page perPage counter : Nat) (e : Bool) :
    AlikeVars P (pageVars c page perPage counter e) (pageVars d page perPage counter e) := by
  unfold pageVars
  cases lastPage counter perPage with
  | ub => trivial
  | ok last =>
    exact agree_ite (agree_ite' (agree_ite (agree_ite (agree_set h _ _ (by decide)) _ _ _ (by decide))
      _ _ _ (by decide)) _ _ _ (by decide)) _ _ _ (by decide)

theorem alike_select {P : Str → Prop} {c d : Vars} (hs : Same c d) (h : Agree P c d) (l : List Vars) :
    Alike P (select c l) (select d l) := by
  unfold select
  simp only [hs.tag, hs.paged, hs.page, hs.perPage]
  split
  · trivial
  · split
    · have := alike_pageVars (agree_firstLast true (pageLoop (d.lookup b!"FILTER_TAG")
          (d.lookup b!"FILTER_PAGE").isSome ((pageOf (d.lookup b!"FILTER_PAGE") - 1) *
            perPageOf (d.lookup b!"FILTER_PER_PAGE")) ((pageOf (d.lookup b!"FILTER_PAGE") - 1) *
            perPageOf (d.lookup b!"FILTER_PER_PAGE") + perPageOf (d.lookup b!"FILTER_PER_PAGE")) l 0).1 h)
        (pageOf (d.lookup b!"FILTER_PAGE")) (perPageOf (d.lookup b!"FILTER_PER_PAGE"))
        (pageLoop (d.lookup b!"FILTER_TAG")
          (d.lookup b!"FILTER_PAGE").isSome ((pageOf (d.lookup b!"FILTER_PAGE") - 1) *
            perPageOf (d.lookup b!"FILTER_PER_PAGE")) ((pageOf (d.lookup b!"FILTER_PAGE") - 1) *
            perPageOf (d.lookup b!"FILTER_PER_PAGE") + perPageOf (d.lookup b!"FILTER_PER_PAGE")) l 0).2
        (pageLoop (d.lookup b!"FILTER_TAG")
          (d.lookup b!"FILTER_PAGE").isSome ((pageOf (d.lookup b!"FILTER_PAGE") - 1) *
            perPageOf (d.lookup b!"FILTER_PER_PAGE")) ((pageOf (d.lookup b!"FILTER_PAGE") - 1) *
            perPageOf (d.lookup b!"FILTER_PER_PAGE") + perPageOf (d.lookup b!"FILTER_PER_PAGE")) l 0).1.isEmpty
      revert this
      generalize pageVars (firstLast true _ c) _ _ _ _ = a
      generalize pageVars (firstLast true _ d) _ _ _ _ = b
      intro this
      cases a <;> cases b
      · exact ⟨rfl, this⟩
      · exact this.elim
      · exact this.elim
      · trivial
    · exact ⟨rfl, agree_firstLast true _ h⟩

/-- Tables that ask for the same give the same entries, and agree afterwards where
they agreed before. -/
theorem fromFiles_alike {P : Str → Prop} (env : Env) {c d : Vars} (hs : Same c d) (h : Agree P c d)
    (files : List Str) : AlikeAll P (fromFiles env c files) (fromFiles env d files) := by
  unfold fromFiles
  simp only [hs.sort, hs.reverse, hs.depth]
  cases loadLoop env (d.lookup b!"TOCTREE_MAXDEPTH") (strToBool (d.lookup b!"FILTER_SORT")) files with
  | none => trivial
  | some r =>
    obtain ⟨sources, n⟩ := r
    simp only
    split
    · trivial
    · cases order (strToBool (d.lookup b!"FILTER_SORT")) (strToBool (d.lookup b!"FILTER_REVERSE")) sources with
      | ub => trivial
      | ok l =>
        have := alike_select hs h l
        show AlikeAll P ((select c l).bind fun r => .ok (some r)) ((select d l).bind fun r => .ok (some r))
        revert this
        generalize select c l = a
        generalize select d l = b
        intro this
        cases a <;> cases b
        · exact this
        · exact this.elim
        · exact this.elim
        · trivial

/-- The entries for one table are the entries for the other. -/
theorem fromFiles_same (env : Env) {c d : Vars} (hs : Same c d) (files : List Str) (l : List Vars) (c' : Vars)
    (h : fromFiles env c files = .ok (some (l, c'))) : ∃ d', fromFiles env d files = .ok (some (l, d')) ∧
      ∀ k, NulFree k → c.lookup k = d.lookup k → c'.lookup k = d'.lookup k := by
  have := fromFiles_alike (P := fun k => c.lookup k = d.lookup k) env hs (fun _ _ h => h) files
  rw [h] at this
  revert this
  generalize fromFiles env d files = r
  intro this
  match r, this with
  | .ok (some (l', d')), this =>
    obtain ⟨rfl, h2⟩ := this
    exact ⟨d', rfl, h2⟩

end Blogc.Loader
