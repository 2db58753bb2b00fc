import Verif.Lemmas.LoaderCongr
import Verif.Props.C10

/-!
# What the loader lists does not depend on the page size or, in number, on the order
-/

namespace Blogc.Loader

theorem select_unpaged (c : Vars) (hc : c.lookup b!"FILTER_PAGE" = none) (srcs : List Vars) :
    select c srcs = .ok (srcs.filter (tagOk (c.lookup b!"FILTER_TAG")),
      firstLast true (srcs.filter (tagOk (c.lookup b!"FILTER_TAG"))) c) := by
  have hp : pageOf none = 1 := by decide
  unfold select
  rw [hc]
  simp only [hp, Option.isSome_none, pageLoop_all, Bool.false_eq_true, if_false, Nat.sub_self, Nat.zero_mul,
    ge_iff_le, show ¬ (2 ^ 63 ≤ 0) by omega]

/-- Without a page, the page size does not matter. -/
theorem unpaged (env : Env) (c d : Vars) (files : List Str) (l : List Vars) (c' : Vars)
    (hc : c.lookup b!"FILTER_PAGE" = none) (hd : d.lookup b!"FILTER_PAGE" = none)
    (hs : d.lookup b!"FILTER_SORT" = c.lookup b!"FILTER_SORT")
    (hr : d.lookup b!"FILTER_REVERSE" = c.lookup b!"FILTER_REVERSE")
    (ht : d.lookup b!"FILTER_TAG" = c.lookup b!"FILTER_TAG")
    (hm : d.lookup b!"TOCTREE_MAXDEPTH" = c.lookup b!"TOCTREE_MAXDEPTH")
    (h : fromFiles env c files = .ok (some (l, c'))) :
    ∃ d', fromFiles env d files = .ok (some (l, d')) := by
  rcases fromFiles_congr env c d files hs hm hr with ⟨h1, -⟩ | ⟨h1, -⟩ | ⟨srcs, h1, h2⟩
  · rw [h1] at h; simp at h
  · rw [h1] at h; simp at h
  · rw [h1] at h
    rw [h2]
    rw [select_unpaged c hc] at h
    rw [select_unpaged d hd, ht]
    simp only [Res.map, Res.ok.injEq, Option.some.injEq, Prod.mk.injEq] at h ⊢
    exact ⟨_, h.1, rfl⟩

/-- Loading for sorting finds the same files and dates. -/
theorem loadLoop_sorted (env : Env) (md tag : Option Str) (files : List Str) (srcs : List Vars) (k : Nat)
    (h : loadLoop env md true files = some (srcs, k)) :
    ∃ srcs0, loadLoop env md false files = some (srcs0, k) ∧
      srcs.map (tagOk tag) = srcs0.map (tagOk tag) := by
  induction files generalizing srcs k with
  | nil =>
    refine ⟨[], ?_, ?_⟩
    · rw [loadLoop] at h ⊢
      simp only [Option.some.injEq, Prod.mk.injEq] at h ⊢
      exact ⟨trivial, h.2⟩
    · rw [loadLoop] at h
      simp only [Option.some.injEq, Prod.mk.injEq] at h
      rw [← h.1]
  | cons f files ih =>
    rw [loadLoop] at h ⊢
    cases hp : env.parse md f with
    | none => rw [hp] at h; cases h
    | some s =>
      rw [hp] at h
      simp only [if_true] at h
      cases hd : s.lookup b!"DATE" with
      | none => rw [hd] at h; cases h
      | some d =>
        rw [hd] at h
        simp only at h
        cases hs : env.stamp d with
        | none => rw [hs] at h; cases h
        | some ts =>
          rw [hs] at h
          simp only at h
          cases hl : loadLoop env md true files with
          | none => rw [hl] at h; cases h
          | some r =>
            obtain ⟨rest, n⟩ := r
            rw [hl] at h
            simp only [Option.some.injEq, Prod.mk.injEq, Option.isSome_some, if_true] at h
            obtain ⟨rfl, rfl⟩ := h
            obtain ⟨s0, h1, h2⟩ := ih rest n hl
            refine ⟨s :: s0, ?_, ?_⟩
            · rw [h1]
              simp [hd]
            · rw [List.map_cons, List.map_cons, h2]
              congr 1
              unfold tagOk
              rw [lookup_set s b!"c" b!"TAGS" ts (by decide) (by decide), if_neg (by decide)]

theorem order_perm (sort reverse : Bool) (l r : List Vars) (h : order sort reverse l = .ok r) : r.Perm l := by
  unfold order at h
  cases sort with
  | true =>
    simp only [if_true] at h
    obtain ⟨r', h1, h2⟩ := C10.sort_safe (fun _ => if reverse then sortSourceReverse else sortSource) l
      (l.length + 1) (by omega)
    rw [h1] at h
    simp only [Res.ok.injEq] at h
    rw [← h]
    exact h2
  | false =>
    cases reverse with
    | true =>
      simp only [Bool.false_eq_true, if_false, if_true, Res.ok.injEq] at h
      rw [← h]
      exact List.reverse_perm l
    | false =>
      simp only [Bool.false_eq_true, if_false, Res.ok.injEq] at h
      rw [← h]

/-- The number of entries does not depend on the order. -/
theorem count_same (env : Env) (c d : Vars) (files : List Str) (l : List Vars) (c' : Vars)
    (hc : c.lookup b!"FILTER_PAGE" = none) (hd : d.lookup b!"FILTER_PAGE" = none)
    (hs : strToBool (d.lookup b!"FILTER_SORT") = false) (hr : strToBool (d.lookup b!"FILTER_REVERSE") = false)
    (ht : d.lookup b!"FILTER_TAG" = c.lookup b!"FILTER_TAG")
    (hm : d.lookup b!"TOCTREE_MAXDEPTH" = c.lookup b!"TOCTREE_MAXDEPTH")
    (h : fromFiles env c files = .ok (some (l, c'))) :
    ∃ l0 d', fromFiles env d files = .ok (some (l0, d')) ∧ l0.length = l.length := by
  unfold fromFiles at h ⊢
  rw [hs, hr, hm]
  simp only at h ⊢
  generalize c.lookup b!"TOCTREE_MAXDEPTH" = md at h ⊢
  cases hl : loadLoop env md (strToBool (c.lookup b!"FILTER_SORT")) files with
  | none => rw [hl] at h; cases h
  | some r =>
    obtain ⟨srcs, k⟩ := r
    rw [hl] at h
    simp only at h
    obtain ⟨srcs0, h1, h2⟩ : ∃ srcs0, loadLoop env md false files = some (srcs0, k) ∧
        srcs.map (tagOk (c.lookup b!"FILTER_TAG")) = srcs0.map (tagOk (c.lookup b!"FILTER_TAG")) := by
      cases hb : strToBool (c.lookup b!"FILTER_SORT") with
      | false => rw [hb] at hl; exact ⟨srcs, hl, rfl⟩
      | true => rw [hb] at hl; exact loadLoop_sorted env md _ files srcs k hl
    rw [h1]
    simp only
    split at h
    · cases h
    · rename_i hk
      rw [if_neg hk]
      cases ho : order (strToBool (c.lookup b!"FILTER_SORT")) (strToBool (c.lookup b!"FILTER_REVERSE")) srcs with
      | ub => rw [ho] at h; cases h
      | ok rs =>
        rw [ho] at h
        have hperm := order_perm _ _ _ _ ho
        have ho0 : order false false srcs0 = .ok srcs0 := rfl
        rw [ho0]
        simp only [Res.bind_ok, Res.pure_eq] at h ⊢
        rw [select_unpaged c hc] at h
        rw [select_unpaged d hd, ht]
        simp only [Res.bind_ok, Res.ok.injEq, Option.some.injEq, Prod.mk.injEq] at h ⊢
        refine ⟨_, _, ⟨rfl, rfl⟩, ?_⟩
        rw [← h.1, (hperm.filter _).length_eq]
        have key : ∀ (a b : List Vars) (f : Vars → Bool), a.map f = b.map f →
            (b.filter f).length = (a.filter f).length := by
          intro a b f e
          rw [← List.countP_eq_length_filter, ← List.countP_eq_length_filter]
          have := congrArg (List.countP id) e
          rw [List.countP_map, List.countP_map] at this
          exact this.symm
        exact key _ _ _ h2

end Blogc.Loader
