import Verif.Lemmas.Loader

/-!
# C30: the tag filter
-/

namespace Blogc.C30

open Blogc Blogc.Loader Blogc.Spec.Entries

/-- An entry carries a tag: its TAGS variable lists it. -/
def HasTag (tag : Str) (s : Vars) : Prop := ∃ tags, s.lookup b!"TAGS" = some tags ∧ Word tag tags

theorem tagOk_iff (tag : Str) (s : Vars) : tagOk (some tag) s = true ↔ HasTag tag s := by
  unfold HasTag tagOk
  cases h : s.lookup b!"TAGS" with
  | none => simp
  | some tags =>
    simp only [Option.some.injEq, exists_eq_left', List.any_eq_true, Bool.and_eq_true,
      Bool.not_eq_true', List.isEmpty_eq_false_iff, beq_iff_eq, Word]
    constructor
    · rintro ⟨t, ht, hne, rfl⟩
      exact ⟨hne, (mem_split _ _ _ hne).1 ht⟩
    · rintro ⟨hne, h⟩
      exact ⟨tag, (mem_split _ _ _ hne).2 h, hne, rfl⟩

open scoped Classical in
/-- If loading without a tag filter gives the entries `all`, then loading the
same files with the tag filter gives exactly the entries that carry the tag, in
the same order. -/
theorem filter_exact (env : Env) (conf : Vars) (files : List Str) (all : List Vars) (conf' : Vars)
    (tag : Str) (hp : conf.lookup b!"FILTER_PAGE" = none) (ht : conf.lookup b!"FILTER_TAG" = none)
    (h : fromFiles env conf files = .ok (some (all, conf'))) :
    ∃ conf'', fromFiles env (set conf b!"FILTER_TAG" tag) files =
      .ok (some (all.filter (fun s => decide (HasTag tag s)), conf'')) := by
  have n0 : NulFree b!"FILTER_TAG" := by decide
  have lk : ∀ k, NulFree k → k ≠ b!"FILTER_TAG" →
      (set conf b!"FILTER_TAG" tag).lookup k = conf.lookup k := by
    intro k hk hne
    rw [lookup_set _ _ _ _ n0 hk, if_neg hne]
  have lt : (set conf b!"FILTER_TAG" tag).lookup b!"FILTER_TAG" = some tag := by
    rw [lookup_set _ _ _ _ n0 n0, if_pos rfl]
  rcases fromFiles_congr env conf (set conf b!"FILTER_TAG" tag) files
    (lk _ (by decide) (by decide)) (lk _ (by decide) (by decide)) (lk _ (by decide) (by decide))
    with ⟨h1, -⟩ | ⟨h1, -⟩ | ⟨srcs, h1, h2⟩
  · rw [h1] at h; simp at h
  · rw [h1] at h; simp at h
  rw [h1] at h
  rw [h2]
  have hp' := lk b!"FILTER_PAGE" (by decide) (by decide)
  have hpp' := lk b!"FILTER_PER_PAGE" (by decide) (by decide)
  unfold select at h ⊢
  rw [lt, hp', hpp', hp] 
  rw [hp, ht] at h
  simp only [Option.isSome_none, pageLoop_all, Bool.false_eq_true, if_false] at h ⊢
  split at h
  · simp at h
  · rename_i hov
    rw [if_neg hov]
    simp only [Res.map, Res.ok.injEq, Option.some.injEq, Prod.mk.injEq] at h
    have hall : all = srcs := by
      rw [← h.1]
      simp [tagOk]
    subst hall
    have hf : all.filter (fun s => decide (HasTag tag s)) = all.filter (tagOk (some tag)) := by
      apply List.filter_congr
      intro s _
      rw [← tagOk_iff]
      simp
    rw [hf]
    exact ⟨_, rfl⟩

/-- Two sources, one of them tagged `b`. -/
def sampleEnv : Env where
  parse := fun _ f =>
    if f = b!"x" then some (Trie.inserts [(b!"TAGS", b!"a b"), (b!"FILENAME", b!"x")]).1
    else some (Trie.inserts [(b!"TAGS", b!"ab")]).1
  stamp := fun _ => none

example : (match fromFiles sampleEnv (Trie.inserts [(b!"FILTER_TAG", b!"b")]).1 [b!"y", b!"x", b!"y"] with
    | .ok (some (l, _)) => l.map (·.lookup b!"TAGS")
    | _ => []) = [some b!"a b"] := by decide

example : (Trie.nil : Vars).lookup b!"FILTER_PAGE" = none ∧
    ∃ l c, fromFiles sampleEnv .nil [b!"y", b!"x", b!"y"] = .ok (some (l, c)) ∧ l.length = 3 :=
  ⟨rfl, _, _, rfl, rfl⟩

end Blogc.C30
