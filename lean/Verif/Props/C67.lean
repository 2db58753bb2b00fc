import Verif.Props.C53

/-!
# C67: pages of tags are built for their own tag and number
-/

namespace Blogc.C67

open Blogc Blogc.Make

theorem findPage_none (name : Nat → Option Str) (path : Str) (fuel k : Nat)
    (h : ∀ i, name i ≠ some path) : findPage name path fuel k = none := by
  induction fuel generalizing k with
  | zero => rfl
  | succ f ih => rw [findPage, if_neg (h k), ih]

theorem findPage_some (name : Nat → Option Str) (path : Str) (n : Nat)
    (h : ∀ i, name i = some path ↔ i = n) (fuel k : Nat) (h1 : k ≤ n) (h2 : n < k + fuel) :
    findPage name path fuel k = some n := by
  induction fuel generalizing k with
  | zero => omega
  | succ f ih =>
    rw [findPage]
    by_cases hk : k = n
    · rw [if_pos ((h k).2 hk), hk]
    · rw [if_neg (fun hp => hk ((h k).1 hp))]
      exact ih (k + 1) (by omega) (by omega)

theorem pages_le_count (name : Str → Nat → Option Str) (pages : Str → Nat) (tags : List Str) (tag : Str)
    (h : tag ∈ tags) : pages tag ≤ (tagOutputs name pages tags).length := by
  induction tags with
  | nil => simp at h
  | cons t l ih =>
    simp only [tagOutputs, List.length_append, List.length_map, List.length_range]
    rcases List.mem_cons.1 h with rfl | h
    · omega
    · have := ih h; omega

/-- The property: for page `n` of a tag, the tag and the number found from the
name of the output are these. -/
theorem found (dir : Str) (g tagPre pagPre ext : Option Str) (tags : List Str) (pages : Str → Nat)
    (hne : ∀ t ∈ tags, t ≠ []) (tag : Str) (ht : tag ∈ tags) (n : Nat) (h1 : 1 ≤ n) (h2 : n ≤ pages tag)
    (path : Str) (hp : tagPage (some dir) g tagPre pagPre ext tag n = some path) :
    findTagPage (tagPage (some dir) g tagPre pagPre ext)
      (tagOutputs (tagPage (some dir) g tagPre pagPre ext) pages tags).length path tags = some (tag, n) := by
  have hc := pages_le_count (tagPage (some dir) g tagPre pagPre ext) pages tags tag ht
  generalize (tagOutputs (tagPage (some dir) g tagPre pagPre ext) pages tags).length = count at hc
  induction tags with
  | nil => simp at ht
  | cons t l ih =>
    rw [findTagPage]
    by_cases hte : t = tag
    · subst hte
      have hn := hne t (by simp)
      rw [findPage_some _ _ n (fun i => ?_) count 1 h1 (by omega)]
      rw [← hp, C53.tag_pages_distinct _ _ _ _ _ _ _ _ _ hn hn]
      simp
    · have hn := hne t (by simp)
      have hn' := hne tag ht
      rw [findPage_none _ _ _ _ (fun i hi => ?_)]
      · refine ih (fun t' h' => hne t' (by simp [h'])) ?_
        rcases List.mem_cons.1 ht with h | h
        · exact absurd h.symm hte
        · exact h
      · rw [← hp, C53.tag_pages_distinct _ _ _ _ _ _ _ _ _ hn hn'] at hi
        exact hte hi.1

/-- Every output of the rule has a tag: none is skipped. -/
theorem never_skipped (dir : Str) (g tagPre pagPre ext : Option Str) (tags : List Str) (pages : Str → Nat)
    (hne : ∀ t ∈ tags, t ≠ []) (o : Option Str)
    (ho : o ∈ tagOutputs (tagPage (some dir) g tagPre pagPre ext) pages tags) :
    ∃ path tag n, o = some path ∧ tag ∈ tags ∧ 1 ≤ n ∧ n ≤ pages tag ∧
      findTagPage (tagPage (some dir) g tagPre pagPre ext)
        (tagOutputs (tagPage (some dir) g tagPre pagPre ext) pages tags).length path tags = some (tag, n) := by
  have key : ∀ l : List Str, o ∈ tagOutputs (tagPage (some dir) g tagPre pagPre ext) pages l →
      ∃ tag ∈ l, ∃ n, 1 ≤ n ∧ n ≤ pages tag ∧ o = tagPage (some dir) g tagPre pagPre ext tag n := by
    intro l
    induction l with
    | nil => intro h; simp [tagOutputs] at h
    | cons t l ih =>
      intro h
      simp only [tagOutputs, List.mem_append, List.mem_map, List.mem_range] at h
      rcases h with ⟨i, hi, rfl⟩ | h
      · exact ⟨t, by simp, i + 1, by omega, by omega, rfl⟩
      · obtain ⟨tag, h1, n, h2⟩ := ih h
        exact ⟨tag, by simp [h1], n, h2⟩
  obtain ⟨tag, h1, n, h2, h3, h4⟩ := key tags ho
  have hp := C53.tagPage_eq dir g tagPre pagPre ext tag n (hne tag h1)
  exact ⟨_, tag, n, h4.trans hp, h1, h2, h3,
    found dir g tagPre pagPre ext tags pages hne tag h1 n h2 h3 _ hp⟩

/-! A sample: without a pagination prefix, page 1 of tag `a/1` is not mistaken
for a page of tag `a`. -/

example : findTagPage (tagPage (some b!"_build") none (some b!"tag") none (some b!".html")) 3
    b!"_build/tag/a/1/1.html" [b!"a", b!"a/1"] = some (b!"a/1", 1) := by decide

end Blogc.C67
