import Verif.Model.Trie
import Mathlib.Data.List.Perm.Basic
import Mathlib.Data.List.Nodup
import Mathlib.Data.List.Dedup

namespace Blogc.Trie

variable {α : Type u}

theorem keyByte_eq_zero (k : Str) (h : NulFree k) : keyByte k = 0 ↔ k = [] := by
  cases k with
  | nil => simp [keyByte]
  | cons c r =>
    have : c ≠ 0 := h c (by simp)
    simp [keyByte, this]

theorem nulFree_tail {c : Byte} {r : Str} (h : NulFree (c :: r)) : NulFree r :=
  fun x hx => h x (by simp [hx])

theorem lookup_chain (key k : Str) (d : α) (hk : NulFree key) (hk' : NulFree k) :
    lookup (chain key d) k = if k = key then some d else none := by
  induction key generalizing k with
  | nil =>
    simp only [chain, lookup]
    have := keyByte_eq_zero k hk'
    by_cases h : k = []
    · simp [h, keyByte]
    · rw [if_neg (fun e => h (this.1 e.symm)), if_neg h]
  | cons c r ih =>
    have hc : c ≠ 0 := hk c (by simp)
    cases k with
    | nil => simp [chain, lookup, keyByte, hc]
    | cons c' r' =>
      simp only [chain, lookup, keyByte]
      by_cases h : c = c'
      · subst h
        simp [hc, ih r' (nulFree_tail hk) (nulFree_tail hk')]
      · simp [h, Ne.symm h]

/-- Insertion is a point update of the lookup function. -/
theorem lookup_insert (t : Trie α) (key k : Str) (d : α) (hk : NulFree key) (hk' : NulFree k) :
    lookup (insert t key d).1 k = if k = key then some d else lookup t k := by
  induction t generalizing key k with
  | nil => rw [insert, lookup_chain key k d hk hk']; simp [lookup]
  | node b dat nx ch ihn ihc =>
    simp only [insert]
    by_cases hb : b = keyByte key
    · rw [if_pos hb]
      cases key with
      | nil =>
        have hb0 : b = 0 := hb
        subst hb0
        simp only [lookup]
        have := keyByte_eq_zero k hk'
        by_cases h : k = []
        · simp [h, keyByte]
        · rw [if_neg (fun e => h (this.1 e.symm)), if_neg h, if_neg (fun e => h (this.1 e.symm))]
      | cons c r =>
        have hc : c ≠ 0 := hk c (by simp)
        have hbc : b = c := hb
        subst hbc
        cases k with
        | nil => simp [lookup, keyByte, hc]
        | cons c' r' =>
          simp only [lookup, keyByte]
          by_cases h : b = c'
          · subst h
            simp [hc, ihc r r' (nulFree_tail hk) (nulFree_tail hk')]
          · simp [h, Ne.symm h]
    · rw [if_neg hb]
      simp only [lookup]
      by_cases h : b = keyByte k
      · have hne : k ≠ key := fun e => hb (e ▸ h)
        rw [if_pos h, if_pos h, if_neg hne]
      · rw [if_neg h, if_neg h, ihn key k hk hk']

theorem free_chain (key : Str) (d : α) : free (chain key d) = [d] := by
  induction key with
  | nil => rfl
  | cons c r ih => simp [chain, free, ih]

/-- One insertion neither loses nor duplicates a value. -/
theorem insert_ledger (t : Trie α) (key : Str) (d : α) :
    ((insert t key d).2 ++ free (insert t key d).1).Perm (d :: free t) := by
  induction t generalizing key with
  | nil => simp [insert, free_chain, free]
  | node b dat nx ch ihn ihc =>
    simp only [insert]
    split
    · cases key with
      | nil =>
        cases dat with
        | none => simp [free]
        | some o =>
          simp only [free, Option.toList]
          exact List.Perm.swap _ _ _
      | cons c r =>
        simp only [free]
        have h := ihc r
        have h1 := (List.perm_append_comm (l₁ := (insert ch r d).2)
          (l₂ := dat.toList ++ free nx)).append_right (free (insert ch r d).1)
        have h2 := h.append_left (dat.toList ++ free nx)
        have h3 := List.perm_middle (a := d) (l₁ := dat.toList ++ free nx) (l₂ := free ch)
        simp only [List.append_assoc] at h1 h2 h3 ⊢
        exact h1.trans (h2.trans h3)
    · simp only [free]
      have h := ihn key
      have h1 := ((List.perm_append_comm (l₁ := (insert nx key d).2)
        (l₂ := dat.toList)).append_right (free (insert nx key d).1)).append_right (free ch)
      have h2 := (h.append_left dat.toList).append_right (free ch)
      have h3 := (List.perm_middle (a := d) (l₁ := dat.toList) (l₂ := free nx)).append_right
        (free ch)
      simp only [List.append_assoc, List.cons_append] at h1 h2 h3 ⊢
      exact h1.trans (h2.trans h3)

/-- Keys of a sibling list. -/
def rootKeys : Trie α → List Byte
  | .nil => []
  | .node k _ nx _ => k :: rootKeys nx

/-- Shape of every reachable trie. -/
def WF : Trie α → Prop
  | .nil => True
  | .node k dat nx ch =>
    k ∉ rootKeys nx ∧ (k = 0 → ch = .nil ∧ dat.isSome) ∧ (k ≠ 0 → dat = none) ∧ WF nx ∧ WF ch

theorem chain_wf (key : Str) (d : α) (hk : NulFree key) : WF (chain key d) := by
  induction key with
  | nil => simp [chain, WF, rootKeys]
  | cons c r ih =>
    have hc : c ≠ 0 := hk c (by simp)
    simp [chain, WF, rootKeys, hc, ih (nulFree_tail hk)]

theorem rootKeys_insert (t : Trie α) (key : Str) (d : α) :
    ∀ b, b ∈ rootKeys (insert t key d).1 ↔ b ∈ rootKeys t ∨ b = keyByte key := by
  induction t generalizing key with
  | nil =>
    intro b
    cases key <;> simp [insert, chain, rootKeys, keyByte]
  | node k dat nx ch ihn ihc =>
    intro b
    simp only [insert]
    split
    · rename_i h
      cases key with
      | nil => simp only [rootKeys, ← h, List.mem_cons]; grind
      | cons c r => simp only [rootKeys, ← h, List.mem_cons]; grind
    · simp [rootKeys, ihn key b, or_assoc]

theorem insert_wf (t : Trie α) (key : Str) (d : α) (hk : NulFree key) (h : WF t) :
    WF (insert t key d).1 := by
  induction t generalizing key with
  | nil => exact chain_wf key d hk
  | node k dat nx ch ihn ihc =>
    obtain ⟨h1, h2, h3, h4, h5⟩ := h
    simp only [insert]
    split
    · rename_i hkb
      cases key with
      | nil =>
        have hk0 : k = 0 := hkb
        exact ⟨h1, fun _ => ⟨(h2 hk0).1, rfl⟩, fun hne => absurd hk0 hne, h4, h5⟩
      | cons c r =>
        have hc : c ≠ 0 := hk c (by simp)
        have hkc : k = c := hkb
        refine ⟨h1, fun h0 => absurd (hkc ▸ h0) hc, h3, h4, ihc r (nulFree_tail hk) h5⟩
    · rename_i hkb
      refine ⟨?_, h2, h3, ihn key hk h4, h5⟩
      rw [rootKeys_insert]
      simp [h1, hkb]

theorem foreach_prefix (t : Trie α) (pre : Str) :
    foreach t pre = (foreach t []).map (fun e => (pre ++ e.1, e.2)) := by
  induction t generalizing pre with
  | nil => rfl
  | node k dat nx ch ihn ihc =>
    simp only [foreach]
    rw [ihn pre, ihc (pre ++ [k]), ihc ([] ++ [k])]
    simp only [List.map_append, List.map_map]
    congr 1
    congr 1
    · split <;> simp
    · apply List.map_congr_left
      intro e _
      simp

theorem foreach_node (k : Byte) (dat : Option α) (nx ch : Trie α) :
    foreach (.node k dat nx ch) [] =
      (if k = 0 then [([], dat)] else []) ++ (foreach ch []).map (fun e => (k :: e.1, e.2))
        ++ foreach nx [] := by
  rw [foreach, foreach_prefix ch]
  simp

theorem foreach_keyByte (t : Trie α) (h : WF t) (e : Str × Option α) (he : e ∈ foreach t []) :
    keyByte e.1 ∈ rootKeys t := by
  induction t with
  | nil => simp [foreach] at he
  | node k dat nx ch ihn _ =>
    rw [foreach_node] at he
    simp only [List.mem_append, List.mem_map] at he
    rcases he with (he | ⟨e', _, rfl⟩) | he
    · split at he
      · rename_i hk; simp at he; simp [he, keyByte, rootKeys, hk]
      · simp at he
    · simp [keyByte, rootKeys]
    · simp only [rootKeys, List.mem_cons]
      exact Or.inr (ihn h.2.2.2.1 he)

/-- Iteration lists exactly the graph of the lookup function. -/
theorem mem_foreach (t : Trie α) (h : WF t) (k : Str) (v : Option α) :
    (k, v) ∈ foreach t [] ↔ NulFree k ∧ v.isSome ∧ lookup t k = v := by
  induction t generalizing k v with
  | nil =>
    simp only [foreach, List.not_mem_nil, lookup, false_iff, not_and]
    rintro _ hv rfl
    simp at hv
  | node b dat nx ch ihn ihc =>
    obtain ⟨h1, h2, h3, h4, h5⟩ := h
    rw [foreach_node]
    simp only [List.mem_append, List.mem_map, Prod.mk.injEq]
    have hnx := ihn h4 k v
    by_cases hb : b = 0
    · obtain ⟨hch, hdat⟩ := h2 hb
      subst hch
      subst hb
      simp only [if_true, List.mem_singleton, Prod.mk.injEq, foreach, List.not_mem_nil,
        false_and, exists_false, or_false, lookup]
      by_cases hk : k = []
      · subst hk
        have hnot : ([], v) ∉ foreach nx [] := fun hm =>
          h1 (by simpa [keyByte] using foreach_keyByte nx h4 _ hm)
        simp only [true_and, hnot, or_false, keyByte, if_true]
        constructor
        · rintro rfl
          exact ⟨by simp [NulFree], hdat, rfl⟩
        · rintro ⟨_, _, rfl⟩; rfl
      · simp only [hk, false_and, false_or]
        rw [hnx]
        constructor
        · rintro ⟨a, b', c⟩
          refine ⟨a, b', ?_⟩
          rw [if_neg (fun e => hk ((keyByte_eq_zero k a).1 e.symm))]; exact c
        · rintro ⟨a, b', c⟩
          refine ⟨a, b', ?_⟩
          rwa [if_neg (fun e => hk ((keyByte_eq_zero k a).1 e.symm))] at c
    · simp only [if_neg hb, List.not_mem_nil, false_or, lookup]
      by_cases hk : b = keyByte k
      · have hnot : (k, v) ∉ foreach nx [] := fun hm =>
          h1 (by rw [hk]; exact foreach_keyByte nx h4 _ hm)
        cases k with
        | nil => exact absurd hk hb
        | cons c r =>
          have hbc : b = c := hk
          subst hbc
          simp only [hnot, or_false, keyByte, if_true, List.cons.injEq, true_and]
          constructor
          · rintro ⟨e, he, rfl, rfl⟩
            have := (ihc h5 e.1 e.2).1 he
            refine ⟨?_, this.2⟩
            intro x hx
            rcases List.mem_cons.1 hx with rfl | hx
            · exact hb
            · exact this.1 x hx
          · rintro ⟨a, b', c⟩
            exact ⟨(r, v), (ihc h5 r v).2 ⟨nulFree_tail a, b', c⟩, rfl, rfl⟩
      · rw [if_neg hk, hnx]
        constructor
        · rintro (⟨e, _, rfl, _⟩ | hh)
          · exact absurd rfl hk
          · exact hh
        · exact Or.inr

theorem foreach_nodup (t : Trie α) (h : WF t) : ((foreach t []).map (·.1)).Nodup := by
  induction t with
  | nil => simp [foreach]
  | node b dat nx ch ihn ihc =>
    obtain ⟨h1, h2, h3, h4, h5⟩ := h
    rw [foreach_node]
    simp only [List.map_append, List.map_map]
    rw [List.nodup_append, List.nodup_append]
    refine ⟨⟨?_, ?_, ?_⟩, ihn h4, ?_⟩
    · split <;> simp
    · have := ihc h5
      have e : List.map ((fun x => x.1) ∘ fun e : Str × Option α => (b :: e.1, e.2)) (foreach ch [])
          = ((foreach ch []).map (·.1)).map (b :: ·) := by simp
      rw [e]
      exact List.Nodup.map (fun x y hxy => by simpa using hxy) this
    · intro x hx y hy
      split at hx
      · simp at hx; subst hx
        simp only [List.mem_map] at hy
        obtain ⟨e, _, rfl⟩ := hy
        simp
      · simp at hx
    · intro x hx y hy hxy
      subst hxy
      obtain ⟨e, he, rfl⟩ := List.mem_map.1 hy
      have hkb := foreach_keyByte nx h4 e he
      simp only [List.mem_append, List.mem_map] at hx
      have : keyByte e.1 = b := by
        rcases hx with hx | ⟨e', _, hx⟩
        · split at hx
          · rename_i hb; simp at hx; simp [hx, keyByte, hb]
          · simp at hx
        · simp only [Function.comp] at hx
          rw [← hx]; rfl
      exact h1 (this ▸ hkb)

theorem size_eq (t : Trie α) : size t = (foreach t []).length := by
  induction t with
  | nil => rfl
  | node b dat nx ch ihn ihc =>
    rw [foreach_node, size, ihn, ihc]
    split <;> simp <;> omega

theorem inserts_append (h : List (Str × α)) (kv : Str × α) :
    inserts (h ++ [kv]) =
      ((insert (inserts h).1 kv.1 kv.2).1, (inserts h).2 ++ (insert (inserts h).1 kv.1 kv.2).2) := by
  simp [inserts, List.foldl_append]

end Blogc.Trie
