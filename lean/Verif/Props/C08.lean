import Verif.Props.C07

/-!
# C08: table size and iteration
-/

namespace Blogc.C08

open Blogc Blogc.Spec

theorem inserts_wf {α : Type u} (h : List (Str × α)) (hh : CKeys h) :
    (Trie.inserts h).1.WF := by
  induction h using List.reverseRecOn with
  | nil => exact True.intro
  | append_singleton h kv ih =>
    rw [Trie.inserts_append]
    exact Trie.insert_wf _ _ _ (hh kv (by simp)) (ih (fun x hx => hh x (by simp [hx])))

theorem lastValue_isSome {α : Type u} (h : List (Str × α)) (k : Str) :
    (lastValue h k).isSome ↔ k ∈ h.map (·.1) := by
  simp only [lastValue, Option.isSome_map, List.find?_isSome, List.mem_reverse, beq_iff_eq,
    List.mem_map]

/-- Iteration visits no key twice. -/
theorem foreach_keys_nodup {α : Type u} (h : List (Str × α)) (hh : CKeys h) :
    (((Trie.inserts h).1.foreach []).map (·.1)).Nodup :=
  Trie.foreach_nodup _ (inserts_wf h hh)

/-- Iteration visits exactly the inserted keys, each with its current value. -/
theorem mem_foreach_iff {α : Type u} (h : List (Str × α)) (hh : CKeys h) (k : Str) (v : Option α) :
    (k, v) ∈ (Trie.inserts h).1.foreach [] ↔ k ∈ h.map (·.1) ∧ v = lastValue h k := by
  rw [Trie.mem_foreach _ (inserts_wf h hh)]
  constructor
  · rintro ⟨hk, hv, he⟩
    rw [C07.lookup_inserts h hh k hk] at he
    subst he
    exact ⟨(lastValue_isSome h k).1 hv, rfl⟩
  · rintro ⟨hk, rfl⟩
    have hkn : NulFree k := by
      obtain ⟨kv, hkv, rfl⟩ := List.mem_map.1 hk
      exact hh kv hkv
    exact ⟨hkn, (lastValue_isSome h k).2 hk, C07.lookup_inserts h hh k hkn⟩

/-- The reported size is the number of distinct keys. -/
theorem size_eq_distinct {α : Type u} (h : List (Str × α)) (hh : CKeys h) :
    (Trie.inserts h).1.size = (h.map (·.1)).dedup.length := by
  rw [Trie.size_eq, ← List.length_map (f := fun e : Str × Option α => e.1)]
  apply List.Perm.length_eq
  rw [List.perm_ext_iff_of_nodup (foreach_keys_nodup h hh) (List.nodup_dedup _)]
  intro k
  rw [List.mem_dedup]
  constructor
  · intro hm
    obtain ⟨e, he, rfl⟩ := List.mem_map.1 hm
    exact ((mem_foreach_iff h hh e.1 e.2).1 he).1
  · intro hm
    exact List.mem_map.2 ⟨(k, lastValue h k), (mem_foreach_iff h hh k _).2 ⟨hm, rfl⟩, rfl⟩

example :
    let h : List (Str × Nat) := [(b!"ab", 1), (b!"a", 2), (b!"", 3), (b!"ab", 4)]
    (Trie.inserts h).1.size = 3 ∧
    (Trie.inserts h).1.foreach [] = [(b!"ab", some 4), (b!"a", some 2), (b!"", some 3)] := by
  decide

end Blogc.C08
