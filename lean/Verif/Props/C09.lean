import Verif.Lemmas.Trie
import Mathlib.Data.List.Induction

/-!
# C09: stored values are released exactly once
-/

namespace Blogc.C09

open Blogc

/-- The values handed to the release function during the insertions, followed
by those handed to it when the table is destroyed, are exactly the values ever
inserted, each as often as it was inserted. Values stand for heap pointers. -/
theorem released_exactly_once {α : Type u} (h : List (Str × α)) :
    ((Trie.inserts h).2 ++ (Trie.inserts h).1.free).Perm (h.map (·.2)) := by
  induction h using List.reverseRecOn with
  | nil => exact List.Perm.refl _
  | append_singleton h kv ih =>
    rw [Trie.inserts_append]
    have h1 := Trie.insert_ledger (Trie.inserts h).1 kv.1 kv.2
    simp only [List.append_assoc, List.map_append, List.map_cons, List.map_nil]
    refine (h1.append_left _).trans ?_
    refine List.perm_middle.trans ?_
    refine (ih.cons _).trans ?_
    exact List.perm_append_comm (l₁ := [kv.2])

/-- If the inserted pointers are distinct, no pointer is released twice. -/
theorem no_double_free {α : Type u} (h : List (Str × α)) (hd : (h.map (·.2)).Nodup) :
    ((Trie.inserts h).2 ++ (Trie.inserts h).1.free).Nodup :=
  (released_exactly_once h).nodup_iff.2 hd

example :
    let h : List (Str × Nat) := [(b!"ab", 1), (b!"a", 2), (b!"ab", 4)]
    (Trie.inserts h).2 = [1] ∧ (Trie.inserts h).1.free = [2, 4] := by decide

end Blogc.C09
