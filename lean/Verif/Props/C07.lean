import Verif.Lemmas.Trie
import Verif.Spec.Map
import Mathlib.Data.List.Induction

/-!
# C07: the variable table behaves as a map
-/

namespace Blogc.C07

open Blogc Blogc.Spec

/-- After any history of insertions, looking up any key gives the value most
recently inserted under it, or nothing. -/
theorem lookup_inserts {α : Type u} (h : List (Str × α)) (hh : CKeys h) (k : Str) (hk : NulFree k) :
    (Trie.inserts h).1.lookup k = lastValue h k := by
  induction h using List.reverseRecOn with
  | nil => rfl
  | append_singleton h kv ih =>
    have hh' : CKeys h := fun x hx => hh x (by simp [hx])
    have hkv : NulFree kv.1 := hh kv (by simp)
    rw [Trie.inserts_append, Trie.lookup_insert _ _ _ _ hkv hk, ih hh']
    simp only [lastValue, List.reverse_append, List.reverse_cons, List.reverse_nil,
      List.nil_append, List.singleton_append, List.find?_cons]
    by_cases e : kv.1 = k
    · simp [e]
    · have : (kv.1 == k) = false := by simpa using e
      simp [this, Ne.symm e]

/-- Prefix keys, replacement and absent keys. -/
example :
    let h : List (Str × Nat) := [(b!"ab", 1), (b!"a", 2), (b!"", 3), (b!"ab", 4)]
    (Trie.inserts h).1.lookup b!"ab" = some 4 ∧ (Trie.inserts h).1.lookup b!"a" = some 2 ∧
    (Trie.inserts h).1.lookup b!"" = some 3 ∧ (Trie.inserts h).1.lookup b!"abc" = none := by
  decide

example : CKeys ([(b!"ab", 1), (b!"a", 2), (b!"", 3)] : List (Str × Nat)) := by
  simp [CKeys, NulFree]

end Blogc.C07
