import Verif.Model.Render
import Verif.Props.C07

/-!
# C26: local variables override global variables
-/

namespace Blogc.C26

open Blogc Blogc.Render Blogc.Spec

/-- After any history of definitions in the table of an entry and in the global table, a name
has the value last given in the entry, otherwise the value last given globally, otherwise none. -/
theorem local_then_global (loc glob : List (Str × Str)) (hl : CKeys loc) (hg : CKeys glob) (name : Str)
    (hn : NulFree name) :
    getVariable name (Trie.inserts glob).1 (some (Trie.inserts loc).1) =
      match lastValue loc name with
      | some v => some v
      | none => lastValue glob name := by
  simp only [getVariable, C07.lookup_inserts loc hl name hn, C07.lookup_inserts glob hg name hn]
  cases lastValue loc name <;> rfl

/-- Without an entry only the global table is used. -/
theorem global_only (glob : List (Str × Str)) (hg : CKeys glob) (name : Str) (hn : NulFree name) :
    getVariable name (Trie.inserts glob).1 none = lastValue glob name := by
  simp only [getVariable, C07.lookup_inserts glob hg name hn]

/-- It is absent only when both are absent. -/
theorem absent_iff (loc glob : List (Str × Str)) (hl : CKeys loc) (hg : CKeys glob) (name : Str)
    (hn : NulFree name) :
    getVariable name (Trie.inserts glob).1 (some (Trie.inserts loc).1) = none ↔
      (∀ v, (name, v) ∉ loc) ∧ ∀ v, (name, v) ∉ glob := by
  have key : ∀ h : List (Str × Str), lastValue h name = none ↔ ∀ v, (name, v) ∉ h := by
    intro h
    simp only [lastValue, Option.map_eq_none_iff, List.find?_eq_none, List.mem_reverse]
    refine ⟨fun hx v hv => ?_, fun hx p hp he => ?_⟩
    · exact hx _ hv (by simp)
    · have : p.1 = name := by simpa using he
      exact hx p.2 (by rw [← this]; exact hp)
  rw [local_then_global loc glob hl hg name hn, ← key loc, ← key glob]
  cases lastValue loc name <;> simp

/-- What a template shows for a defined variable is that value, and nothing else changes. -/
theorem rendered (sys : Sys) (g : Table) (l : Option Table) (it : Item) (name v : Str)
    (h : getVariable name g l = some v) : formatVariable sys g l it name = .ok (g, some v) := by
  simp only [formatVariable, h]

/-- A name defined in both tables, in one of them, and in none. -/
example :
    let g := (Trie.inserts [(b!"A", b!"1"), (b!"B", b!"2")]).1
    let l := (Trie.inserts [(b!"A", b!"3")]).1
    getVariable b!"A" g (some l) = some b!"3" ∧ getVariable b!"B" g (some l) = some b!"2" ∧
    getVariable b!"C" g (some l) = none ∧ getVariable b!"A" g none = some b!"1" := by decide

example : CKeys [(b!"A", b!"1"), (b!"B", b!"2")] := by simp [CKeys, NulFree]

end Blogc.C26
