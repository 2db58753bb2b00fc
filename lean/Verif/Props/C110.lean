import Verif.Lemmas.HeapOps

/-!
# C110: lists and tables are safe in memory

Programs call the list and table functions in any order, as long as every variable is
used between its making and its release, as what it is. Memory is a set of blocks that
point to each other, and every call may find another `malloc`.
-/

namespace Blogc.C110

open Blogc Blogc.Mem Blogc.Spec

variable {α : Type}

/-- Before the first call: no memory is in use, and the variables have any values. -/
def start (vars : Nat → Ptr) : State α := ⟨fun _ => none, vars⟩

/-- No variable holds anything. -/
def nothing : World α := fun _ => none

theorem start_inv (vars : Nat → Ptr) : Inv (start (α := α) vars) nothing fun _ => [] :=
  ⟨fun _ => rfl, fun _ => List.nodup_nil, fun _ _ _ => by simp, ⟨0, fun _ _ => rfl⟩, fun _ h => by cases h⟩

/-- A program that keeps to the rules ends, without an access to memory that is not
allocated, a release of such memory or an access to NULL. All its calls answer and
release what the lists and tables say. At the end, only blocks of lists and tables that
were not released are in use; if all were released, none are. -/
theorem safe (prog : List ((Heap α → Nat) × Op α)) (hal : ∀ c ∈ prog, AllocOk c.1) (vars : Nat → Ptr)
    (hl : Legal nothing (prog.map (·.2))) :
    ∃ n, ∀ fuel, n ≤ fuel → ∃ st out, perform fuel prog (start vars) = .ok (st, out) ∧
      AllRight nothing (prog.map (·.2)) out ∧
      ((∀ x, final nothing (prog.map (·.2)) x = none) → ∀ a, st.heap a = none) := by
  refine ⟨enoughAll nothing (prog.map (·.2)), fun fuel hf => ?_⟩
  obtain ⟨st, out, F, k1, k2, k3⟩ := perform_ok prog hal (start_inv vars) hl hf
  refine ⟨st, out, k1, k2, fun hn a => ?_⟩
  by_contra ha
  obtain ⟨x, hx⟩ := k3.owned a (Option.isSome_iff_ne_none.2 ha)
  have := k3.holds x
  rw [hn x] at this
  rw [show F x = [] from this] at hx
  cases hx

/-! ## A sample -/

/-- There is such a `malloc`. -/
theorem malloc : ∃ al : Heap α → Nat, AllocOk al := by
  classical
  refine ⟨fun h => if hf : Finite h then hf.choose else 0, fun h hf => ?_⟩
  simp only [dif_pos hf]
  exact hf.choose_spec _ (Nat.le_refl _)

/-- A table whose keys are prefixes of each other, with a value that is replaced, and
two lists that are joined. -/
def ops : List (Op Nat) :=
  [.newTable 0 true, .insert 0 b!"ab" 1, .insert 0 b!"a" 2, .newList 1, .append 1 (some 7), .insert 0 b!"ac" 3,
    .insert 0 b!"ab" 4, .lookup 0 b!"ab", .lookup 0 b!"b", .size 0, .newList 2, .prepend 2 (some 8), .append 2 none,
    .join 1 2, .items 1, .length 1, .foreach 0, .freeList 1 true, .freeTable 0]

theorem ops_legal : Legal nothing ops := by
  simp [ops, Legal, Allowed, after, World.set, nothing, World.list, World.owns, World.hist, NulFree]

theorem ops_end (x : Nat) : final nothing ops x = none := by
  simp [final, ops, after, World.set, nothing]
  grind

/-- The sample, with any `malloc`. -/
example (al : Heap Nat → Nat) (hal : AllocOk al) (vars : Nat → Ptr) :
    ∃ n, ∀ fuel, n ≤ fuel → ∃ st out, perform fuel (ops.map fun o => (al, o)) (start vars) = .ok (st, out) ∧
      AllRight nothing ops out ∧ ∀ a, st.heap a = none := by
  have e : (ops.map fun o => (al, o)).map (·.2) = ops := by
    rw [List.map_map]
    exact List.map_id _
  obtain ⟨n, hn⟩ := safe (ops.map fun o => (al, o))
    (fun c hc => by
      obtain ⟨o, _, rfl⟩ := List.mem_map.1 hc
      exact hal)
    vars (by rw [e]; exact ops_legal)
  rw [e] at hn
  refine ⟨n, fun fuel hf => ?_⟩
  obtain ⟨st, out, k1, k2, k3⟩ := hn fuel hf
  exact ⟨st, out, k1, k2, k3 ops_end⟩

/-- The lowest free address of a small memory. -/
def lowest (h : Heap Nat) : Nat := ((List.range 20).find? fun a => (h a).isNone).getD 20

/-- The answers and the releases of the sample, as they come. -/
def answers : Option (List (Answer Nat × List Nat)) :=
  match perform 20 (ops.map fun o => (lowest, o)) (start fun _ => none) with
  | .ok (_, out) => some out
  | _ => none

example : answers = some
    [(.nothing, []), (.nothing, []), (.nothing, []), (.nothing, []), (.nothing, []), (.nothing, []), (.nothing, [1]),
      (.value (some 4), []), (.value none, []), (.count 3, []), (.nothing, []), (.nothing, []), (.nothing, []),
      (.nothing, []), (.items [some 7, some 8, none], []), (.count 3, []),
      (.visits [(b!"ab", some 4), (b!"a", some 2), (b!"ac", some 3)], []), (.nothing, [7, 8]), (.nothing, [2, 3, 4])] := by
  decide +kernel

/-! The rules are needed. -/

/-- Whether a program reaches undefined behaviour. -/
def broken (ops : List (Op Nat)) : Bool :=
  match perform 20 (ops.map fun o => (lowest, o)) (start fun _ => none) with
  | .ub => true
  | _ => false

/-- Releasing twice, using what was released, and joining a list and then releasing both
parts. -/
example : broken [.newList 0, .append 0 (some 1), .freeList 0 false, .freeList 0 false] = true ∧
    broken [.newTable 0 false, .freeTable 0, .lookup 0 b!"a"] = true ∧
    broken [.newList 0, .append 0 (some 1), .newList 1, .append 1 (some 2), .join 0 1, .freeList 1 false,
      .freeList 0 false] = true := by
  decide +kernel

end Blogc.C110
