import Verif.Model.Heap
import Verif.Spec.Map
import Mathlib.Data.List.Dedup

/-!
# What a program may expect of its lists and tables

Nothing here mentions memory: a list is a list of data, a table is the history of its
insertions.
-/

namespace Blogc.Spec

open Blogc Blogc.Mem

variable {α : Type}

/-- What a variable holds. -/
inductive Obj (α : Type) where
  | list (l : List (Option α))
  /-- `ff`: the table was made with a function that releases its data -/
  | table (ff : Bool) (hist : List (Str × α))

/-- What the variables hold; those that hold `none` were not made, or were released. -/
abbrev World (α : Type) := Nat → Option (Obj α)

def World.set (σ : World α) (x : Nat) (o : Option (Obj α)) : World α := fun y => if y = x then o else σ y

/-- The rules: a variable is used only between its making and its release and only as
what it is, nothing that is still in use is overwritten, and keys are C strings. -/
def Allowed (σ : World α) : Op α → Prop
  | .newList x | .newTable x _ => σ x = none
  | .append x _ | .prepend x _ | .length x | .items x | .freeList x _ => ∃ l, σ x = some (.list l)
  | .join x y => x ≠ y ∧ (∃ l, σ x = some (.list l)) ∧ ∃ l, σ y = some (.list l)
  | .insert x key _ | .lookup x key => NulFree key ∧ ∃ ff hist, σ x = some (.table ff hist)
  | .size x | .foreach x | .freeTable x => ∃ ff hist, σ x = some (.table ff hist)

/-- The data of a list. -/
def World.list (σ : World α) (x : Nat) : List (Option α) :=
  match σ x with
  | some (.list l) => l
  | _ => []

/-- The history of a table. -/
def World.hist (σ : World α) (x : Nat) : List (Str × α) :=
  match σ x with
  | some (.table _ hist) => hist
  | _ => []

/-- Whether a table releases its data. -/
def World.owns (σ : World α) (x : Nat) : Bool :=
  match σ x with
  | some (.table ff _) => ff
  | _ => false

/-- What the variables hold after a call. -/
def after (σ : World α) : Op α → World α
  | .newList x => σ.set x (some (.list []))
  | .append x d => σ.set x (some (.list (σ.list x ++ [d])))
  | .prepend x d => σ.set x (some (.list (d :: σ.list x)))
  | .join x y => (σ.set x (some (.list (σ.list x ++ σ.list y)))).set y none
  | .newTable x ff => σ.set x (some (.table ff []))
  | .insert x key d => σ.set x (some (.table (σ.owns x) (σ.hist x ++ [(key, d)])))
  | .freeList x _ | .freeTable x => σ.set x none
  | .length _ | .items _ | .lookup _ _ | .size _ | .foreach _ => σ

/-- The keys of a table, each once. -/
def keys (hist : List (Str × α)) : List Str := (hist.map (·.1)).dedup

/-- What a call must answer, and which data it must release. -/
def Right (σ : World α) : Op α → Answer α → List α → Prop
  | .newList _, a, r | .append _ _, a, r | .prepend _ _, a, r | .join _ _, a, r | .newTable _ _, a, r =>
    a = .nothing ∧ r = []
  | .length x, a, r => a = .count (σ.list x).length ∧ r = []
  | .items x, a, r => a = .items (σ.list x) ∧ r = []
  -- the data that are not NULL, in order
  | .freeList x ff, a, r => a = .nothing ∧ r = if ff then (σ.list x).flatMap Option.toList else []
  -- the value that is replaced
  | .insert x key _, a, r => a = .nothing ∧ r = if σ.owns x then (lastValue (σ.hist x) key).toList else []
  | .lookup x key, a, r => a = .value (lastValue (σ.hist x) key) ∧ r = []
  | .size x, a, r => a = .count (keys (σ.hist x)).length ∧ r = []
  -- every key once, with its value
  | .foreach x, a, r => r = [] ∧ ∃ l, a = .visits l ∧
    l.Perm ((keys (σ.hist x)).map fun k => (k, lastValue (σ.hist x) k))
  -- the values that the table has, in some order
  | .freeTable x, a, r => a = .nothing ∧
    r.Perm (if σ.owns x then (keys (σ.hist x)).flatMap fun k => (lastValue (σ.hist x) k).toList else [])

/-- All calls of a program keep to the rules. -/
def Legal (σ : World α) : List (Op α) → Prop
  | [] => True
  | op :: rest => Allowed σ op ∧ Legal (after σ op) rest

/-- All answers and releases of a program are right. -/
def AllRight (σ : World α) : List (Op α) → List (Answer α × List α) → Prop
  | [], out => out = []
  | op :: rest, out => ∃ a r out', out = (a, r) :: out' ∧ Right σ op a r ∧ AllRight (after σ op) rest out'

/-- What the variables hold after a program. -/
def final (σ : World α) (ops : List (Op α)) : World α := ops.foldl after σ

end Blogc.Spec
