import Verif.Basic

/-!
# Specification of a map built by a history of insertions
-/

namespace Blogc.Spec

open Blogc

/-- The value most recently inserted under `k`. -/
def lastValue {α : Type u} (h : List (Str × α)) (k : Str) : Option α :=
  (h.reverse.find? (fun kv => kv.1 == k)).map (·.2)

/-- Every key of the history is a C string (no embedded NUL). -/
def CKeys {α : Type u} (h : List (Str × α)) : Prop := ∀ kv ∈ h, NulFree kv.1

end Blogc.Spec
