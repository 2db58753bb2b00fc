import Verif.Model.HttpdMemory

/-!
# Keeping account of what is in use

Every request `t` has its own things; an event of it is `(t, e)`.
-/

namespace Blogc.Spec.Ledger

open Blogc Blogc.Httpd

/-- One event: what is in use afterwards. Nothing may be acquired while it is in use, or used or released while it is
not. -/
def account (l : List (Nat × Thing)) (t : Nat) : Event → Option (List (Nat × Thing))
  | .acquire x => if (t, x) ∈ l then none else some ((t, x) :: l)
  | .release x => if (t, x) ∈ l then some (l.erase (t, x)) else none
  | .use x => if (t, x) ∈ l then some l else none

/-- What is in use after a history, if all of it is allowed. -/
def inUse : List (Nat × Event) → List (Nat × Thing) → Option (List (Nat × Thing))
  | [], l => some l
  | (t, e) :: rest, l => (account l t e).bind (inUse rest)

/-- The events of one request. -/
def of (t : Nat) (h : List (Nat × Event)) : List Event := (h.filter (·.1 == t)).map (·.2)

end Blogc.Spec.Ledger
