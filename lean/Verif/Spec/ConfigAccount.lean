import Verif.Model.ConfigMemory

/-!
# Keeping account of what the reading of a configuration has in use
-/

namespace Blogc.Spec.ConfigAccount

open Blogc Blogc.ConfigMem

/-- What is in use. -/
abbrev InUse := Thing → Bool

def mark (l : InUse) (x : Thing) (b : Bool) : InUse := fun y => if y = x then b else l y

/-- One event: what is in use afterwards. Nothing may be acquired while it is in use, or used or
released while it is not. -/
def account (l : InUse) : Event → Option InUse
  | .acquire x => if l x then none else some (mark l x true)
  | .release x => if l x then some (mark l x false) else none
  | .use x => if l x then some l else none

/-- What is in use after some events, if all of them are allowed. -/
def inUse : List Event → InUse → Option InUse
  | [], l => some l
  | e :: rest, l => (account l e).bind (inUse rest)

/-- Nothing is in use. -/
def nothing : InUse := fun _ => false

/-- A configuration with the sections of these numbers. -/
def configuration (sections : List Nat) : InUse
  | .config => true
  | .section i => decide (i ∈ sections)
  | _ => false

/-- An error. -/
def error : InUse
  | .err => true
  | _ => false

end Blogc.Spec.ConfigAccount
