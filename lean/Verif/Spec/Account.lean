import Verif.Model.BlogcMemory

/-!
# Keeping account of what a run of blogc has in use
-/

namespace Blogc.Spec.Account

open Blogc.BlogcMem

/-- What is in use. -/
abbrev InUse := Thing → Bool

def mark (l : InUse) (x : Thing) (b : Bool) : InUse := fun y => if y = x then b else l y

/-- One event: what is in use afterwards. Nothing may be acquired while it is in use, or used, released or given away
while it is not; and only the address that was returned may be released. -/
def account (l : InUse) : Event → Option InUse
  | .acquire x => if l x then none else some (mark l x true)
  | .release x => if l x then some (mark l x false) else none
  | .use x => if l x then some l else none
  | .give x y => if l x && l y && decide (x ≠ y) then some (mark l x false) else none
  | .wrongFree => none

/-- What is in use after some events, if all of them are allowed. -/
def inUse : List Event → InUse → Option InUse
  | [], l => some l
  | e :: rest, l => (account l e).bind (inUse rest)

/-- Nothing is in use. -/
def nothing : InUse := fun _ => false

end Blogc.Spec.Account
