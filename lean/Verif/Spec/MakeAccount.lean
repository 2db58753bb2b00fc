import Verif.Model.MakeMemory

/-!
# Keeping account of what a run of blogc-make has in use
-/

namespace Blogc.Spec.MakeAccount

open Blogc.MakeMem

/-- What is in use. -/
abbrev InUse := Thing → Bool

def mark (l : InUse) (x : Thing) (b : Bool) : InUse := fun y => if y = x then b else l y

/-- One event: what is in use afterwards. Nothing may be acquired while it is in use, or used or released while it is
not. -/
def account (l : InUse) : Event → Option InUse
  | .acquire x => if l x then none else some (mark l x true)
  | .release x => if l x then some (mark l x false) else none
  | .use x => if l x then some l else none

/-- What is in use after some events, if all of them are allowed. -/
def inUse : List Event → InUse → Option InUse
  | [], l => some l
  | e :: rest, l => (account l e).bind (inUse rest)

/-- Nothing is in use. -/
def nothing : InUse := fun _ => false

/-- What outlives the process: the temporary file. (Memory and open files end with it.) -/
def outlives : Thing → Bool
  | .atomFile _ => true
  | _ => false

/-- What a context made from the settings number `g` has in use: itself, the names of the two programs, the settings,
the temporary file unless there is a template of its own, and a file context for everything the settings name. -/
def OfContext (g : Nat) (s : Shape) : Thing → Prop
  | .ctx | .blogc | .runserver | .root | .shortDir | .outDir | .mainTemplate | .atomTemplate | .settingsFile => True
  | .settings i => i = g
  | .atomFile i => i = g ∧ s.ownAtom = false
  | .entry => s.entry = true
  | .post i => i < s.posts
  | .page i => i < s.pages
  | .copied i => i < s.copies
  | _ => False

end Blogc.Spec.MakeAccount
