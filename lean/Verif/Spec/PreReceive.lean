import Verif.Basic

/-!
# Input of git's pre-receive hook

One line `<old-value> SP <new-value> SP <ref-name> LF` per updated ref
(githooks(5)).
-/

namespace Blogc.PreReceive

open Blogc

/-- One updated ref. -/
structure Update where
  oldRev : Str
  newRev : Str
  ref : Str
  deriving DecidableEq, Repr

/-- Revisions have no space, refs no newline, and all are non-empty C strings. -/
def Update.Ok (u : Update) : Prop :=
  u.oldRev ≠ [] ∧ c!" " ∉ u.oldRev ∧ u.newRev ≠ [] ∧ c!" " ∉ u.newRev ∧ NulFree u.newRev ∧
  u.ref ≠ [] ∧ c!"\n" ∉ u.ref ∧ NulFree u.ref

/-- The line of an update. -/
def Update.line (u : Update) : Str := u.oldRev ++ b!" " ++ u.newRev ++ b!" " ++ u.ref ++ b!"\n"

/-- The new revision of a branch after a push: that of the last line about it. -/
def revOf (us : List Update) (branch : Str) : Option Str :=
  (us.reverse.find? fun u => u.ref == b!"refs/heads/" ++ branch).map (·.newRev)

end Blogc.PreReceive
