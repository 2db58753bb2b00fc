import Verif.Spec.Watching

/-!
# Rounds of the loop of `blogc-make watch`, one after the other
-/

namespace Blogc.Spec.Watching

open Blogc Blogc.Make Blogc.Build
open Blogc.Spec.MakeJobs Blogc.Spec.Incremental Blogc.Spec.StaticFiles

/-- Rounds without an edit between them, each with its clock: what the program remembers
at the end, the files, and the status of each round. -/
def watchRounds (S : Setup) (disk : Files → Str → Forest) :
    List (Str → Int × Int) → Files → Option Watcher → Option (Option Watcher × Files × List Int)
  | [], d, w => some (w, d, [])
  | clock :: clocks, d, w =>
    match S.round disk clock d w with
    | none => none
    | some (w', d', rv) =>
      match watchRounds S disk clocks d' w' with
      | none => none
      | some (w'', d'', rvs) => some (w'', d'', rv :: rvs)

/-- Nothing is out of date: no page that is wanted, and no copy of a static file that was
there when the settings were read. -/
def UpToTime (S : Setup) (cfg : MakeSettings.Settings) (seen d : Files) : Prop :=
  (∀ v, Wants S cfg d v → stale (times d) v = false) ∧
    ∀ f q, Static cfg f q → (seen (source S f q)).isSome → ¬ Old S d f q

end Blogc.Spec.Watching
