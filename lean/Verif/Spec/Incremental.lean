import Verif.Model.MakeBuild
import Verif.Spec.MakeRun

/-!
# What an incremental build is meant to give
-/

namespace Blogc.Spec.Incremental

open Blogc Blogc.Make Blogc.Build
open Blogc.Spec.MakeJobs Blogc.Spec.MakeRun

/-- The site, whatever the files are. -/
def base (S : Setup) (cfg : MakeSettings.Settings) : Site := S.site cfg fun _ => none

/-- The runs of blogc that are ever wanted for the settings, with any number of
pages. -/
def Possible (s : Site) (w : Wanted) : Prop :=
  w ∈ index s ∨ w ∈ atom s ∨ w ∈ atomTags s ∨ (∃ n, w ∈ pagination s n) ∨ (∃ n, w ∈ paginationTags s n) ∨
    w ∈ posts s ∨ w ∈ tags s ∨ w ∈ pages s

/-- A number of pages from the value of LAST_PAGE. -/
def rounds : Res (Option Str) → Nat
  | .ok v => pageRounds v
  | .ub => 0

/-- The runs that are wanted for the settings and the files, rule by rule. The number
of pages is the one that blogc tells for the files (C88 says what it is). -/
def wantedBy (S : Setup) (cfg : MakeSettings.Settings) (d : Files) : List (List Wanted) :=
  [index (base S cfg), atom (base S cfg), atomTags (base S cfg),
   pagination (base S cfg) (rounds ((S.site cfg (times d)).lastPage (shell (S.on cfg d)))),
   paginationTags (base S cfg) fun t => rounds ((S.site cfg (times d)).lastPageOf (shell (S.on cfg d)) t),
   posts (base S cfg), tags (base S cfg), pages (base S cfg)]

def Wants (S : Setup) (cfg : MakeSettings.Settings) (d : Files) (w : Wanted) : Prop :=
  ∃ ws ∈ wantedBy S cfg d, w ∈ ws

/-- The text that blogc gives for a run, with the files as they are. -/
def Shows (S : Setup) (cfg : MakeSettings.Settings) (d : Files) (w : Wanted) (text : Str) : Prop :=
  ∃ o input, Asked (base S cfg) { S.on cfg d with stdin := input } o (ownVars w) w.listing none w.entry
      (some w.template) (some w.output) w.sources ∧
    effects (Main.body { S.on cfg d with stdin := input } o) = ([(w.output, text)], .exit 0)

/-- Settings that blogc-make can work with. `out` tells which paths are outputs. -/
structure Good (S : Setup) (out : Str → Prop) (cfg : MakeSettings.Settings) : Prop where
  ok : MakeJobs.Ok (base S cfg)
  clean : Clean (base S cfg)
  runs : ∀ w, Possible (base S cfg) w → CleanRun w
  perPage : TextOk ((base S cfg).getStr b!"posts_per_page")
  posts : ∀ f ∈ postSources (base S cfg), LineOk f ∧ ¬ out f
  /-- Outputs are apart from inputs. -/
  settingsFile : ¬ out S.settingsFile
  outputs : ∀ w, Possible (base S cfg) w → out w.output ∧ w.output ≠ b!"-"
  inputs : ∀ w, Possible (base S cfg) w → ∀ i ∈ w.inputs, ¬ out i
  /-- No two runs have the same output (see C53 for paths that clash). -/
  distinct : ∀ w w', Possible (base S cfg) w → Possible (base S cfg) w' → w.output = w'.output → w = w'

/-- The settings of the files, if there are any, are good. -/
def GoodNow (S : Setup) (out : Str → Prop) (d : Files) : Prop := ∀ cfg, S.config d = some cfg → Good S out cfg

/-- The histories of a site. It begins without outputs. In any order, the user writes
and removes files and runs blogc-make, which may fail. What the user writes is newer
than the outputs that are there, and is not an output. The settings with which
blogc-make is run, if there are any, are good. -/
inductive Reachable (S : Setup) (out : Str → Prop) : Files → Prop where
  | start (d : Files) : (∀ p, out p → d p = none) → Reachable S out d
  | edit (d : Files) (p : Str) (text : Str) (now : Int × Int) : Reachable S out d → ¬ out p →
      (∀ q c t, out q → d q = some (c, t) → Later now t) → Reachable S out (put d p (some (text, now)))
  | remove (d : Files) (p : Str) : Reachable S out d → Reachable S out (put d p none)
  | build (d d' : Files) (clock : Str → Int × Int) (rv : Int) : Reachable S out d →
      GoodNow S out d → S.build clock d = some (d', rv) → Reachable S out d'

/-- The same files, without outputs. -/
def Cleaned (out : Str → Prop) (d d₀ : Files) : Prop :=
  (∀ p, out p → d₀ p = none) ∧ ∀ p, ¬ out p → d₀ p = d p

/-- A build of the files succeeds but leaves an output that is not what a build from
scratch gives. -/
def Outdated (S : Setup) (out : Str → Prop) (d : Files) : Prop :=
  ∃ clock d' d₀ d₀' cfg w, S.build clock d = some (d', 0) ∧ Cleaned out d d₀ ∧ S.build clock d₀ = some (d₀', 0) ∧
    S.config d = some cfg ∧ Wants S cfg d w ∧ texts d' w.output ≠ texts d₀' w.output

/-- The clock is not behind the inputs of a run, all of which are there. -/
def InTime (clock : Str → Int × Int) (d : Files) (w : Wanted) : Prop :=
  ∀ i ∈ w.inputs, ∃ u, times d i = some u ∧ ¬ Later u (clock w.output)

end Blogc.Spec.Incremental
