import Verif.Model.MakeWatchBuild
import Verif.Spec.StaticFiles

/-!
# What watching a site is meant to do
-/

namespace Blogc.Spec.Watching

open Blogc Blogc.Make Blogc.Build
open Blogc.Spec.MakeJobs Blogc.Spec.Incremental Blogc.Spec.StaticFiles

/-- The settings file is newer in the files `d` than in the files `seen`. -/
def NewSettings (S : Setup) (seen d : Files) : Prop :=
  ∃ t u, times seen S.settingsFile = some t ∧ times d S.settingsFile = some u ∧ Later u t

/-- `Watched S disk out now d w seen`: a site is watched. `now` is the time, `d` are the
files, `w` is what the program remembers (nothing if it has given up), and `seen` are
the files when it last read the settings. Watching begins after any history of edits and
builds (C108). In any order, the user writes files, later than anything before, removes
files, and the program does a round of its loop, which may fail. No file is from the
future. -/
inductive Watched (S : Setup) (disk : Files → Str → Forest) (out : Str → Prop) :
    Int × Int → Files → Option Watcher → Files → Prop where
  | start (now : Int × Int) (d : Files) : Reached S disk out d → CopyNow S disk out d →
      ¬ Later (0, 0) now → (∀ p u, times d p = some u → ¬ Later u now) →
      Watched S disk out now d (S.watcher disk d) d
  | edit (now : Int × Int) (d : Files) (w : Option Watcher) (seen : Files) (p text : Str) (t : Int × Int) :
      Watched S disk out now d w seen → ¬ out p → Later t now →
      Watched S disk out t (put d p (some (text, t))) w seen
  | remove (now : Int × Int) (d : Files) (w : Option Watcher) (seen : Files) (p : Str) :
      Watched S disk out now d w seen → Watched S disk out now (put d p none) w seen
  | round (now now' : Int × Int) (d d' : Files) (w w' : Option Watcher) (seen seen' : Files)
      (clock : Str → Int × Int) (rv : Int) : Watched S disk out now d w seen → CopyNow S disk out d →
      S.round disk clock d w = some (w', d', rv) →
      ¬ Later now now' → (∀ p u, times d' p = some u → ¬ Later u now') →
      (NewSettings S seen d → seen' = d) → (¬ NewSettings S seen d → seen' = seen) →
      Watched S disk out now' d' w' seen'

/-- The files of the context are not outputs. -/
def Outside (S : Setup) (out : Str → Prop) (cfg : MakeSettings.Settings) : Prop :=
  ∀ p ∈ S.ctxPaths cfg, ¬ out p

/-- Nothing was removed that the program remembers: the settings file, no file that it
found named by the settings, and no static file that was there when it read them. -/
structure Kept (S : Setup) (w : Watcher) (seen d : Files) : Prop where
  settings : (d S.settingsFile).isSome
  files : ∀ p ∈ S.ctxPaths w.cfg, d p = none → w.mem p = none
  static : ∀ f q, Static w.cfg f q → (seen (source S f q)).isSome → (d (source S f q)).isSome

end Blogc.Spec.Watching
