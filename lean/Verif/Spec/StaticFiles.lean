import Verif.Model.MakeFull
import Verif.Spec.Incremental
import Verif.Spec.MakeCopy

/-!
# What the static files of a site are meant to be after a build
-/

namespace Blogc.Spec.StaticFiles

open Blogc Blogc.Make Blogc.Build
open Blogc.Spec.MakeJobs Blogc.Spec.Incremental Blogc.Spec.MakeCopy

/-- The name of a file or directory, other than "." and "..". -/
def Proper (n : Str) : Prop := n ≠ [] ∧ n ≠ b!"." ∧ n ≠ b!".." ∧ c!"/" ∉ n

instance (n : Str) : Decidable (Proper n) := inferInstanceAs (Decidable (_ ∧ _))

/-- A way down from an entry of the section `[copy]`. -/
def Static (cfg : MakeSettings.Settings) (f : Str) (q : List Str) : Prop :=
  f ∈ cfg.copy.getD [] ∧ ∀ n ∈ q, Proper n

/-- Where the file is. -/
def source (S : Setup) (f : Str) (q : List Str) : Str := under (absPath S.root f) q

/-- Where its copy is meant to be: at the same path below the output directory. -/
def dest (S : Setup) (f : Str) (q : List Str) : Str := absPath S.root S.outDir ++ b!"/" ++ under f q

/-- What is found at the path `p` is what is there: the files below it, with their
times. -/
def Sees (disk : Str → Forest) (d : Files) (p : Str) : Prop :=
  ∀ q t, Found (disk p) q t ↔ (∀ n ∈ q, Proper n) ∧ times d (under p q) = some t

/-- Settings with which static files can be copied. `out` tells which paths are
outputs. -/
structure GoodCopy (S : Setup) (out : Str → Prop) (cfg : MakeSettings.Settings) : Prop where
  entries : ∀ f ∈ cfg.copy.getD [], f ≠ []
  /-- Files are not copied from the output directory. -/
  sources : ∀ f q, Static cfg f q → ¬ out (source S f q)
  dests : ∀ f q, Static cfg f q → out (dest S f q)
  /-- No copy is in the place of a page. -/
  apart : ∀ f q, Static cfg f q → ∀ w, Possible (base S cfg) w → w.output ≠ dest S f q

/-- The settings of the files, if there are any, are good, and the directories are
seen. -/
def CopyNow (S : Setup) (disk : Files → Str → Forest) (out : Str → Prop) (d : Files) : Prop :=
  ∀ cfg, S.config d = some cfg → Good S out cfg ∧ GoodCopy S out cfg ∧
    ∀ f ∈ cfg.copy.getD [], Sees (disk d) d (absPath S.root f)

/-- The histories of a site, with whole builds (compare `Incremental.Reachable`). It
begins without outputs. In any order, the user writes and removes files and runs
blogc-make, which may fail. What the user writes is newer than the outputs that are
there, and is not an output. -/
inductive Reached (S : Setup) (disk : Files → Str → Forest) (out : Str → Prop) : Files → Prop where
  | start (d : Files) : (∀ p, out p → d p = none) → Reached S disk out d
  | edit (d : Files) (p : Str) (text : Str) (now : Int × Int) : Reached S disk out d → ¬ out p →
      (∀ q c t, out q → d q = some (c, t) → Later now t) → Reached S disk out (put d p (some (text, now)))
  | remove (d : Files) (p : Str) : Reached S disk out d → Reached S disk out (put d p none)
  | build (d d' : Files) (clock : Str → Int × Int) (rv : Int) : Reached S disk out d →
      CopyNow S disk out d → S.buildAll disk clock d = some (d', rv) → Reached S disk out d'

/-- The clock is not behind a static file, nor behind the settings file. -/
def CopiedInTime (S : Setup) (clock : Str → Int × Int) (d : Files) (f : Str) (q : List Str) : Prop :=
  ∀ i ∈ [S.settingsFile, source S f q], ∀ u, times d i = some u → ¬ Later u (clock (dest S f q))

/-- A copy is missing or old: the source or the settings file is newer. -/
def Old (S : Setup) (d : Files) (f : Str) (q : List Str) : Prop :=
  ∀ t, times d (dest S f q) = some t →
    ∃ i ∈ [S.settingsFile, source S f q], ∃ u, times d i = some u ∧ Later u t

end Blogc.Spec.StaticFiles
