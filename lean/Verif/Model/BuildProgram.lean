import Verif.Model.MakeBuild
import Verif.Model.Program

/-!
# A build by blogc-make, with blogc as in Model/Program.lean
-/

namespace Blogc.Build

open Blogc

/-- The first part of `bm_ctx_new`, src/blogc-make/ctx.c:175-188: the settings file is read and parsed; `none` is an
error. -/
def readSettings (files : Program.Files) (fuel : Nat) (f : Str) : Run (Option MakeSettings.Settings) := do
  match ← Program.readText files fuel f with
  | none => pure none
  | some s =>
    match MakeSettings.parse s with
    | none => .out
    | some .ub => .ub
    | some (.ok (.error _)) => pure none
    | some (.ok (.ok st)) => pure (some st)

/-- A build in which the settings are read as above, and the runs of blogc read their files with
`blogc_source_parse_from_file` and `blogc_template_parse_from_file` (src/blogc/loader.c:57-106). -/
def Setup.real (S : Setup) (h : Program.Host) (depth fuel : Nat) : Setup :=
  { S with
    settings := fun text => Program.value (readSettings (fun _ => some text) fuel [])
    source := fun m f text => Program.value (Program.readSource (fun _ => some text) depth fuel m f)
    template := fun text => Program.value (Program.readTemplate (fun _ => some text) fuel [])
    env := Program.env h (fun _ => none) depth fuel }

end Blogc.Build
