import Verif.Model.MakeBuild

/-!
# Model of a whole build by blogc-make on a set of files, with the rule `copy`

This puts the rule `copy` (MakeSite) after the rules of `MakeBuild`. One copy is taken
to be exact (C59 says so of `bm_exec_native_cp`).
-/

namespace Blogc.Build

open Blogc Blogc.Make

/-- The context of the rule `copy`: the files to copy were found when the context was
made (src/blogc-make/ctx.c:289-295), and `stat` is called for the outputs when the rule
is run (src/blogc-make/rules.c:684). -/
def Setup.copySite (S : Setup) (disk : Str → Forest) (cfg : MakeSettings.Settings)
    (stat : Str → Option (Int × Int)) : Site := { S.site cfg stat with disk := disk }

/-- The status of `bm_exec_native_cp`, src/blogc-make/exec-native.c:21-86, if directories
can be made and files can be written: only the source may be missing (lines 49-54). -/
def copyStatus (d : Files) (source : Str) : Int := if (texts d source).isSome then 0 else 1

/-- The effect of `bm_exec_native_cp` on the files, src/blogc-make/exec-native.c:49-85. -/
def copyOne (clock : Str → Int × Int) (d : Files) (c : Str × Str) : Files :=
  match texts d c.1 with
  | some text => put d c.2 (some (text, clock c.2))
  | none => d

/-- The rule `copy` (src/blogc-make/rules.c:671-716) on the files: the files and the
status. A copy does not change what is found for a later one
(`Spec.StaticFiles.GoodCopy`), so the status of each can be told beforehand. -/
def Setup.copies (S : Setup) (disk : Str → Forest) (cfg : MakeSettings.Settings) (clock : Str → Int × Int)
    (d : Files) : Files × Int :=
  let s := S.copySite disk cfg (times d)
  let r := s.copyExec (fun f _ => copyStatus d f.path) s.copyOutputs
  ((r.1.map fun c => (c.1.path, c.2.path)).foldl (copyOne clock) d, r.2)

/-- `blogc-make all` with the rule `copy`, which is the last one with a list of outputs
in the table (src/blogc-make/rules.c:838-843, 876-891). `disk` tells what the directories
look like for the files. -/
def Setup.buildAll (S : Setup) (disk : Files → Str → Forest) (clock : Str → Int × Int) (d : Files) :
    Option (Files × Int) :=
  match S.config d with
  | none => some (d, 1)
  | some cfg =>
    match S.all cfg clock rules d with
    | none => none
    | some (d', rv) => if rv ≠ 0 then some (d', rv) else some (S.copies (disk d) cfg clock d')

end Blogc.Build
