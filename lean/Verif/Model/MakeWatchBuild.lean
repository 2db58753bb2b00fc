import Verif.Model.MakeFull

/-!
# Model of watching with builds: `blogc-make watch` on a set of files

This puts together src/blogc-make/reloader.c, the part of src/blogc-make/ctx.c about
changed files, and the rules (MakeBuild, MakeFull). Signals and waiting are in Reloader,
and a settings file that changes while it is read is in MakeWatch.
-/

namespace Blogc.Build

open Blogc Blogc.Make

/-- `all_exec`, src/blogc-make/rules.c:876-891, like `Setup.all`; `stat` is what the
context tells of the times of files. -/
def Setup.allBy (S : Setup) (cfg : MakeSettings.Settings) (clock : Str → Int × Int)
    (stat : Files → Str → Option (Int × Int)) : List Rule → Files → Option (Files × Int)
  | [], d => some (d, 0)
  | r :: rs, d =>
    match r (S.site cfg (stat d)) (S.exec cfg d) (Spec.MakeRun.shell (S.on cfg d)) with
    | .ub => none
    | .ok (jobs, rv) =>
      if rv ≠ 0 then some (S.after cfg clock d jobs, rv)
      else Setup.allBy S cfg clock stat rs (S.after cfg clock d jobs)

/-- `bm_filectx_changed`, src/blogc-make/ctx.c:103-131: `old` is the time that is
remembered, `st` the result of `stat`. -/
def changed (old : Int × Int) (st : Option (Int × Int)) : Bool :=
  match st with
  | none => false
  | some t => if t.1 = old.1 then decide (old.2 < t.2) else decide (old.1 < t.1)

/-- `bm_filectx_reload`, src/blogc-make/ctx.c:134-149, on what is remembered: the time,
or nothing if the file is not readable (then the time is 0, lines 44-46). -/
def reloadTime (mem st : Option (Int × Int)) : Option (Int × Int) :=
  if changed (mem.getD (0, 0)) st then st else mem

/-- `bm_filectx_reload`, src/blogc-make/ctx.c:134-149, for a file to copy. -/
def reloadFile (d : Files) (x : FileCtx) : FileCtx :=
  match times d x.path with
  | none => x
  | some t => if changed (x.sec, x.nsec) (some t) then { x with sec := t.1, nsec := t.2, readable := true } else x

/-- The context while watching, `bm_ctx_t`: the settings, the times remembered for the
files that are named by the settings, and the files to copy. All file contexts for the
same path have the same time, because they are made and reloaded together. -/
structure Watcher where
  cfg : MakeSettings.Settings
  mem : Str → Option (Int × Int)
  copy : List FileCtx

/-- The paths of the file contexts other than those of files to copy,
src/blogc-make/ctx.c:227, 244-287. -/
def Setup.ctxPaths (S : Setup) (cfg : MakeSettings.Settings) : List Str :=
  let s := S.site cfg fun _ => none
  ([s.settings, s.mainTemplate, s.atomTemplate, s.listingEntry] ++ s.posts ++ s.pages).filterMap (·.map (·.path))

/-- `bm_ctx_new`, src/blogc-make/ctx.c:164-298; `none` is NULL. -/
def Setup.watcher (S : Setup) (disk : Files → Str → Forest) (d : Files) : Option Watcher :=
  (S.config d).map fun cfg => ⟨cfg, times d, (S.copySite (disk d) cfg (times d)).copy⟩

/-- `bm_ctx_reload`, src/blogc-make/ctx.c:301-339: the new context; `none` is NULL. The
settings file itself is not reloaded (lines 325-336), but that makes no difference, as
it was not changed. -/
def Setup.reload (S : Setup) (disk : Files → Str → Forest) (d : Files) (w : Watcher) : Option Watcher :=
  if changed ((w.mem S.settingsFile).getD (0, 0)) (times d S.settingsFile) then S.watcher disk d
  else some { w with mem := fun p => reloadTime (w.mem p) (times d p), copy := w.copy.map (reloadFile d) }

/-- The times as the rules see them: of the files in the context as remembered, of the
others (these are the outputs) when the rule is run, src/blogc-make/rules.c:981. -/
def Setup.look (S : Setup) (w : Watcher) (d : Files) (p : Str) : Option (Int × Int) :=
  if p ∈ S.ctxPaths w.cfg then w.mem p else times d p

/-- The rule `copy` (src/blogc-make/rules.c:671-716) on the files, like `Setup.copies`,
with the files to copy that are in the context. -/
def Setup.watchCopies (S : Setup) (clock : Str → Int × Int) (w : Watcher) (d : Files) : Files × Int :=
  let s := S.site w.cfg (S.look w d)
  let r := Site.copyFiles (fun f o => needRebuild [some f] s.settings none none (some o) true)
    (fun f _ => copyStatus d f.path) w.copy
    (w.copy.map fun f => s.file (some (s.outDir ++ b!"/" ++ f.shortPath)) none)
  ((r.1.map fun c => (c.1.path, c.2.path)).foldl (copyOne clock) d, r.2)

/-- A round of the loop, src/blogc-make/reloader.c:64-78, with `all_exec` as for the
rule `watch` (src/blogc-make/rules.c:762-766): the context, the files, and the status of
the build (1 if there was none because the context could not be reloaded). The outer
`none` is undefined behaviour. -/
def Setup.round (S : Setup) (disk : Files → Str → Forest) (clock : Str → Int × Int) (d : Files) :
    Option Watcher → Option (Option Watcher × Files × Int)
  | none => some (none, d, 1)
  | some w =>
    match S.reload disk d w with
    | none => some (none, d, 1)
    | some w =>
      match S.allBy w.cfg clock (S.look w) rules d with
      | none => none
      | some (d', rv) =>
        if rv ≠ 0 then some (some w, d', rv)
        else some (some w, (S.watchCopies clock w d').1, (S.watchCopies clock w d').2)

end Blogc.Build
