import Verif.Model.MakeSite
import Verif.Model.MakeAtom
import Verif.Model.MakeSettings
import Verif.Spec.MakeRun

/-!
# Model of a build by blogc-make on a set of files: the rules of
`src/blogc-make/rules.c`, each with the runs of blogc that it makes

This puts together the models of the rules (MakeSite), of the shell (Spec/Shell) and
of blogc (Main). The rule `copy` is not included (see MakeCopy).
-/

namespace Blogc.Build

open Blogc Blogc.Make

/-- The regular files: content and time of modification. -/
abbrev Files := Str → Option (Str × (Int × Int))

def texts (d : Files) (p : Str) : Option Str := (d p).map (·.1)
def times (d : Files) (p : Str) : Option (Int × Int) := (d p).map (·.2)

/-- Write a file, or remove it. -/
def put (d : Files) (p : Str) (v : Option (Str × (Int × Int))) : Files := fun q => if q = p then v else d q

/-- What does not change from build to build: the command line and the environment of
blogc-make, and how texts are parsed. -/
structure Setup where
  root : Str
  settingsFile : Str
  outDir : Str
  blogc : Str
  dev : Bool
  deployed : Str
  /-- `bm_settings_parse`, src/blogc-make/settings.c:76-185 (MakeSettings). -/
  settings : Str → Option MakeSettings.Settings
  /-- `blogc_source_parse_from_file`, src/blogc/loader.c:73-106, after the file is
  read: from the global `TOCTREE_MAXDEPTH`, the path and the content. -/
  source : Option Str → Str → Str → Option (Trie Str)
  /-- `blogc_template_parse_from_file`, src/blogc/loader.c:57-70, after the file is
  read. -/
  template : Str → Option (List Template.Node)
  /-- The rest of the environment of blogc. -/
  env : Main.Env

namespace Setup

/-- The context of a build, src/blogc-make/ctx.c:164-298. -/
def site (S : Setup) (cfg : MakeSettings.Settings) (stat : Str → Option (Int × Int)) : Site where
  cfg := cfg
  root := S.root
  settingsFile := S.settingsFile
  outDir := S.outDir
  blogc := S.blogc
  dev := S.dev
  deployed := S.deployed
  stat := stat
  disk := fun _ => .nil

/-- The text of a file for a run of blogc. `bm_atom_deploy` has written the default
feed template (src/blogc-make/ctx.c:195-210, src/blogc-make/atom.c:89-131) if the
settings name none. -/
def seen (S : Setup) (cfg : MakeSettings.Settings) (d : Files) (p : Str) : Option Str :=
  if cfg.settings.lookup b!"atom_template" = none ∧ p = absPath S.root S.deployed then
    match atomGenerate (cfg.settings.lookup ·) with
    | .ok t => some t
    | .ub => none
  else texts d p

/-- blogc on the files. -/
def on (S : Setup) (cfg : MakeSettings.Settings) (d : Files) : Main.Env :=
  { S.env with
    loader := { S.env.loader with parse := fun m f => (S.seen cfg d f).bind (S.source m f) }
    template := fun f => (S.seen cfg d f).bind S.template }

end Setup

/-- What a program writes to files, and how it ends, if all its calls succeed. -/
def effects : Prog Main.Call Main.Outcome → List (Str × Str) × Main.Outcome
  | .ret a => ([], a)
  | .call (.write p text) k => ((p, text) :: (effects (k true)).1, (effects (k true)).2)
  | .call _ k => effects (k true)

/-- The run of blogc for a job: `bm_exec_blogc`, src/blogc-make/exec.c:291-370. -/
def Setup.run (S : Setup) (cfg : MakeSettings.Settings) (d : Files) (j : Job) :
    List (Str × Str) × Main.Outcome :=
  match j.command (S.site cfg fun _ => none), j.input with
  | .ok cmd, .ok input =>
    match Spec.MakeRun.started (S.on cfg d) cmd input with
    | some p => effects p
    | none => ([], .undefined)
  | _, _ => ([], .undefined)

/-- The status of the run, src/blogc-make/exec.c:369. A crash, or a run that does not
end, counts as a failure. -/
def Setup.exec (S : Setup) (cfg : MakeSettings.Settings) (d : Files) (j : Job) : Int :=
  match (S.run cfg d j).2 with
  | .exit n => if n = 127 then 1 else n
  | _ => 1

/-- Write files; `clock` is the time when a file is written. -/
def writeAll (clock : Str → Int × Int) (d : Files) (l : List (Str × Str)) : Files :=
  l.foldl (fun d w => put d w.1 (some (w.2, clock w.1))) d

/-- The files after the runs of a rule. The runs see the files as they were when the
rule was started; no run reads what another one writes (`Spec.Incremental.Good`). -/
def Setup.after (S : Setup) (cfg : MakeSettings.Settings) (clock : Str → Int × Int) (d : Files) (jobs : List Job) :
    Files :=
  jobs.foldl (fun d' j => writeAll clock d' (S.run cfg d j).1) d

/-- A rule: from the site, the status of runs and the shell, the jobs and the status. -/
abbrev Rule := Site → (Job → Int) → Shell → Res (List Job × Int)

/-- The rules that run blogc, in the order of the table, src/blogc-make/rules.c:790-837.
`bm_rule_execute` (rules.c:974-991) makes the list of outputs and passes it on. -/
def rules : List Rule :=
  [fun s exec _ => .ok (s.indexExec exec s.indexOutputs),
   fun s exec _ => .ok (s.atomExec exec s.atomOutputs),
   fun s exec _ => .ok (s.atomTagsExec exec s.atomTagsOutputs),
   fun s exec run => (s.paginationOutputs run).map (s.paginationExec exec),
   fun s exec run => (s.paginationTagsOutputs run).map (s.paginationTagsExec exec),
   fun s exec _ => .ok (s.postsExec exec s.postsOutputs),
   fun s exec _ => .ok (s.tagsExec exec s.tagsOutputs),
   fun s exec _ => .ok (s.pagesExec exec s.pagesOutputs)]

/-- `all_exec`, src/blogc-make/rules.c:876-891: the files and the status; `none` is
undefined behaviour. -/
def Setup.all (S : Setup) (cfg : MakeSettings.Settings) (clock : Str → Int × Int) :
    List Rule → Files → Option (Files × Int)
  | [], d => some (d, 0)
  | r :: rs, d =>
    match r (S.site cfg (times d)) (S.exec cfg d) (Spec.MakeRun.shell (S.on cfg d)) with
    | .ub => none
    | .ok (jobs, rv) =>
      if rv ≠ 0 then some (S.after cfg clock d jobs, rv)
      else Setup.all S cfg clock rs (S.after cfg clock d jobs)

/-- The settings of the files. -/
def Setup.config (S : Setup) (d : Files) : Option MakeSettings.Settings :=
  (texts d S.settingsFile).bind S.settings

/-- `blogc-make all`. Without settings nothing is done (src/blogc-make/main.c:113-119). -/
def Setup.build (S : Setup) (clock : Str → Int × Int) (d : Files) : Option (Files × Int) :=
  match S.config d with
  | none => some (d, 1)
  | some cfg => S.all cfg clock rules d

end Blogc.Build
