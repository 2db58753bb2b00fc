import Verif.Model.MakeSite
import Verif.Model.MakeNative

/-!
# Model of the rule `clean` of a site, src/blogc-make/rules.c
-/

namespace Blogc.Make

open Blogc

/-- `bm_rule_list_built_files`, src/blogc-make/rules.c:1043-1063: the outputs of the
rules of the table (lines 783-871) that have outputs, in order. -/
def Site.builtFiles (s : Site) (run : Shell) : Res (List (Option FileCtx)) :=
  (s.paginationOutputs run).bind fun pagination => (s.paginationTagsOutputs run).bind fun paginationTags =>
    .ok (s.indexOutputs ++ s.atomOutputs ++ s.atomTagsOutputs ++ pagination ++ paginationTags ++ s.postsOutputs ++
      s.tagsOutputs ++ s.pagesOutputs ++ s.copyOutputs)

/-- `clean_exec`, src/blogc-make/rules.c:721-745; outputs that are NULL are skipped
(lines 729-730). -/
def Site.cleanExec (s : Site) (run : Shell) : Res (Prog RmCall (Option Nat)) :=
  (s.builtFiles run).map fun files => clean (absPath s.root s.outDir) (files.filterMap id)

end Blogc.Make
