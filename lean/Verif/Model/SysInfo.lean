import Verif.Model.Trie

/-!
# Model of the container query of `src/blogc/sysinfo.c` and of `src/blogc/funcvars.c`
-/

namespace Blogc.SysInfo

/-- `strstr(s, sub) != NULL`, for C strings. -/
def contains (sub : Str) : Str → Bool
  | [] => sub.isEmpty
  | c :: s => sub.isPrefixOf (c :: s) || contains sub s

/-- `inside_docker_evaluated` and `inside_docker`, src/blogc/sysinfo.c:118-119. -/
structure Statics where
  evaluated : Bool
  inside : Bool
  deriving DecidableEq, Repr

def Statics.init : Statics := ⟨false, false⟩

/-- `blogc_sysinfo_get_inside_docker`, src/blogc/sysinfo.c:121-140. `file` is the
text of `/proc/1/cgroup`, `none` if it cannot be read. The variable of line 137
is a new one, so the static variable keeps its value. -/
def getInsideDocker (file : Option Str) (st : Statics) : Bool × Statics :=
  if st.evaluated then (st.inside, st)
  else
    match file with
    | none => (false, ⟨true, false⟩)
    | some contents => (contains b!"/docker/" (cstr contents), ⟨true, st.inside⟩)

/-- `blogc_sysinfo_inject_inside_docker`, src/blogc/sysinfo.c:143-148. -/
def injectInsideDocker (file : Option Str) (global : Trie Str) (st : Statics) : Trie Str × Statics :=
  match getInsideDocker file st with
  | (true, st') => ((global.insert b!"BLOGC_SYSINFO_INSIDE_DOCKER" b!"1").1, st')
  | (false, st') => (global, st')

/-- `blogc_funcvars_eval` for the name `BLOGC_SYSINFO_INSIDE_DOCKER`,
src/blogc/funcvars.c:38-57. -/
def evalInsideDocker (file : Option Str) (global : Trie Str) (st : Statics) : Trie Str × Statics :=
  match global.lookup b!"BLOGC_SYSINFO_INSIDE_DOCKER" with
  | some _ => (global, st)
  | none => injectInsideDocker file global st

/-- A sequence of queries; the file may change between them. -/
def queries : List (Option Str) → Statics → List Bool
  | [], _ => []
  | f :: fs, st => (getInsideDocker f st).1 :: queries fs (getInsideDocker f st).2

/-- A sequence of evaluations of the template variable: its value after each. -/
def evaluations : List (Option Str) → Trie Str → Statics → List (Option Str)
  | [], _, _ => []
  | f :: fs, g, st =>
    (evalInsideDocker f g st).1.lookup b!"BLOGC_SYSINFO_INSIDE_DOCKER" ::
      evaluations fs (evalInsideDocker f g st).1 (evalInsideDocker f g st).2

end Blogc.SysInfo
