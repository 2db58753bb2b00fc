import Verif.Lemmas.Path
import Verif.Props.C43

/-!
# C42: remote repositories stay inside the repositories directory
-/

namespace Blogc.C42

open Blogc Blogc.GitShell Blogc.Shell Blogc.Path

/-- The repository that git-shell is asked to use is inside `BASE/repos`,
provided that the requested path does not climb above its starting point.
Missing: the shell does not refuse paths that climb (`inside_violated`), and
symbolic links inside `BASE/repos` are not followed here. -/
theorem inside_partial (self bd arg : Str) (hbd : NulFree bd) (harg : NulFree arg)
    (t : List (Call × Bool)) (rv : Nat) (h : (shell (some self) (some bd) arg).Exec t rv)
    (hsafe : ∀ p, parse arg = some p → StaysBelow 0 (comps p)) (buf : Str) (ok : Bool)
    (hm : (Call.execGitShell buf, ok) ∈ t) :
    ∃ cmd path, words buf = some [cmd, path] ∧ Inside (bd ++ b!"/repos") path := by
  have h1 := C43.one_argument self bd arg hbd harg t rv h
  cases hp : parse arg with
  | none => rw [hp] at h1; rw [h1.1] at hm; simp at hm
  | some p =>
    rw [hp] at h1
    refine ⟨_, _, (h1.1 buf ok hm).1, ?_⟩
    have := inside_of_staysBelow (bd ++ b!"/repos") p (hsafe p hp)
    simpa using this

/-- In particular when no component of the path is `..`. -/
theorem inside_no_dotdot_partial (self bd arg : Str) (hbd : NulFree bd) (harg : NulFree arg)
    (t : List (Call × Bool)) (rv : Nat) (h : (shell (some self) (some bd) arg).Exec t rv)
    (hsafe : ∀ p, parse arg = some p → b!".." ∉ comps p) (buf : Str) (ok : Bool)
    (hm : (Call.execGitShell buf, ok) ∈ t) :
    ∃ cmd path, words buf = some [cmd, path] ∧ Inside (bd ++ b!"/repos") path :=
  inside_partial self bd arg hbd harg t rv h
    (fun p hp => staysBelow_of_no_dotdot _ _ (hsafe p hp)) buf ok hm

/-- A client can make git-shell work outside of `BASE/repos`. -/
theorem inside_violated : ∃ (self bd arg : Str) (t : List (Call × Bool)) (rv : Nat) (buf path : Str),
    NulFree arg ∧ (shell (some self) (some bd) arg).Exec t rv ∧ (Call.execGitShell buf, true) ∈ t ∧
    words buf = some [b!"git-upload-pack", path] ∧ ¬ Inside (bd ++ b!"/repos") path :=
  ⟨b!"/usr/bin/r", b!"/home/git", b!"git-upload-pack '../../bob/secret.git'",
    [(.chdir b!"/home/git", true),
      (.execGitShell b!"git-upload-pack '/home/git/repos/../../bob/secret.git'", true)], 0,
    b!"git-upload-pack '/home/git/repos/../../bob/secret.git'",
    b!"/home/git/repos/../../bob/secret.git", by decide,
    .call (ok := true) (.call (ok := true) (.ret 0)), by simp, by decide, by decide⟩

/-- It can also create a repository there. -/
theorem create_violated : ∃ (self bd arg : Str) (t : List (Call × Bool)) (rv : Nat) (cmd path : Str),
    (shell (some self) (some bd) arg).Exec t rv ∧
    (Call.system (cmd ++ b!" > /dev/null"), true) ∈ t ∧
    words cmd = some [b!"git", b!"init", b!"--bare", path] ∧ ¬ Inside (bd ++ b!"/repos") path :=
  ⟨b!"/usr/bin/r", b!"/home/git", b!"git-receive-pack '../x.git'",
    [(.exists_ b!"/home/git/repos/../x.git", false),
      (.system b!"git init --bare '/home/git/repos/../x.git' > /dev/null", true),
      (.chdir b!"/home/git/repos/../x.git", false)], 1,
    b!"git init --bare '/home/git/repos/../x.git'", b!"/home/git/repos/../x.git",
    .call (ok := false) (.call (ok := true) (.call (ok := false) (.ret 1))), by simp, by decide, by decide⟩

/-- A safe nested path. -/
example : parse b!"git-upload-pack '/team/x/../y.git'" = some b!"team/x/../y.git" ∧
    StaysBelow 0 (comps b!"team/x/../y.git") := by
  refine ⟨by decide, ?_⟩
  simp [comps, StaysBelow]

end Blogc.C42
