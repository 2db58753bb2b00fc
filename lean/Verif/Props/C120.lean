import Verif.Lemmas.GitMemorySame
import Verif.Lemmas.GitMemoryRun

/-!
# C120: memory of the git receiver
-/

namespace Blogc.C120

open Blogc Blogc.GitMem Blogc.Spec.GitAccount

/-- The programs with memory are those of Model/GitShell.lean and Model/GitHooks.lean (C43 and
others): without the memory they are the same. -/
theorem same (self bd : Option Str) (arg : Str) (env : GitHooks.Env) (why : Why) :
    (shellM self bd arg).erase = GitShell.shell self bd arg ∧
      (preReceiveM env why).erase = GitHooks.preReceive env ∧
      (postReceiveM env why).erase = GitHooks.postReceive env :=
  ⟨shell_same self bd arg, preReceive_same env why, postReceive_same env why⟩

/-- Every execution takes and releases memory in some way. -/
theorem accounted (self bd : Option Str) (arg : Str) (env : GitHooks.Env) (why : Why) :
    (∀ t a, (GitShell.shell self bd arg).Exec t a → ∃ ev, (shellM self bd arg).Runs t ev a) ∧
      (∀ t a, (GitHooks.preReceive env).Exec t a → ∃ ev, (preReceiveM env why).Runs t ev a) ∧
      (∀ t a, (GitHooks.postReceive env).Exec t a → ∃ ev, (postReceiveM env why).Runs t ev a) :=
  ⟨fun t a h => runs_of_exec _ t a (shell_same self bd arg ▸ h),
    fun t a h => runs_of_exec _ t a (preReceive_same env why ▸ h),
    fun t a h => runs_of_exec _ t a (postReceive_same env why ▸ h)⟩

/-- The configuration with these texts. -/
def configOf (src : Str) : Option Config.Config :=
  match Config.parse src [] with
  | some (.ok (.ok c)) => some c
  | _ => none

/-- A server whose public link is set to `/srv/www` for the repository `blog.git`. -/
def sample : GitHooks.Env where
  base := some b!"/home/git"
  home := none
  builds := none
  gitDir := true
  self := b!"/home/git/repos/blog.git/hooks/pre-receive"
  realpath := fun p => some p
  realpath2 := fun _ => none
  config := fun _ => configOf b!"[repo:blog.git]\nsymlink = /srv/www\nmirror = backup\n"
  stdin := b!"1111 2222 refs/heads/main\n"
  tmpdir := b!"/tmp/blogc_abc"
  epoch := 7
  cpus := 2

/-- The run in which the system answers in this way. -/
def traceOf {C α : Type} (f : C → Bool) : MProg C α → List (C × Bool) × List Event × α
  | .ret a => ([], [], a)
  | .call c k => let r := traceOf f (k (f c)); ((c, f c) :: r.1, r.2)
  | .mem e k => let r := traceOf f k; (r.1, e :: r.2.1, r.2.2)

theorem trace_runs {C α : Type} (f : C → Bool) (p : MProg C α) :
    p.Runs (traceOf f p).1 (traceOf f p).2.1 (traceOf f p).2.2 := by
  induction p with
  | ret a => exact .ret a
  | call c k ih => exact .call (ih (f c))
  | mem e k ih => exact .mem ih

theorem sample_run {C α : Type} (f : C → Bool) (p : MProg C α) (a : α) (xs : List Event)
    (ha : (traceOf f p).2.2 = a) (hx : ∀ e ∈ xs, e ∈ (traceOf f p).2.1) :
    ∃ t ev, p.Runs t ev a ∧ ∀ e ∈ xs, e ∈ ev :=
  ⟨_, _, ha ▸ trace_runs f p, hx⟩

/-- Only `git config` fails, and only the settings file of make is missing. -/
def answers : GitHooks.Call → Bool
  | .system cmd => !(b!"git config".isPrefixOf cmd)
  | .exists_ p => p == b!"blogcfile"
  | _ => true

/-- The hook after a push: when it returns, all that it took is released, and before that nothing is
used that was released or not taken, and nothing is released twice. `rmdir_recursive` may end the
process (status 2). -/
theorem post_receive (env : GitHooks.Env) (why : Why) (t : List (GitHooks.Call × Bool)) (ev : List Event)
    (a : GitHooks.Outcome) (h : (postReceiveM env why).Runs t ev a) : ∃ l, inUse ev [] = some l ∧ Done a l :=
  runs_kept (postReceive_kept env why) h

example : ∃ t ev, (postReceiveM sample .missing).Runs t ev (.exit 0) ∧
    ∀ e ∈ [Event.acquire .sectionName, .acquire .mirror, .release .gitCmd], e ∈ ev :=
  sample_run answers _ _ _ (by decide +kernel) (by decide +kernel)

/-- The hook before a push is accepted: the same. -/
theorem pre_receive (env : GitHooks.Env) (why : Why) (t : List (GitHooks.Call × Bool)) (ev : List Event)
    (a : GitHooks.Outcome) (h : (preReceiveM env why).Runs t ev a) : ∃ l, inUse ev [] = some l ∧ Done a l :=
  runs_kept (preReceive_kept env why) h

example : ∃ t ev, (preReceiveM sample .missing).Runs t ev (.exit 0) ∧
    ∀ e ∈ [Event.acquire .sectionName, .acquire .branches, .acquire .buildCmd, .release .outputDir], e ∈ ev :=
  sample_run answers _ _ _ (by decide +kernel) (by decide +kernel)

/-- Proved part for the shell: nothing is left, unless the command is too big; then it is the copy of
the command. -/
theorem shell_partial (self bd : Option Str) (arg : Str) (t : List (GitShell.Call × Bool)) (ev : List Event) (a : Nat)
    (h : (shellM self bd arg).Runs t ev a) :
    ∃ l, inUse ev [] = some l ∧ (l = [] ∨ (TooBig bd arg ∧ l = [.command])) :=
  runs_kept (shell_kept self bd arg) h

example : ∃ t ev, (shellM (some b!"/bin/receiver") (some b!"/home/git") b!"git-receive-pack 'blog.git'").Runs t ev 0 ∧
    ∀ e ∈ [Event.acquire .initCmd, .acquire .command], e ∈ ev :=
  sample_run (fun c => decide (c ≠ GitShell.Call.exists_ b!"/home/git/repos/blog.git")) _ _ _
    (by decide +kernel) (by decide +kernel)

theorem inUse_append (a b : List Event) (l : List Thing) : inUse (a ++ b) l = (inUse a l).bind (inUse b) := by
  induction a generalizing l with
  | nil => rfl
  | cons e a ih =>
    show (account l e).bind (inUse (a ++ b)) = ((account l e).bind (inUse a)).bind (inUse b)
    cases account l e with
    | none => rfl
    | some l' => exact ih l'

theorem allowed_before {a b : List Event} {l : List Thing} (h : inUse (a ++ b) [] = some l) : Allowed a := by
  rw [inUse_append] at h
  cases ha : inUse a [] with
  | none => rw [ha] at h; cases h
  | some l' => exact ⟨l', ha⟩

/-- At any moment of any run, also when the process is killed there: all that happened was allowed. -/
theorem any_moment (self bd : Option Str) (arg : Str) (env : GitHooks.Env) (why : Why) (before after : List Event) :
    (∀ t a, (shellM self bd arg).Runs t (before ++ after) a → Allowed before) ∧
      (∀ t a, (preReceiveM env why).Runs t (before ++ after) a → Allowed before) ∧
      (∀ t a, (postReceiveM env why).Runs t (before ++ after) a → Allowed before) := by
  refine ⟨fun t a h => ?_, fun t a h => ?_, fun t a h => ?_⟩
  · obtain ⟨l, hl, -⟩ := shell_partial self bd arg t _ a h
    exact allowed_before hl
  · obtain ⟨l, hl, -⟩ := pre_receive env why t _ a h
    exact allowed_before hl
  · obtain ⟨l, hl, -⟩ := post_receive env why t _ a h
    exact allowed_before hl

theorem quoted_length (s : Str) : s.length ≤ (shellQuote (some s)).length := by
  have key : ∀ s : Str, s.length ≤ (s.flatMap shellQuoteByte).length := by
    intro s
    induction s with
    | nil => exact Nat.le_refl _
    | cons c s ih =>
      have : 1 ≤ (shellQuoteByte c).length := by
        unfold shellQuoteByte
        split
        · decide
        · split
          · decide
          · exact Nat.le_refl _
      rw [List.flatMap_cons, List.length_append, List.length_cons]
      omega
  have := key s
  simp only [shellQuote, List.length_append, List.length_cons, List.length_nil]
  omega

/-- A base directory with a very long name. -/
def longDir : Str := List.replicate 5000 c!"a"

/-- The property fails for the shell: when the command is too big, its copy is not released. -/
theorem shell_violated : ∃ (self bd : Option Str) (arg : Str) (t : List (GitShell.Call × Bool)) (ev : List Event)
    (a : Nat), (shellM self bd arg).Runs t ev a ∧ inUse ev [] = some [.command] := by
  have hp : GitShell.parse b!"git-upload-pack 'a'" = some b!"a" := by decide +kernel
  have hbig : GitShell.bufferSize < (GitShell.commandName b!"git-upload-pack 'a'").length +
      (shellQuote (some (longDir ++ b!"/repos/" ++ b!"a"))).length + 2 := by
    have h1 := quoted_length (longDir ++ b!"/repos/" ++ b!"a")
    have h2 : longDir.length = 5000 := List.length_replicate
    simp only [List.length_append, h2] at h1
    unfold GitShell.bufferSize
    omega
  refine ⟨some b!"/bin/sh", some longDir, b!"git-upload-pack 'a'", [(.chdir longDir, true)],
    [.acquire .tmpRepo, .use .tmpRepo, .acquire .repo, .use .repo, .acquire .quotedRepo, .release .tmpRepo,
      .acquire .command, .use .command, .use .quotedRepo, .release .repo, .release .quotedRepo], 1, ?_, by decide⟩
  unfold shellM
  simp only [hp]
  rw [if_pos (show List.take 11 b!"git-upload-pack 'a'" = b!"git-upload-" by decide)]
  refine .mem (.mem (.mem (.mem (.mem (.mem ?_)))))
  unfold gitExecM
  refine .call (ok := true) ?_
  rw [if_pos hbig]
  exact .mem (.mem (.mem (.mem (.mem (.ret 1)))))

end Blogc.C120
