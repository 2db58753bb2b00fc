import Verif.Lemmas.GitMemory

/-!
# What the hooks have in use
-/

namespace Blogc.GitMem

open Blogc Blogc.GitMem.MProg Blogc.Spec.GitAccount
open Blogc.Config (Config)

section Shell

open Blogc.GitShell

/-- Nothing is in use, or only the copy of the command. -/
def ShellDone (tooBig : Prop) (_ : Nat) (l : List Thing) : Prop := l = [] ∨ (tooBig ∧ l = [.command])

theorem shellEnd_kept (P : Prop) (n : Nat) : Kept (ShellDone P) (shellEnd n) [.quotedRepo, .repo] := by
  unfold shellEnd
  events
  exact Or.inl rfl

theorem shellFail_kept (P : Prop) : Kept (ShellDone P) shellFail [.quotedRepo, .repo] := by
  unfold shellFail
  exact use_ok (by decide) (shellEnd_kept P 1)

theorem installHook_kept (P : Prop) (self name : Str) (k : MProg GitShell.Call Nat)
    (h : Kept (ShellDone P) k [.quotedRepo, .repo]) :
    Kept (ShellDone P) (installHookM self name k) [.quotedRepo, .repo] :=
  call_ok (call_ok (shellFail_kept P) h) (call_ok (shellFail_kept P) (call_ok (shellFail_kept P) h))

theorem gitExec_kept (bd arg quoted : Str) :
    Kept (ShellDone (bufferSize < (commandName arg).length + quoted.length + 2)) (gitExecM bd arg quoted)
      [.quotedRepo, .repo] := by
  unfold gitExecM
  refine call_ok (shellEnd_kept _ 1) ?_
  events
  by_cases h : bufferSize < (commandName arg).length + quoted.length + 2
  · rw [if_pos h]
    unfold shellEnd
    events
    exact Or.inr ⟨h, rfl⟩
  · rw [if_neg h]
    events
    exact call_ok (Or.inl rfl) (Or.inl rfl)

theorem kept_mono {C α : Type} {Q Q' : α → List Thing → Prop} {p : MProg C α} {l : List Thing}
    (hq : ∀ a l, Q a l → Q' a l) (h : Kept Q p l) : Kept Q' p l := by
  induction p generalizing l with
  | ret a => exact hq a l h
  | call c k ih => exact fun ok => ih ok (h ok)
  | mem e k ih =>
    obtain ⟨l', h1, h2⟩ := h
    exact ⟨l', h1, ih h2⟩

theorem shell_kept (self bd : Option Str) (arg : Str) : Kept (ShellDone (TooBig bd arg)) (shellM self bd arg) [] := by
  unfold shellM
  cases self with
  | none => exact Or.inl rfl
  | some self =>
    cases bd with
    | none => exact Or.inl rfl
    | some bd =>
      simp only
      refine acq_ok (by decide) ?_
      cases hp : parse arg with
      | none =>
        events
        exact Or.inl rfl
      | some p =>
        have hexec : Kept (ShellDone (TooBig (some bd) arg))
            (gitExecM bd arg (shellQuote (some (bd ++ b!"/repos/" ++ p)))) [.quotedRepo, .repo] :=
          kept_mono (fun _ l h => h.imp id fun h => ⟨⟨bd, p, rfl, hp, h.1⟩, h.2⟩) (gitExec_kept _ _ _)
        simp only
        events
        show Kept _ _ [Thing.quotedRepo, .repo]
        by_cases h : arg.take 11 = b!"git-upload-"
        · rw [if_pos h]
          exact hexec
        · rw [if_neg h]
          have hin := call_ok (c := GitShell.Call.chdir b!"hooks")
            (k := fun ok => match ok with
              | false => shellFail
              | true => installHookM self b!"pre-receive" <| installHookM self b!"post-receive"
                (gitExecM bd arg (shellQuote (some (bd ++ b!"/repos/" ++ p)))))
            (shellFail_kept (TooBig (some bd) arg))
            (installHook_kept _ self b!"pre-receive" _ (installHook_kept _ self b!"post-receive" _ hexec))
          refine use_ok (by decide) (call_ok ?_ ?_)
          · events
            refine call_ok ?_ ?_
            · events
              exact Or.inl rfl
            · refine rel_ok (by decide) (use_ok (by decide) ?_)
              exact call_ok (shellFail_kept _) (call_ok (call_ok (shellFail_kept _) hin) hin)
          · refine use_ok (by decide) ?_
            exact call_ok (shellFail_kept _) (call_ok (call_ok (shellFail_kept _) hin) hin)

end Shell

open Blogc.GitHooks

variable {α : Type} {Q : α → List Thing → Prop}

theorem settings_kept (env : Env) (why : Why) (k : Option Config → MProg GitHooks.Call α)
    (h0 : Kept Q (k none) [.repoDir]) (h1 : ∀ cfg, Kept Q (k (some cfg)) [.config, .repoDir]) :
    Kept Q (settingsM env why k) [.repoDir] := by
  unfold settingsM
  cases baseDir env.base env.home with
  | none => exact h0
  | some bd =>
    simp only
    refine acq_ok (by decide) (use_ok (by decide) ?_)
    cases env.config (bd ++ b!"/blogc-git-receiver.ini") with
    | some cfg =>
      simp only
      refine use_ok (by decide) (acq_ok (by decide) (use_ok (by decide) (acq_ok (by decide)
        (rel_ok (by decide) (rel_ok (by decide) ?_)))))
      exact h1 cfg
    | none =>
      cases why with
      | missing => exact rel_ok (by decide) h0
      | unreadable =>
        refine use_ok (by decide) (acq_ok (by decide) (use_ok (by decide) (use_ok (by decide)
          (rel_ok (by decide) (rel_ok (by decide) ?_)))))
        exact h0
      | malformed =>
        refine use_ok (by decide) (acq_ok (by decide) (use_ok (by decide) (acq_ok (by decide)
          (rel_ok (by decide) (use_ok (by decide) (use_ok (by decide) (rel_ok (by decide)
          (rel_ok (by decide) ?_))))))))
        exact h0

theorem sectionLoop_kept (env : Env) (bd repo : Str) (k : Option Str → MProg GitHooks.Call α)
    (h0 : Kept Q (k none) [.sections, .config, .repoDir])
    (h1 : ∀ s, Kept Q (k (some s)) [.sectionName, .sections, .config, .repoDir]) (ss : List Str) :
    Kept Q (sectionLoopM env bd repo k ss) [.sections, .config, .repoDir] := by
  induction ss with
  | nil => exact use_ok (by decide) h0
  | cons s ss ih =>
    unfold sectionLoopM
    refine use_ok (by decide) ?_
    by_cases h : startsWith s b!"repo:" = true
    · rw [if_pos h]
      refine use_ok (by decide) (acq_ok (by decide) (use_ok (by decide) ?_))
      cases env.realpath (bd ++ b!"/repos/" ++ s.drop 5) with
      | none => exact rel_ok (by decide) ih
      | some p =>
        simp only
        refine acq_ok (by decide) (rel_ok (by decide) (use_ok (by decide) (use_ok (by decide) ?_)))
        by_cases hp : p = repo
        · rw [if_pos hp]
          refine use_ok (by decide) (acq_ok (by decide) (rel_ok (by decide) ?_))
          exact h1 s
        · rw [if_neg hp]
          refine rel_ok (by decide) ?_
          exact ih
    · rw [if_neg h]
      exact ih

theorem section_kept (env : Env) (repo : Str) (cfg : Config) (k : Option Str → MProg GitHooks.Call α)
    (h0 : Kept Q (k none) [.config, .repoDir]) (h1 : ∀ s, Kept Q (k (some s)) [.sectionName, .config, .repoDir]) :
    Kept Q (sectionM env repo cfg k) [.config, .repoDir] := by
  unfold sectionM
  cases baseDir env.base env.home with
  | none => exact h0
  | some bd =>
    simp only
    refine use_ok (by decide) (acq_ok (by decide) ?_)
    exact sectionLoop_kept env bd repo _ (rel_ok (by decide) h0) (fun s => rel_ok (by decide) (h1 s)) _

theorem push_kept (m : Str) : Kept Done (pushM m) [.mirror, .repoDir] := by
  unfold pushM
  events
  refine call_ok ?_ ?_
  · events
    exact Or.inr rfl
  · events
    exact Or.inr rfl

theorem postReceive_kept (env : Env) (why : Why) : Kept Done (postReceiveM env why) [] := by
  unfold postReceiveM
  cases env.realpath (Make.dirname env.self) with
  | none => exact Or.inr rfl
  | some hooks =>
    have last : Kept (C := GitHooks.Call) Done (rel .repoDir <| .ret (.exit 0)) [.repoDir] :=
      rel_ok (by decide) (Or.inr rfl)
    simp only
    refine acq_ok (by decide) (use_ok (by decide) (acq_ok (by decide) (rel_ok (by decide) (use_ok (by decide) ?_))))
    have hp : Kept Done (acq .mirror <| pushM b!"mirror") [.repoDir] := acq_ok (by decide) (push_kept _)
    refine call_ok (rel_ok (by decide) (Or.inr rfl)) (call_ok (call_ok ?_ hp) hp)
    refine settings_kept env why _ last fun cfg => ?_
    refine section_kept env _ cfg _ (rel_ok (by decide) last) fun s => ?_
    refine use_ok (by decide) (use_ok (by decide) ?_)
    cases cfg.get s b!"mirror" with
    | none => exact rel_ok (by decide) (rel_ok (by decide) last)
    | some m =>
      refine acq_ok (by decide) (rel_ok (by decide) (rel_ok (by decide) ?_))
      exact push_kept m

theorem linkPath_kept (env : Env) (why : Why) (repo : Str) (k : Str → MProg GitHooks.Call α)
    (h : ∀ sym, Kept Q (k sym) [.sym, .repoDir]) : Kept Q (linkPathM env why repo k) [.repoDir] := by
  have hd : Kept Q (use .repoDir <| acq .sym <| k (repo ++ b!"/htdocs")) [.repoDir] :=
    use_ok (by decide) (acq_ok (by decide) (h _))
  unfold linkPathM
  refine settings_kept env why _ hd fun cfg => ?_
  refine section_kept env _ cfg _ (rel_ok (by decide) hd) fun s => ?_
  refine use_ok (by decide) (use_ok (by decide) ?_)
  cases cfg.get s b!"symlink" with
  | none => exact rel_ok (by decide) (rel_ok (by decide) hd)
  | some v =>
    refine use_ok (by decide) (use_ok (by decide) (acq_ok (by decide) (rel_ok (by decide) (rel_ok (by decide) ?_))))
    exact h _

theorem exit2_kept (l : List Thing) : Kept (C := GitHooks.Call) Done (.ret (.exit 2)) l := Or.inl rfl

/-- The name of the output. -/
def OutputName (o : Thing) : Prop := o = .outputDir ∨ o = .outputDir2

theorem cleanup_out (env : Env) (n : Nat) {o : Thing} (ho : OutputName o) :
    Kept Done (cleanupM env [.sym, .ref, o] n) [o, .ref, .sym, .repoDir] := by
  rcases ho with e | e <;> subst e
  all_goals
    refine rel_ok (by decide) (rel_ok (by decide) (rel_ok (by decide) ?_))
    exact call_ok (exit2_kept _) (rel_ok (by decide) (Or.inr rfl))

theorem cleanup_ref (env : Env) (n : Nat) : Kept Done (cleanupM env [.sym, .ref] n) [.ref, .sym, .repoDir] := by
  refine rel_ok (by decide) (rel_ok (by decide) ?_)
  exact call_ok (exit2_kept _) (rel_ok (by decide) (Or.inr rfl))

theorem early_ref (n : Nat) : Kept Done (earlyM [.sym, .ref] n) [.ref, .sym, .repoDir] := by
  refine rel_ok (by decide) (rel_ok (by decide) (rel_ok (by decide) ?_))
  exact Or.inr rfl

theorem early_sym (n : Nat) : Kept Done (earlyM [.sym] n) [.sym, .repoDir] := by
  refine rel_ok (by decide) (rel_ok (by decide) ?_)
  exact Or.inr rfl

theorem giveUp_nothing (env : Env) (out : Str) {o : Thing} (ho : OutputName o) :
    Kept Done (giveUpM env o [] out) [o, .ref, .sym, .repoDir] :=
  use_ok (by simp) (call_ok (exit2_kept _) (cleanup_out env 1 ho))

theorem giveUp_one (env : Env) (out : Str) {o x : Thing} (ho : OutputName o) :
    Kept Done (giveUpM env o [x] out) [x, o, .ref, .sym, .repoDir] := by
  refine use_ok (by simp) (call_ok (exit2_kept _) ?_)
  refine rel_ok (by simp) ?_
  rw [erase_top]
  exact cleanup_out env 1 ho

theorem deploy_kept (env : Env) (sym out cmd : Str) {o : Thing} (ho : OutputName o) :
    Kept Done (deployM env o sym out cmd) [o, .ref, .sym, .repoDir] := by
  have hb : Thing.buildCmd ∉ [o, .ref, .sym, .repoDir] := by rcases ho with e | e <;> subst e <;> decide
  have hh : Thing.htdocs ∉ [o, .ref, .sym, .repoDir] := by rcases ho with e | e <;> subst e <;> decide
  unfold deployM
  refine acq_ok hb (use_ok (by simp) (use_ok (by simp) ?_))
  refine call_ok (giveUp_one env out ho) ?_
  refine rel_ok (by simp) ?_
  rw [erase_top]
  refine use_ok (by simp) ?_
  cases env.realpath2 sym with
  | none =>
    refine use_ok (by simp) (use_ok (by simp) ?_)
    exact call_ok (use_ok (by simp) (giveUp_nothing env out ho)) (cleanup_out env 0 ho)
  | some old =>
    refine acq_ok hh (use_ok (by simp) ?_)
    refine call_ok (use_ok (by simp) (giveUp_one env out ho)) ?_
    refine use_ok (by simp) (use_ok (by simp) ?_)
    refine call_ok (use_ok (by simp) (giveUp_one env out ho)) ?_
    refine use_ok (by simp) (call_ok (exit2_kept _) (rel_ok (by simp) ?_))
    rw [erase_top]
    exact cleanup_out env 0 ho

theorem build_kept (env : Env) (sym out : Str) {o : Thing} (ho : OutputName o) :
    Kept Done (buildM env o sym out) [o, .ref, .sym, .repoDir] := by
  have hd : ∀ cmd, Kept Done (use o <| deployM env o sym out cmd) [o, .ref, .sym, .repoDir] :=
    fun cmd => use_ok (by simp) (deploy_kept env sym out cmd ho)
  exact call_ok
    (call_ok
      (call_ok (cleanup_out env 0 ho) (call_ok (call_ok (cleanup_out env 1 ho) (hd _)) (hd _)))
      (call_ok (call_ok (cleanup_out env 1 ho) (hd _)) (hd _)))
    (call_ok (cleanup_out env 1 ho) (hd _))

theorem checkout_kept (env : Env) (sym rev : Str) : Kept Done (checkoutM env sym rev) [.ref, .sym, .repoDir] := by
  unfold checkoutM
  refine call_ok (early_ref 1) ?_
  refine use_ok (by decide) (acq_ok (by decide) (use_ok (by decide) ?_))
  refine call_ok (rel_ok (by decide) (cleanup_ref env 1)) (rel_ok (by decide) ?_)
  refine call_ok (cleanup_ref env 1) ?_
  simp only
  cases buildsDir env with
  | ub => exact trivial
  | ok builds =>
    simp only
    refine acq_ok (by decide) (use_ok (by decide) (use_ok (by decide) (acq_ok (by decide) (rel_ok (by decide)
      (use_ok (by decide) ?_)))))
    refine call_ok ?_ ?_
    · exact build_kept env sym _ (Or.inl rfl)
    · refine use_ok (by decide) (acq_ok (by decide) (rel_ok (by decide) ?_))
      exact build_kept env sym _ (Or.inr rfl)

theorem pushed_kept (env : Env) (sym : Str) : Kept Done (pushedM env sym) [.sym, .repoDir] := by
  unfold pushedM
  refine acq_ok (by decide) (use_ok (by decide) (acq_ok (by decide) ?_))
  cases PreReceive.parse env.stdin with
  | none =>
    refine rel_ok (by decide) ?_
    cases PreReceive.deployRef env.stdin with
    | none => exact rel_ok (by decide) (early_sym 0)
    | some rev => exact acq_ok (by decide) (rel_ok (by decide) (checkout_kept env sym rev))
  | some t =>
    refine use_ok (by decide) ?_
    cases PreReceive.deployRef env.stdin with
    | none => exact rel_ok (by decide) (rel_ok (by decide) (early_sym 0))
    | some rev => exact acq_ok (by decide) (rel_ok (by decide) (rel_ok (by decide) (checkout_kept env sym rev)))

theorem rebuilt_kept (env : Env) (sym : Str) : Kept Done (rebuiltM env sym) [.sym, .repoDir] := by
  unfold rebuiltM
  refine use_ok (by decide) (call_ok (early_sym 1) (use_ok (by decide) ?_))
  cases env.realpath sym with
  | none => exact early_sym 1
  | some dir =>
    refine acq_ok (by decide) (use_ok (by decide) (acq_ok (by decide) (rel_ok (by decide) ?_)))
    cases builtRevision dir with
    | none => exact rel_ok (by decide) (early_sym 1)
    | some rev =>
      exact use_ok (by decide) (acq_ok (by decide) (rel_ok (by decide) (checkout_kept env sym rev)))

theorem preReceive_kept (env : Env) (why : Why) : Kept Done (preReceiveM env why) [] := by
  unfold preReceiveM
  cases env.realpath (Make.dirname env.self) with
  | none => exact Or.inr rfl
  | some hooks =>
    simp only
    refine acq_ok (by decide) (use_ok (by decide) (acq_ok (by decide) (rel_ok (by decide) (use_ok (by decide) ?_))))
    refine call_ok (rel_ok (by decide) (Or.inr rfl)) ?_
    refine linkPath_kept env why _ _ fun sym => ?_
    by_cases hg : env.gitDir = true
    · rw [if_pos hg]
      exact pushed_kept env sym
    · rw [if_neg hg]
      exact rebuilt_kept env sym

end Blogc.GitMem
