import Verif.Lemmas.GitMemory

/-!
# The programs with memory make the same system calls
-/

namespace Blogc.GitMem

open Blogc Blogc.GitMem.MProg
open Blogc.Config (Config)

section Shell

open Blogc.GitShell

theorem gitExec_same (bd arg quoted : Str) : (gitExecM bd arg quoted).erase = gitExec bd arg quoted := by
  unfold gitExecM gitExec Prog.require
  simp only [erase]
  congr 1
  funext ok
  cases ok with
  | false => rfl
  | true =>
    by_cases h : bufferSize < (commandName arg).length + quoted.length + 2
    · simp only [erase, if_pos h, if_true]; rfl
    · simp only [erase, if_neg h, if_true]

theorem installHook_same (self name : Str) (k : MProg GitShell.Call Nat) :
    (installHookM self name k).erase = installHook self name k.erase := by
  unfold installHookM installHook Prog.require
  simp only [erase]
  congr 1
  funext ok
  cases ok with
  | false =>
    simp only [erase, Bool.false_eq_true, if_false]
    congr 1
    funext ok
    cases ok <;> rfl
  | true =>
    simp only [erase, if_true]
    congr 1
    funext ok
    cases ok with
    | false => rfl
    | true =>
      simp only [erase, if_true]
      congr 1
      funext ok
      cases ok <;> rfl

theorem call_same {C α : Type} {c : C} {k : Bool → MProg C α} {k' : Bool → Prog C α}
    (h0 : (k false).erase = k' false) (h1 : (k true).erase = k' true) :
    (MProg.call c k).erase = Prog.call c k' := by
  show Prog.call c (fun ok => (k ok).erase) = Prog.call c k'
  congr 1
  funext ok
  cases ok
  · exact h0
  · exact h1

theorem shell_same (self bd : Option Str) (arg : Str) : (shellM self bd arg).erase = shell self bd arg := by
  unfold shellM shell
  cases self with
  | none => rfl
  | some self =>
    cases bd with
    | none => rfl
    | some bd =>
      cases hp : parse arg with
      | none => rfl
      | some p =>
        simp only [erase]
        by_cases h : arg.take 11 = b!"git-upload-"
        · rw [if_pos h, if_pos h]
          exact gitExec_same _ _ _
        · rw [if_neg h, if_neg h]
          have hin : ∀ q : MProg GitShell.Call Nat, q.erase = gitExec bd arg (shellQuote (some (bd ++ b!"/repos/" ++ p))) →
              (MProg.call (GitShell.Call.chdir b!"hooks") fun ok =>
                match ok with
                | false => shellFail
                | true => installHookM self b!"pre-receive" <| installHookM self b!"post-receive" q).erase =
              Prog.require (.chdir b!"hooks") 1 (installHook self b!"pre-receive" <|
                installHook self b!"post-receive" (gitExec bd arg (shellQuote (some (bd ++ b!"/repos/" ++ p))))) := by
            intro q hq
            refine call_same rfl ?_
            show (installHookM _ _ _).erase = _
            rw [installHook_same, installHook_same, hq]
            rfl
          have hin' := hin _ (gitExec_same bd arg _)
          have hh := call_same (c := GitShell.Call.chdir (bd ++ b!"/repos/" ++ p))
            (k := fun ok => match ok with
              | false => shellFail
              | true => MProg.call (.exists_ b!"hooks") fun there =>
                match there with
                | true => MProg.call (GitShell.Call.chdir b!"hooks") fun ok =>
                  match ok with
                  | false => shellFail
                  | true => installHookM self b!"pre-receive" <| installHookM self b!"post-receive"
                    (gitExecM bd arg (shellQuote (some (bd ++ b!"/repos/" ++ p))))
                | false => .call (.mkdir b!"hooks") fun ok =>
                  match ok with
                  | true => MProg.call (GitShell.Call.chdir b!"hooks") fun ok =>
                    match ok with
                    | false => shellFail
                    | true => installHookM self b!"pre-receive" <| installHookM self b!"post-receive"
                      (gitExecM bd arg (shellQuote (some (bd ++ b!"/repos/" ++ p))))
                  | false => shellFail)
            (k' := fun ok => if ok then Prog.call (.exists_ b!"hooks") fun there =>
                if there then Prog.require (.chdir b!"hooks") 1 (installHook self b!"pre-receive" <|
                  installHook self b!"post-receive" (gitExec bd arg (shellQuote (some (bd ++ b!"/repos/" ++ p)))))
                else Prog.require (.mkdir b!"hooks") 1 (Prog.require (.chdir b!"hooks") 1
                  (installHook self b!"pre-receive" <|
                  installHook self b!"post-receive" (gitExec bd arg (shellQuote (some (bd ++ b!"/repos/" ++ p))))))
              else .ret 1)
            rfl (call_same (call_same rfl hin') hin')
          exact call_same (call_same rfl hh) hh

end Shell

open Blogc.GitHooks

variable {α : Type}

theorem settings_same (env : Env) (why : Why) (k : Option Config → MProg GitHooks.Call α) :
    (settingsM env why k).erase = (k (settings env)).erase := by
  unfold settingsM settings
  cases hb : baseDir env.base env.home with
  | none => rfl
  | some bd =>
    simp only [erase]
    cases env.config (bd ++ b!"/blogc-git-receiver.ini") with
    | none => cases why <;> rfl
    | some cfg => rfl

theorem sectionLoop_same (env : Env) (bd repo : Str) (k : Option Str → MProg GitHooks.Call α) (ss : List Str) :
    (sectionLoopM env bd repo k ss).erase = (k (sectionLoop env bd repo ss)).erase := by
  induction ss with
  | nil => rfl
  | cons s ss ih =>
    simp only [sectionLoopM, sectionLoop, erase]
    by_cases h : startsWith s b!"repo:" = true
    · rw [if_pos h, if_pos h]
      simp only [erase]
      cases env.realpath (bd ++ b!"/repos/" ++ s.drop 5) with
      | none => exact ih
      | some p =>
        simp only [erase]
        by_cases hp : p = repo
        · rw [if_pos hp, if_pos hp]; rfl
        · rw [if_neg hp, if_neg hp]; exact ih
    · rw [if_neg h, if_neg h]; exact ih

theorem section_same (env : Env) (repo : Str) (cfg : Config) (k : Option Str → MProg GitHooks.Call α) (bd : Str)
    (hb : baseDir env.base env.home = some bd) :
    (sectionM env repo cfg k).erase = (k (sectionLoop env bd repo cfg.sections)).erase := by
  unfold sectionM
  rw [hb]
  exact sectionLoop_same env bd repo (fun r => rel .sections (k r)) cfg.sections

theorem settings_base {env : Env} {cfg : Config} (h : settings env = some cfg) :
    ∃ bd, baseDir env.base env.home = some bd := by
  unfold settings at h
  cases hb : baseDir env.base env.home with
  | none => rw [hb] at h; cases h
  | some bd => exact ⟨bd, rfl⟩

theorem push_same (m : Str) : (pushM m).erase =
    Prog.call (.system (b!"git push --mirror " ++ m)) fun _ => .ret (.exit 0) := rfl

theorem postReceive_same (env : Env) (why : Why) : (postReceiveM env why).erase = postReceive env := by
  unfold postReceiveM postReceive repoDir
  cases hr : env.realpath (Make.dirname env.self) with
  | none => rfl
  | some hooks =>
    simp only [Option.map_some]
    refine call_same rfl (call_same (call_same ?_ rfl) rfl)
    refine (settings_same env why _).trans ?_
    unfold setting
    cases hs : settings env with
    | none => rfl
    | some cfg =>
      obtain ⟨bd, hb⟩ := settings_base hs
      refine (section_same env _ cfg _ bd hb).trans ?_
      rw [hb]
      simp only
      cases sectionLoop env bd (Make.dirname hooks) cfg.sections with
      | none => rfl
      | some s =>
        simp only [erase]
        cases cfg.get s b!"mirror" <;> rfl

theorem linkPath_same (env : Env) (why : Why) (repo : Str) (k : Str → MProg GitHooks.Call α) :
    (linkPathM env why repo k).erase = (k (linkPath env repo)).erase := by
  unfold linkPathM
  refine (settings_same env why _).trans ?_
  unfold linkPath setting
  cases hs : settings env with
  | none => rfl
  | some cfg =>
    obtain ⟨bd, hb⟩ := settings_base hs
    refine (section_same env _ cfg _ bd hb).trans ?_
    rw [hb]
    simp only
    cases sectionLoop env bd repo cfg.sections with
    | none => rfl
    | some s =>
      simp only [erase]
      cases cfg.get s b!"symlink" <;> rfl

theorem relAll_same (xs : List Thing) (k : MProg GitHooks.Call α) : (relAll xs k).erase = k.erase := by
  induction xs with
  | nil => rfl
  | cons x xs ih => exact ih

theorem cleanup_same (env : Env) (xs : List Thing) (n : Nat) : (cleanupM env xs n).erase = cleanup env n := by
  unfold cleanupM
  rw [relAll_same]
  exact call_same rfl rfl

theorem early_same (xs : List Thing) (n : Nat) : (earlyM xs n).erase = .ret (.exit n) := by
  unfold earlyM
  rw [relAll_same]
  rfl

theorem giveUp_same (env : Env) (o : Thing) (x : List Thing) (out : Str) :
    (giveUpM env o x out).erase = giveUp env out := by
  unfold giveUpM giveUp
  refine call_same rfl ?_
  exact (relAll_same x _).trans (cleanup_same _ _ _)

theorem deploy_same (env : Env) (o : Thing) (sym out cmd : Str) :
    (deployM env o sym out cmd).erase = deploy env sym out cmd := by
  unfold deployM deploy
  refine call_same (giveUp_same _ _ _ _) ?_
  simp only [erase]
  cases env.realpath2 sym with
  | none => exact call_same (giveUp_same _ _ _ _) (cleanup_same _ _ _)
  | some old =>
    exact call_same (giveUp_same _ _ _ _)
      (call_same (giveUp_same _ _ _ _) (call_same rfl (cleanup_same _ _ _)))

theorem build_same (env : Env) (o : Thing) (sym out : Str) : (buildM env o sym out).erase = build env sym out := by
  unfold buildM build
  refine call_same (call_same (call_same (cleanup_same _ _ _) ?_) ?_)
    (call_same (cleanup_same _ _ _) (deploy_same _ _ _ _ _))
  · exact call_same (call_same (cleanup_same _ _ _) (deploy_same _ _ _ _ _)) (deploy_same _ _ _ _ _)
  · exact call_same (call_same (cleanup_same _ _ _) (deploy_same _ _ _ _ _)) (deploy_same _ _ _ _ _)

theorem checkout_same (env : Env) (sym rev : Str) : (checkoutM env sym rev).erase = checkout env sym rev := by
  unfold checkoutM checkout
  refine call_same (early_same _ _) (call_same (cleanup_same _ _ _) (call_same (cleanup_same _ _ _) ?_))
  simp only [if_neg (show ¬ (true = false) by decide)]
  cases buildsDir env with
  | ub => rfl
  | ok builds => exact call_same (build_same _ _ _ _) (build_same _ _ _ _)

theorem pushed_same (env : Env) (sym : Str) : (pushedM env sym).erase =
    match PreReceive.deployRef env.stdin with
    | none => .ret (.exit 0)
    | some rev => checkout env sym rev := by
  unfold pushedM
  simp only [erase]
  cases PreReceive.parse env.stdin <;> cases PreReceive.deployRef env.stdin
  · exact early_same _ _
  · exact checkout_same _ _ _
  · exact early_same _ _
  · exact checkout_same _ _ _

theorem rebuilt_same (env : Env) (sym : Str) : (rebuiltM env sym).erase =
    Prog.require (.readable sym) (.exit 1)
      (match (env.realpath sym).bind builtRevision with
      | none => .ret (.exit 1)
      | some rev => checkout env sym rev) := by
  unfold rebuiltM
  refine call_same (early_same _ _) ?_
  simp only [erase, if_true]
  cases env.realpath sym with
  | none => exact early_same _ _
  | some dir =>
    simp only [Option.bind_some]
    cases builtRevision dir with
    | none => exact early_same _ _
    | some rev => exact checkout_same _ _ _

theorem preReceive_same (env : Env) (why : Why) : (preReceiveM env why).erase = preReceive env := by
  unfold preReceiveM preReceive repoDir
  cases hr : env.realpath (Make.dirname env.self) with
  | none => rfl
  | some hooks =>
    simp only [Option.map_some]
    refine call_same (early_same _ _) ?_
    refine (linkPath_same env why _ _).trans ?_
    simp only [if_true]
    by_cases hg : env.gitDir = true
    · rw [if_pos hg, if_pos hg]
      exact pushed_same _ _
    · rw [if_neg hg, if_neg hg]
      exact rebuilt_same _ _

end Blogc.GitMem
