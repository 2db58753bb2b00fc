import Verif.Lemmas.Prog
import Verif.Model.GitHooks

/-!
# C80: a push is deployed completely, or leaves the site as it is

`GitHooks.preReceive env` is the hook that git runs before it accepts a push, or that is run by hand
to build again; git accepts the push if the status is 0. Its executions are lists of system calls with
their outcomes.
-/

namespace Blogc.C80

open Blogc Blogc.GitHooks

/-- The commands that build the site into the directory `out`. -/
def BuildsInto (out cmd : Str) : Prop :=
  cmd = b!"OUTPUT_DIR=\"" ++ out ++ b!"\" blogc-make -V all" ∨
  ∃ impl cpus, (impl = b!"gmake" ∨ impl = b!"make") ∧
    cmd = impl ++ b!" -j" ++ decNat cpus ++ b!" OUTPUT_DIR=\"" ++ out ++ b!"\" BLOGC_GIT_RECEIVER=1"

/-- A build into `out` has ended well. -/
def Built (h : List (Call × Bool)) (out : Str) : Prop := ∃ cmd, BuildsInto out cmd ∧ (.system cmd, true) ∈ h

/-! ## The link -/

/-- When the link `sym` is changed, a complete build is there; the new target is that build; no
other link is changed. -/
def LinkRule (sym : Str) (h : List (Call × Bool)) : Call → Prop
  | .unlink p => p = sym ∧ ∃ out, Built h out
  | .symlink target p => p = sym ∧ Built h target
  | _ => True

theorem link_cleanup (env : Env) (sym : Str) (s : Nat) (h : List (Call × Bool)) :
    (cleanup env s).Calls (LinkRule sym) h :=
  Prog.calls_require trivial trivial

theorem link_giveUp (env : Env) (sym out : Str) (h : List (Call × Bool)) :
    (giveUp env out).Calls (LinkRule sym) h :=
  Prog.calls_require trivial (link_cleanup _ _ _ _)

theorem Built.mono {h : List (Call × Bool)} {out : Str} (hb : Built h out) (l : List (Call × Bool)) :
    Built (h ++ l) out := by
  obtain ⟨cmd, h1, h2⟩ := hb
  exact ⟨cmd, h1, List.mem_append_left _ h2⟩

theorem link_deploy (env : Env) (sym out cmd : Str) (hc : BuildsInto out cmd) (h : List (Call × Bool)) :
    (deploy env sym out cmd).Calls (LinkRule sym) h := by
  have hb : Built (h ++ [(Call.system cmd, true)]) out := ⟨cmd, hc, by simp⟩
  refine Prog.calls_call trivial (link_giveUp _ _ _ _) ?_
  simp only [reduceCtorEq, if_false]
  cases env.realpath2 sym with
  | none => exact Prog.calls_call ⟨rfl, hb⟩ (link_giveUp _ _ _ _) (link_cleanup _ _ _ _)
  | some old =>
    refine Prog.calls_call ⟨rfl, out, hb⟩ (link_giveUp _ _ _ _) ?_
    exact Prog.calls_call ⟨rfl, hb.mono _⟩ (link_giveUp _ _ _ _)
      (Prog.calls_require trivial (link_cleanup _ _ _ _))

theorem link_build (env : Env) (sym out : Str) (h : List (Call × Bool)) :
    (build env sym out).Calls (LinkRule sym) h := by
  have hm : ∀ h, Prog.Calls (LinkRule sym) (.call (.found b!"gmake -f /dev/null 2> /dev/null > /dev/null") fun ok =>
      if ok then deploy env sym out (b!"gmake" ++ b!" -j" ++ decNat env.cpus ++ b!" OUTPUT_DIR=\"" ++ out ++ b!"\" BLOGC_GIT_RECEIVER=1")
      else .call (.found b!"make -f /dev/null 2> /dev/null > /dev/null") fun ok =>
        if ok then deploy env sym out (b!"make" ++ b!" -j" ++ decNat env.cpus ++ b!" OUTPUT_DIR=\"" ++ out ++ b!"\" BLOGC_GIT_RECEIVER=1") else cleanup env 1) h := by
    intro h
    refine Prog.calls_call trivial ?_ (link_deploy _ _ _ _ (.inr ⟨_, env.cpus, .inl rfl, rfl⟩) _)
    exact Prog.calls_call trivial (link_cleanup _ _ _ _) (link_deploy _ _ _ _ (.inr ⟨_, env.cpus, .inr rfl, rfl⟩) _)
  refine Prog.calls_call trivial ?_ (Prog.calls_call trivial (link_cleanup _ _ _ _) (link_deploy _ _ _ _ (.inl rfl) _))
  refine Prog.calls_call trivial ?_ (hm _)
  exact Prog.calls_call trivial (link_cleanup _ _ _ _) (hm _)

theorem link_checkout (env : Env) (sym rev : Str) (h : List (Call × Bool)) :
    (checkout env sym rev).Calls (LinkRule sym) h := by
  refine Prog.calls_call trivial trivial (Prog.calls_call trivial (link_cleanup _ _ _ _)
    (Prog.calls_call trivial (link_cleanup _ _ _ _) ?_))
  simp only [reduceCtorEq, if_false]
  cases buildsDir env with
  | ub => trivial
  | ok builds => exact Prog.calls_call trivial (link_build _ _ _ _) (link_build _ _ _ _)

/-- The public link is only changed after a build has ended well, and then leads to that build. It is
the `symlink` of the settings of the repository, `htdocs` by default. -/
theorem link_after_build (env : Env) (repo : Str) (hr : repoDir env = some repo) (t : List (Call × Bool))
    (o : Outcome) (h : (preReceive env).Exec t o) (before after : List (Call × Bool)) (c : Call) (ok : Bool)
    (ht : t = before ++ (c, ok) :: after) :
    (∀ p, c = .unlink p → p = linkPath env repo ∧ ∃ out, Built before out) ∧
    (∀ target p, c = .symlink target p → p = linkPath env repo ∧ Built before target) := by
  have hc : (preReceive env).Calls (LinkRule (linkPath env repo)) [] := by
    unfold preReceive
    rw [hr]
    refine Prog.calls_require trivial ?_
    split
    · split
      · trivial
      · exact link_checkout _ _ _ _
    · refine Prog.calls_require trivial ?_
      split
      · trivial
      · exact link_checkout _ _ _ _
  have := Prog.exec_of_calls hc h before c ok after ht
  rw [List.nil_append] at this
  constructor
  · rintro p rfl; exact this
  · rintro target p rfl; exact this

/-! ## The outcome -/

/-- The site was replaced by the build in `out`, and the previous one, if any, removed. -/
def Deployed (env : Env) (sym : Str) (h : List (Call × Bool)) : Prop :=
  ∃ out, Built h out ∧ (.symlink out sym, true) ∈ h ∧
    ∀ old, env.realpath2 sym = some old → (.unlink sym, true) ∈ h ∧ (.remove old, true) ∈ h

/-- Nothing was built, no link changed, and nothing removed but the checkout. -/
def Untouched (env : Env) (h : List (Call × Bool)) : Prop :=
  ∀ x ∈ h, match x.1 with
    | .unlink _ => False
    | .symlink _ _ => False
    | .remove d => d = env.tmpdir
    | .system cmd => ∀ out, ¬ BuildsInto out cmd
    | _ => True

/-- What holds at the end. -/
def Final (env : Env) (sym : Str) (h : List (Call × Bool)) : Outcome → Prop
  | .exit 0 => (Deployed env sym h ∨ Untouched env h) ∧
      ((.mkdtemp, true) ∈ h → h.getLast? = some (.remove env.tmpdir, true))
  | .exit 1 => (.mkdtemp, true) ∈ h → h.getLast? = some (.remove env.tmpdir, true)
  | .exit 2 => ∃ d, h.getLast? = some (.remove d, false)
  | .exit _ => False
  | .undefined => env.builds = none ∧ env.base = none ∧ env.home = none

theorem ends_cleanup (env : Env) (sym : Str) (h : List (Call × Bool)) (s : Nat) (hs : s = 0 ∨ s = 1)
    (hd : s = 0 → ∀ x, Deployed env sym (h ++ [(.remove env.tmpdir, x)]) ∨ Untouched env (h ++ [(.remove env.tmpdir, x)])) :
    (cleanup env s).Ensures (Final env sym) h := by
  refine Prog.ensures_require ⟨env.tmpdir, by simp⟩ ?_
  rcases hs with rfl | rfl
  · exact ⟨hd rfl true, fun _ => by simp⟩
  · exact fun _ => by simp

theorem ends_giveUp (env : Env) (sym out : Str) (h : List (Call × Bool)) :
    (giveUp env out).Ensures (Final env sym) h :=
  Prog.ensures_require ⟨out, by simp⟩ (ends_cleanup _ _ _ _ (.inr rfl) (by simp))

theorem ends_deploy (env : Env) (sym out cmd : Str) (hc : BuildsInto out cmd) (h : List (Call × Bool)) :
    (deploy env sym out cmd).Ensures (Final env sym) h := by
  refine Prog.ensures_call (ends_giveUp _ _ _ _) ?_
  simp only [reduceCtorEq, if_false]
  cases hr : env.realpath2 sym with
  | none =>
    refine Prog.ensures_call (ends_giveUp _ _ _ _) (ends_cleanup _ _ _ _ (.inl rfl) fun _ x => .inl ?_)
    exact ⟨out, ⟨cmd, hc, by simp⟩, by simp, by simp [hr]⟩
  | some old =>
    refine Prog.ensures_call (ends_giveUp _ _ _ _) (Prog.ensures_call (ends_giveUp _ _ _ _) ?_)
    refine Prog.ensures_require ⟨old, by simp⟩ (ends_cleanup _ _ _ _ (.inl rfl) fun _ x => .inl ?_)
    refine ⟨out, ⟨cmd, hc, by simp⟩, by simp, fun o ho => ?_⟩
    rw [hr] at ho
    cases ho
    simp

/-- The command that extracts the pushed tree is not a build. -/
theorem archive_builds (rest out : Str) : ¬ BuildsInto out (b!"git archive \"" ++ rest) := by
  rintro (h | ⟨impl, cpus, rfl | rfl, h⟩)
  · have := congrArg List.head? h
    simp at this
  · have := congrArg (fun l => l.take 2) h
    simp at this
  · have := congrArg List.head? h
    simp at this

theorem Untouched.add {env : Env} {h : List (Call × Bool)} (hu : Untouched env h) (c : Call) (b : Bool)
    (hc : match c with
      | .unlink _ => False
      | .symlink _ _ => False
      | .remove d => d = env.tmpdir
      | .system cmd => ∀ out, ¬ BuildsInto out cmd
      | _ => True) : Untouched env (h ++ [(c, b)]) := by
  intro x hx
  rcases List.mem_append.mp hx with hx | hx
  · exact hu x hx
  · cases List.mem_singleton.mp hx
    exact hc

theorem ends_build (env : Env) (sym out : Str) (h : List (Call × Bool)) (hu : Untouched env h) :
    (build env sym out).Ensures (Final env sym) h := by
  have hm : ∀ h, Prog.Ensures (Final env sym) (.call (.found b!"gmake -f /dev/null 2> /dev/null > /dev/null") fun ok =>
      if ok then deploy env sym out (b!"gmake" ++ b!" -j" ++ decNat env.cpus ++ b!" OUTPUT_DIR=\"" ++ out ++ b!"\" BLOGC_GIT_RECEIVER=1")
      else .call (.found b!"make -f /dev/null 2> /dev/null > /dev/null") fun ok =>
        if ok then deploy env sym out (b!"make" ++ b!" -j" ++ decNat env.cpus ++ b!" OUTPUT_DIR=\"" ++ out ++ b!"\" BLOGC_GIT_RECEIVER=1") else cleanup env 1) h := by
    intro h
    refine Prog.ensures_call ?_ (ends_deploy _ _ _ _ (.inr ⟨_, env.cpus, .inl rfl, rfl⟩) _)
    exact Prog.ensures_call (ends_cleanup _ _ _ _ (.inr rfl) (by simp)) (ends_deploy _ _ _ _ (.inr ⟨_, env.cpus, .inr rfl, rfl⟩) _)
  refine Prog.ensures_call ?_
    (Prog.ensures_call (ends_cleanup _ _ _ _ (.inr rfl) (by simp)) (ends_deploy _ _ _ _ (.inl rfl) _))
  refine Prog.ensures_call ?_ (hm _)
  refine Prog.ensures_call (ends_cleanup _ _ _ _ (.inl rfl) fun _ x => .inr ?_) (hm _)
  exact (((hu.add _ _ trivial).add _ _ trivial).add _ _ trivial).add _ _ rfl

theorem buildsDir_ub (env : Env) : buildsDir env = .ub ↔ env.builds = none ∧ env.base = none ∧ env.home = none := by
  unfold buildsDir baseDir
  cases env.builds <;> cases env.base <;> cases env.home <;> simp

theorem ends_checkout (env : Env) (sym rev : Str) (h : List (Call × Bool)) (hu : Untouched env h)
    (hn : (Call.mkdtemp, true) ∉ h) : (checkout env sym rev).Ensures (Final env sym) h := by
  refine Prog.ensures_call (fun hm => absurd hm (by simpa using hn)) (Prog.ensures_call
    (ends_cleanup _ _ _ _ (.inr rfl) (by simp)) (Prog.ensures_call (ends_cleanup _ _ _ _ (.inr rfl) (by simp)) ?_))
  simp only [reduceCtorEq, if_false]
  cases hb : buildsDir env with
  | ub => exact (buildsDir_ub env).mp hb
  | ok builds =>
    have hu' := ((hu.add .mkdtemp true trivial).add
      (.system (b!"git archive \"" ++ rev ++ b!"\" | tar -x -C \"" ++ env.tmpdir ++ b!"\" -f -")) true (by
        intro out
        simp only [List.append_assoc]
        exact archive_builds _ _)).add (.chdir env.tmpdir) true trivial
    exact Prog.ensures_call (ends_build _ _ _ _ (hu'.add _ _ trivial)) (ends_build _ _ _ _ (hu'.add _ _ trivial))

theorem ends (env : Env) (repo : Str) (hr : repoDir env = some repo) (t : List (Call × Bool)) (o : Outcome)
    (h : (preReceive env).Exec t o) : Final env (linkPath env repo) t o := by
  have he : (preReceive env).Ensures (Final env (linkPath env repo)) [] := by
    unfold preReceive
    rw [hr]
    refine Prog.ensures_require (by simp [Final]) ?_
    have hu : Untouched env ([] ++ [(.chdir repo, true)]) := by simp [Untouched]
    split
    · split
      · exact ⟨.inr hu, by simp⟩
      · exact ends_checkout _ _ _ _ hu (by simp)
    · refine Prog.ensures_require (by simp [Final]) ?_
      split
      · simp [Prog.Ensures, Final]
      · exact ends_checkout _ _ _ _ (hu.add _ _ trivial) (by simp)
  simpa using Prog.exec_of_ensures he h

/-- If the push is accepted, the site has been replaced by a complete build, or nothing was there to
build and nothing has changed. -/
theorem accepted (env : Env) (repo : Str) (hr : repoDir env = some repo) (t : List (Call × Bool))
    (h : (preReceive env).Exec t (.exit 0)) : Deployed env (linkPath env repo) t ∨ Untouched env t :=
  (ends env repo hr t _ h).1

/-- The temporary checkout is removed at the end, if the status is 0 or 1. -/
theorem checkout_removed_partial (env : Env) (repo : Str) (hr : repoDir env = some repo) (t : List (Call × Bool))
    (s : Nat) (h : (preReceive env).Exec t (.exit s)) (hs : s ≠ 2) (hm : (.mkdtemp, true) ∈ t) :
    t.getLast? = some (.remove env.tmpdir, true) := by
  have := ends env repo hr t _ h
  match s, this, hs with
  | 0, this, _ => exact this.2 hm
  | 1, this, _ => exact this hm
  | 2, _, hs => exact absurd rfl hs

/-- The status 2 is that of a removal that failed, and the hook stops there. -/
theorem status_two (env : Env) (repo : Str) (hr : repoDir env = some repo) (t : List (Call × Bool))
    (h : (preReceive env).Exec t (.exit 2)) : ∃ d, t.getLast? = some (.remove d, false) :=
  ends env repo hr t _ h

/-- The statuses. Behaviour is undefined only if no variable names the builds directory. -/
theorem statuses (env : Env) (repo : Str) (hr : repoDir env = some repo) (t : List (Call × Bool)) (o : Outcome)
    (h : (preReceive env).Exec t o) (hb : env.builds ≠ none ∨ env.base ≠ none ∨ env.home ≠ none) :
    o = .exit 0 ∨ o = .exit 1 ∨ o = .exit 2 := by
  have := ends env repo hr t _ h
  match o, this with
  | .exit 0, _ => simp
  | .exit 1, _ => simp
  | .exit 2, _ => simp
  | .undefined, this =>
    obtain ⟨h1, h2, h3⟩ := this
    rcases hb with hb | hb | hb <;> contradiction

/-- A push that does not update the branch to deploy is accepted, and nothing is done. -/
theorem nothing_to_deploy (env : Env) (repo : Str) (hr : repoDir env = some repo) (hg : env.gitDir = true)
    (hd : PreReceive.deployRef env.stdin = none) (t : List (Call × Bool)) (o : Outcome)
    (h : (preReceive env).Exec t o) :
    (o = .exit 0 ∧ t = [(.chdir repo, true)]) ∨ (o = .exit 1 ∧ t = [(.chdir repo, false)]) := by
  have he : (preReceive env).Ensures (fun t o => (o = .exit 0 ∧ t = [(Call.chdir repo, true)]) ∨
      (o = .exit 1 ∧ t = [(Call.chdir repo, false)])) [] := by
    unfold preReceive
    rw [hr]
    refine Prog.ensures_require (by simp) ?_
    simp [hg, hd, Prog.Ensures]
  simpa using Prog.exec_of_ensures he h

end Blogc.C80
