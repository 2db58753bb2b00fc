import Verif.Props.C43

/-!
# C66: a push runs through the hooks
-/

namespace Blogc.C66

open Blogc Blogc.GitShell

/-- The effect of the calls on the part of the system that matters here: where
the process is, and the links in the `hooks` directory of the repository `repo`.
A link can only be created where there is none. -/
structure World where
  cwd : Option (List Str)      -- directories entered since the start; `none` if unknown
  pre : Option Str             -- target of hooks/pre-receive
  post : Option Str            -- target of hooks/post-receive

/-- The process is in the `hooks` directory of `repo`. -/
def World.inHooks (w : World) (repo : Str) : Prop := w.cwd = some [repo, b!"hooks"]

instance (w : World) (repo : Str) : Decidable (w.inHooks repo) := inferInstanceAs (Decidable (_ = _))

/-- What a successful call does. A failing call does nothing. -/
def effect (repo : Str) (w : World) : Call × Bool → World
  | (_, false) => w
  | (.chdir d, true) =>
    if d = repo then { w with cwd := some [repo] }
    else if d = b!"hooks" ∧ w.cwd = some [repo] then { w with cwd := some [repo, b!"hooks"] }
    else { w with cwd := none }
  | (.unlink n, true) =>
    if w.inHooks repo then
      if n = b!"pre-receive" then { w with pre := none }
      else if n = b!"post-receive" then { w with post := none } else w
    else w
  | (.symlink x n, true) =>
    if w.inHooks repo then
      if n = b!"pre-receive" then { w with pre := some x }
      else if n = b!"post-receive" then { w with post := some x } else w
    else w
  | (_, true) => w

/-- Effect of a sequence of calls. -/
def effects (repo : Str) (w : World) (t : List (Call × Bool)) : World := t.foldl (effect repo) w

/-- When git-shell is run, both hooks point to this program. -/
def Hooked (repo self : Str) (t : List (Call × Bool)) : Prop :=
  ∀ t' buf ok, t = t' ++ [(Call.execGitShell buf, ok)] → ∀ w0,
    (effects repo w0 t').pre = some self ∧ (effects repo w0 t').post = some self

theorem hooked_of_ne {repo self : Str} {t : List (Call × Bool)} {c : Call × Bool}
    (h : ∀ buf, c.1 ≠ .execGitShell buf) : Hooked repo self (t ++ [c]) := by
  intro t' buf ok e
  have := List.append_inj_right' e rfl
  simp only [List.cons.injEq, and_true] at this
  exact absurd (congrArg Prod.fst this) (h buf)

/-- Both hooks point to this program after the calls `h`. -/
def Both (repo self : Str) (h : List (Call × Bool)) : Prop :=
  ∀ w0, (effects repo w0 h).pre = some self ∧ (effects repo w0 h).post = some self

theorem gitExec_hooked {repo self bd arg q : Str} (h : List (Call × Bool)) (hb : Both repo self h) :
    (gitExec bd arg q).Ensures (fun t _ => Hooked repo self t) h := by
  refine Prog.ensures_require (hooked_of_ne (by simp)) ?_
  show (if _ then _ else _ : Prog Call Nat).Ensures _ _
  split
  · exact hooked_of_ne (by simp)
  · intro ok
    show Hooked _ _ _
    intro t' buf ok' e w0
    have := List.append_inj_left' e rfl
    subst this
    have := hb w0
    simp only [effects, List.foldl_append, List.foldl_cons, List.foldl_nil]
    have hcwd : ∀ w, (effect repo w (Call.chdir bd, true)).pre = w.pre ∧
        (effect repo w (Call.chdir bd, true)).post = w.post := by
      intro w; simp only [effect]; split
      · exact ⟨rfl, rfl⟩
      · split <;> exact ⟨rfl, rfl⟩
    exact ⟨(hcwd _).1.trans this.1, (hcwd _).2.trans this.2⟩

/-- In the hooks directory, with the first hook installed if `first`. -/
def Inn (repo self : Str) (first : Bool) (h : List (Call × Bool)) : Prop :=
  ∀ w0, (effects repo w0 h).inHooks repo ∧ (first = true → (effects repo w0 h).pre = some self)

theorem effects_snoc (repo : Str) (w : World) (h : List (Call × Bool)) (c : Call × Bool) :
    effects repo w (h ++ [c]) = effect repo (effects repo w h) c := by
  simp [effects]

theorem effect_lexists (repo : Str) (w : World) (n : Str) :
    effect repo w (Call.lexists n, true) = w := rfl

theorem install_pre {repo self : Str} {k : Prog Call Nat} (h : List (Call × Bool))
    (hi : Inn repo self false h)
    (hk : ∀ h', Inn repo self true h' → k.Ensures (fun t _ => Hooked repo self t) h') :
    (installHook self b!"pre-receive" k).Ensures (fun t _ => Hooked repo self t) h := by
  have link : ∀ h', Inn repo self false h' →
      (Prog.require (.symlink self b!"pre-receive") 1 k).Ensures (fun t _ => Hooked repo self t) h' := by
    intro h' hi
    refine Prog.ensures_require (hooked_of_ne (by simp)) (hk _ ?_)
    intro w0
    have := (hi w0).1
    rw [effects_snoc]
    rw [effect]
    rw [if_pos this, if_pos rfl]
    exact ⟨this, fun _ => rfl⟩
  refine Prog.ensures_call ?_ ?_
  · refine link _ ?_
    intro w0; rw [effects_snoc]; exact hi w0
  · refine Prog.ensures_require (hooked_of_ne (by simp)) (link _ ?_)
    intro w0
    rw [effects_snoc, effects_snoc, effect_lexists]
    have := (hi w0).1
    rw [effect]
    rw [if_pos this, if_pos rfl]
    exact ⟨this, by simp⟩

theorem install_post {repo self : Str} {k : Prog Call Nat} (h : List (Call × Bool))
    (hi : Inn repo self true h)
    (hk : ∀ h', Both repo self h' → k.Ensures (fun t _ => Hooked repo self t) h') :
    (installHook self b!"post-receive" k).Ensures (fun t _ => Hooked repo self t) h := by
  have link : ∀ h', Inn repo self true h' →
      (Prog.require (.symlink self b!"post-receive") 1 k).Ensures (fun t _ => Hooked repo self t) h' := by
    intro h' hi
    refine Prog.ensures_require (hooked_of_ne (by simp)) (hk _ ?_)
    intro w0
    have h1 := hi w0
    rw [effects_snoc]
    rw [effect]
    rw [if_pos h1.1, if_neg (by decide), if_pos rfl]
    exact ⟨h1.2 rfl, rfl⟩
  refine Prog.ensures_call ?_ ?_
  · refine link _ ?_
    intro w0; rw [effects_snoc]; exact hi w0
  · refine Prog.ensures_require (hooked_of_ne (by simp)) (link _ ?_)
    intro w0
    rw [effects_snoc, effects_snoc, effect_lexists]
    have h1 := hi w0
    rw [effect]
    rw [if_pos h1.1, if_neg (by decide), if_pos rfl]
    exact h1

/-- In every execution of a push, whatever the state of the repository before
and whatever calls fail: when git-shell is started, both hooks of the repository
are links to this program. -/
theorem push_hooked (self bd arg p : Str) (hp : parse arg = some p)
    (hpush : commandName arg = b!"git-receive-pack") (t : List (Call × Bool)) (rv : Nat)
    (h : (shell (some self) (some bd) arg).Exec t rv) (t' : List (Call × Bool)) (buf : Str) (ok : Bool)
    (ht : t = t' ++ [(Call.execGitShell buf, ok)]) (w0 : World) :
    (effects (bd ++ b!"/repos/" ++ p) w0 t').pre = some self ∧
    (effects (bd ++ b!"/repos/" ++ p) w0 t').post = some self := by
  have key : (shell (some self) (some bd) arg).Ensures
      (fun t _ => Hooked (bd ++ b!"/repos/" ++ p) self t) [] := by
    have hne : ¬ (arg.take 11 = b!"git-upload-") := by
      rw [(C43.commandName_of_parse arg p hp).2, hpush]
      simp
    unfold shell
    rw [hp]
    show (if _ then _ else _ : Prog Call Nat).Ensures _ _
    rw [if_neg hne]
    have hrepo : bd ++ b!"/repos/" ++ p ≠ b!"hooks" := by
      intro e
      have : c!"/" ∈ b!"hooks" := by rw [← e]; simp
      exact absurd this (by decide)
    have inner : ∀ h, (∀ w0, (effects (bd ++ b!"/repos/" ++ p) w0 h).cwd = some [bd ++ b!"/repos/" ++ p]) →
        (Prog.require (.chdir b!"hooks") 1 <| installHook self b!"pre-receive" <|
          installHook self b!"post-receive" <|
          gitExec bd arg (shellQuote (some (bd ++ b!"/repos/" ++ p)))).Ensures
            (fun t _ => Hooked (bd ++ b!"/repos/" ++ p) self t) h := by
      intro h hcwd
      refine Prog.ensures_require (hooked_of_ne (by simp)) ?_
      refine install_pre _ ?_ (fun h' hi => install_post h' hi (fun h'' hb => gitExec_hooked h'' hb))
      intro w0
      rw [effects_snoc]
      rw [effect]
      rw [if_neg hrepo.symm, if_pos ⟨rfl, hcwd w0⟩]
      exact ⟨rfl, by simp⟩
    have hooks : ∀ h, (Prog.require (.chdir (bd ++ b!"/repos/" ++ p)) 1 <|
          .call (.exists_ b!"hooks") fun there =>
          let inHooks :=
            Prog.require (.chdir b!"hooks") 1 <|
            installHook self b!"pre-receive" <|
            installHook self b!"post-receive" <|
            gitExec bd arg (shellQuote (some (bd ++ b!"/repos/" ++ p)))
          if there then inHooks else Prog.require (.mkdir b!"hooks") 1 inHooks).Ensures
            (fun t _ => Hooked (bd ++ b!"/repos/" ++ p) self t) h := by
      intro h
      refine Prog.ensures_require (hooked_of_ne (by simp)) ?_
      have hc : ∀ w0, (effects (bd ++ b!"/repos/" ++ p) w0
          (h ++ [(Call.chdir (bd ++ b!"/repos/" ++ p), true)])).cwd = some [bd ++ b!"/repos/" ++ p] := by
        intro w0
        rw [effects_snoc]
        simp only [effect, if_true]
      refine Prog.ensures_call ?_ ?_
      · refine Prog.ensures_require (hooked_of_ne (by simp)) (inner _ ?_)
        intro w0
        rw [effects_snoc, effects_snoc]
        exact hc w0
      · refine inner _ ?_
        intro w0
        rw [effects_snoc]
        exact hc w0
    refine Prog.ensures_call ?_ ?_
    · exact Prog.ensures_require (hooked_of_ne (by simp)) (hooks _)
    · exact hooks _
  have := Prog.exec_of_ensures key h
  rw [List.nil_append] at this
  exact this t' buf ok ht w0

/-- A push to a new repository does start git-shell. -/
example : ∃ t, (shell (some b!"/r") (some b!"/h") b!"git-receive-pack 'a'").Exec t 0 ∧
    (Call.execGitShell b!"git-receive-pack '/h/repos/a'", true) ∈ t :=
  ⟨[(.exists_ b!"/h/repos/a", false), (.system b!"git init --bare '/h/repos/a' > /dev/null", true),
    (.chdir b!"/h/repos/a", true), (.exists_ b!"hooks", true), (.chdir b!"hooks", true),
    (.lexists b!"pre-receive", false), (.symlink b!"/r" b!"pre-receive", true),
    (.lexists b!"post-receive", true), (.unlink b!"post-receive", true),
    (.symlink b!"/r" b!"post-receive", true), (.chdir b!"/h", true),
    (.execGitShell b!"git-receive-pack '/h/repos/a'", true)],
    .call (ok := false) (.call (ok := true) (.call (ok := true) (.call (ok := true) (.call (ok := true)
      (.call (ok := false) (.call (ok := true) (.call (ok := true) (.call (ok := true)
      (.call (ok := true) (.call (ok := true) (.call (ok := true) (.ret 0)))))))))))), by simp⟩

end Blogc.C66
