import Verif.Lemmas.Numbers
import Verif.Spec.Shell
import Verif.Props.C02
import Verif.Props.C44
import Verif.Props.C80
import Verif.Spec.PreReceive

/-!
# C80, continued: what is built, and the commands
-/

namespace Blogc.C80

open Blogc Blogc.GitHooks Blogc.Shell

/-! ## The revision -/

/-- The revision to build: the one pushed, or the one that was built last. -/
def Revision (env : Env) (repo rev : Str) : Prop :=
  if env.gitDir then PreReceive.deployRef env.stdin = some rev
  else ∃ dir, env.realpath (linkPath env repo) = some dir ∧ builtRevision dir = some rev

/-- The directory of a build: it is named by the revision and the time. -/
def OutputOf (env : Env) (rev out : Str) : Prop :=
  ∃ builds, buildsDir env = .ok builds ∧
    (out = builds ++ b!"/" ++ rev ++ b!"-" ++ decNat env.epoch ∨
      out = builds ++ b!"/" ++ rev ++ b!"-" ++ decNat env.epoch ++ b!"-")

/-- The command that extracts the revision into the checkout. -/
def archive (env : Env) (rev : Str) : Str :=
  b!"git archive \"" ++ rev ++ b!"\" | tar -x -C \"" ++ env.tmpdir ++ b!"\" -f -"

/-- The commands run for the revision `rev`, and the order: the checkout was extracted and entered
before the build, and a directory that exists is not built into unless it has a `-` at the end. -/
def CommandRule (env : Env) (rev : Str) (h : List (Call × Bool)) : Call → Prop
  | .system cmd => cmd = archive env rev ∨
      ∃ out, OutputOf env rev out ∧ BuildsInto out cmd ∧
        (.system (archive env rev), true) ∈ h ∧ (.chdir env.tmpdir, true) ∈ h
  | .remove d => d = env.tmpdir ∨ OutputOf env rev d ∨ ∃ p, env.realpath2 p = some d
  | _ => True

theorem rule_cleanup (env : Env) (rev : Str) (s : Nat) (h : List (Call × Bool)) :
    (cleanup env s).Calls (CommandRule env rev) h :=
  Prog.calls_require (.inl rfl) trivial

theorem rule_giveUp (env : Env) (rev out : Str) (ho : OutputOf env rev out) (h : List (Call × Bool)) :
    (giveUp env out).Calls (CommandRule env rev) h :=
  Prog.calls_require (.inr (.inl ho)) (rule_cleanup _ _ _ _)

theorem rule_deploy (env : Env) (sym rev out cmd : Str) (hc : BuildsInto out cmd) (ho : OutputOf env rev out)
    (h : List (Call × Bool)) (h1 : (Call.system (archive env rev), true) ∈ h) (h2 : (Call.chdir env.tmpdir, true) ∈ h) :
    (deploy env sym out cmd).Calls (CommandRule env rev) h := by
  refine Prog.calls_call (.inr ⟨out, ho, hc, h1, h2⟩) (rule_giveUp _ _ _ ho _) ?_
  simp only [reduceCtorEq, if_false]
  cases hr : env.realpath2 sym with
  | none => exact Prog.calls_call trivial (rule_giveUp _ _ _ ho _) (rule_cleanup _ _ _ _)
  | some old =>
    refine Prog.calls_call trivial (rule_giveUp _ _ _ ho _) ?_
    exact Prog.calls_call trivial (rule_giveUp _ _ _ ho _)
      (Prog.calls_require (.inr (.inr ⟨sym, hr⟩)) (rule_cleanup _ _ _ _))

theorem rule_build (env : Env) (sym rev out : Str) (ho : OutputOf env rev out)
    (h : List (Call × Bool)) (h1 : (Call.system (archive env rev), true) ∈ h) (h2 : (Call.chdir env.tmpdir, true) ∈ h) :
    (build env sym out).Calls (CommandRule env rev) h := by
  have hm : ∀ h, (Call.system (archive env rev), true) ∈ h → (Call.chdir env.tmpdir, true) ∈ h →
      Prog.Calls (CommandRule env rev) (.call (.found b!"gmake -f /dev/null 2> /dev/null > /dev/null") fun ok =>
      if ok then deploy env sym out (b!"gmake" ++ b!" -j" ++ decNat env.cpus ++ b!" OUTPUT_DIR=\"" ++ out ++ b!"\" BLOGC_GIT_RECEIVER=1")
      else .call (.found b!"make -f /dev/null 2> /dev/null > /dev/null") fun ok =>
        if ok then deploy env sym out (b!"make" ++ b!" -j" ++ decNat env.cpus ++ b!" OUTPUT_DIR=\"" ++ out ++ b!"\" BLOGC_GIT_RECEIVER=1") else cleanup env 1) h := by
    intro h h1 h2
    refine Prog.calls_call trivial ?_ (rule_deploy _ _ _ _ _ (.inr ⟨_, env.cpus, .inl rfl, rfl⟩) ho _ (by simp [h1]) (by simp [h2]))
    exact Prog.calls_call trivial (rule_cleanup _ _ _ _)
      (rule_deploy _ _ _ _ _ (.inr ⟨_, env.cpus, .inr rfl, rfl⟩) ho _ (by simp [h1]) (by simp [h2]))
  refine Prog.calls_call trivial ?_ (Prog.calls_call trivial (rule_cleanup _ _ _ _)
    (rule_deploy _ _ _ _ _ (.inl rfl) ho _ (by simp [h1]) (by simp [h2])))
  refine Prog.calls_call trivial ?_ (hm _ (by simp [h1]) (by simp [h2]))
  exact Prog.calls_call trivial (rule_cleanup _ _ _ _) (hm _ (by simp [h1]) (by simp [h2]))

theorem rule_checkout (env : Env) (sym rev : Str) (h : List (Call × Bool)) :
    (checkout env sym rev).Calls (CommandRule env rev) h := by
  refine Prog.calls_call trivial trivial (Prog.calls_call (.inl rfl) (rule_cleanup _ _ _ _)
    (Prog.calls_call trivial (rule_cleanup _ _ _ _) ?_))
  simp only [reduceCtorEq, if_false]
  cases hb : buildsDir env with
  | ub => trivial
  | ok builds =>
    refine Prog.calls_call trivial ?_ ?_
    · exact rule_build _ _ _ _ ⟨builds, hb, .inl rfl⟩ _ (by simp [archive]) (by simp)
    · exact rule_build _ _ _ _ ⟨builds, hb, .inr rfl⟩ _ (by simp [archive]) (by simp)

/-- Every command that is run extracts the revision to build or, after that and in the checkout, builds
it into a directory named by the revision; nothing is removed but the checkout, such a directory and
the previous build. -/
theorem commands_exact (env : Env) (repo : Str) (hr : repoDir env = some repo) (t : List (Call × Bool))
    (o : Outcome) (h : (preReceive env).Exec t o) (before after : List (Call × Bool)) (c : Call) (ok : Bool)
    (ht : t = before ++ (c, ok) :: after) :
    (∀ cmd, c = .system cmd → ∃ rev, Revision env repo rev ∧ CommandRule env rev before (.system cmd)) ∧
    (∀ d, c = .remove d → ∃ rev, Revision env repo rev ∧ CommandRule env rev before (.remove d)) := by
  have key : ∀ c', c = c' → (match c' with | .system _ => True | .remove _ => True | _ => False) →
      ∃ rev, Revision env repo rev ∧ CommandRule env rev before c' := by
    intro c' e hk
    subst e
    have hc : (preReceive env).Calls (fun h c => (match c with | .system _ => True | .remove _ => True | _ => False) →
        ∃ rev, Revision env repo rev ∧ CommandRule env rev h c) [] := by
      have mono : ∀ rev, Revision env repo rev → ∀ (p : Prog Call Outcome) h, p.Calls (CommandRule env rev) h →
          p.Calls (fun h c => (match c with | .system _ => True | .remove _ => True | _ => False) →
            ∃ rev, Revision env repo rev ∧ CommandRule env rev h c) h := by
        intro rev hrev p
        induction p with
        | ret a => intros; trivial
        | call c k ih => intro h hp; exact ⟨fun _ => ⟨rev, hrev, hp.1⟩, fun ok => ih ok _ (hp.2 ok)⟩
      unfold preReceive
      rw [hr]
      refine Prog.calls_require (fun h => h.elim) ?_
      split
      · next hg =>
        split
        · trivial
        · next rev hd => exact mono rev (by simpa [Revision, hg] using hd) _ _ (rule_checkout _ _ _ _)
      · next hg =>
        refine Prog.calls_require (fun h => h.elim) ?_
        split
        · trivial
        · next rev hd =>
          refine mono rev ?_ _ _ (rule_checkout _ _ _ _)
          simp only [Revision, hg]
          simpa [Option.bind_eq_some_iff] using hd
    simpa using Prog.exec_of_calls hc h before c ok after ht hk
  exact ⟨fun cmd e => key _ e trivial, fun d e => key _ e trivial⟩

/-- The revision that a push deploys (`C44`): that of `master`, or else that of `main`. -/
theorem pushed_revision (env : Env) (repo : Str) (hg : env.gitDir = true) (us : List PreReceive.Update)
    (hu : ∀ u ∈ us, u.Ok) (hs : env.stdin = us.flatMap PreReceive.Update.line) (rev : Str) :
    Revision env repo rev ↔ (match PreReceive.revOf us b!"master" with
      | some r => some r
      | none => PreReceive.revOf us b!"main") = some rev := by
  simp only [Revision, hg, if_true, hs, C44.deploy_exact us hu]
  exact Iff.rfl

theorem split_dash (rev rest : Str) (h : c!"-" ∉ rev) (cur : Str) :
    C02.splitAcc c!"-" 2 (rev ++ c!"-" :: rest) cur 0 = [cur ++ rev, rest] := by
  have h1 : ∀ (r cur : Str), C02.splitAcc c!"-" 2 r cur 1 = [cur ++ r] := by
    intro r
    induction r with
    | nil => intro cur; simp [C02.splitAcc]
    | cons b r ih => intro cur; simp [C02.splitAcc, ih]
  induction rev generalizing cur with
  | nil => simp [C02.splitAcc, h1]
  | cons b rev ih =>
    have hb : b ≠ c!"-" := fun e => h (by simp [e])
    rw [List.cons_append, C02.splitAcc, if_neg (by simp [hb]), ih (fun e => h (by simp [e]))]
    simp

theorem basename_join (dir name : Str) (hn : name ≠ []) (hs : c!"/" ∉ name) :
    basename (dir ++ b!"/" ++ name) = name := by
  obtain ⟨c, r, e⟩ : ∃ c r, name.reverse = c :: r := by
    cases e : name.reverse with
    | nil => simp at e; exact absurd e hn
    | cons c r => exact ⟨c, r, rfl⟩
  have hmem : ∀ x ∈ name.reverse, x ≠ c!"/" := fun x hx e => hs (by simpa [e] using hx)
  have hc : c ≠ c!"/" := hmem c (by simp [e])
  have hstrip : Make.stripSlashes (dir ++ b!"/" ++ name) = dir ++ b!"/" ++ name := by
    unfold Make.stripSlashes
    rw [List.reverse_append, e, List.cons_append, List.dropWhile_cons_of_neg (by simpa using hc),
      ← List.cons_append, ← e, ← List.reverse_append, List.reverse_reverse]
  unfold basename
  rw [hstrip, if_neg (by simp [hn]), if_neg (by simp [hn])]
  simp only [List.reverse_append, List.append_assoc]
  rw [List.takeWhile_append_of_pos (by intro x hx; simpa using hmem x hx)]
  simp

/-- Building again by hand builds the revision that is deployed: the revision is found in the name of
the build. -/
theorem rebuild (env : Env) (rev out : Str) (h1 : c!"-" ∉ rev) (h2 : c!"/" ∉ rev) (ho : OutputOf env rev out) :
    builtRevision out = some rev := by
  obtain ⟨builds, -, ho⟩ := ho
  have hd : c!"/" ∉ decNat env.epoch := fun h => by
    have := decNat_digits env.epoch _ h
    revert this; decide
  have key : ∀ tail, c!"/" ∉ tail → builtRevision (builds ++ b!"/" ++ (rev ++ c!"-" :: tail)) = some rev := by
    intro tail ht
    have hne : rev ++ c!"-" :: tail ≠ [] := by simp
    unfold builtRevision
    rw [basename_join _ _ hne (by simp [h2, ht]), C02.split_eq _ _ _ hne, split_dash rev tail h1]
    simp
  rcases ho with rfl | rfl
  · have := key (decNat env.epoch) hd
    simpa using this
  · have := key (decNat env.epoch ++ b!"-") (by simp [hd])
    simpa using this

example : builtRevision b!"/home/u/builds/1a2b-1700000000-" = some b!"1a2b" := by decide +kernel

/-! ## The commands -/

/-- No byte of `s` is special within double quotes. -/
def Literal (s : Str) : Prop := ∀ c ∈ s, c ≠ 0 ∧ c ≠ c!"\"" ∧ c ≠ c!"\\" ∧ c ≠ c!"$" ∧ c ≠ c!"`"

theorem lex_dquote (s : Str) (hs : Literal s) (cur rest : Str) :
    lex .dquote (some cur) (s ++ c!"\"" :: rest) = lex .plain (some (cur ++ s)) rest := by
  induction s generalizing cur with
  | nil => simp [lex]
  | cons c s ih =>
    obtain ⟨h0, h1, h2, h3, h4⟩ := hs c (by simp)
    rw [List.cons_append, lex, if_neg h0, if_neg h1, if_neg h2, if_neg (by simp [h3, h4]),
      ih (fun x hx => hs x (by simp [hx]))]
    simp

/-- The shell gives the tools the revision and the directories unchanged. The command is a pipeline of
two commands; a build is one command. -/
theorem words_partial (env : Env) (rev out : Str) (h1 : Literal rev) (h2 : Literal env.tmpdir) (h3 : Literal out) :
    (∃ a b, archive env rev = a ++ b!"|" ++ b ∧ words a = some [b!"git", b!"archive", rev] ∧
      words b = some [b!"tar", b!"-x", b!"-C", env.tmpdir, b!"-f", b!"-"]) ∧
    words (b!"OUTPUT_DIR=\"" ++ out ++ b!"\" blogc-make -V all") =
      some [b!"OUTPUT_DIR=" ++ out, b!"blogc-make", b!"-V", b!"all"] := by
  refine ⟨⟨b!"git archive \"" ++ rev ++ b!"\" ", b!" tar -x -C \"" ++ env.tmpdir ++ b!"\" -f -", ?_, ?_, ?_⟩, ?_⟩
  · simp [archive]
  · have := lex_dquote rev h1 [] b!" "
    simp [words, lex, isBlank, isSpecial] at this ⊢
    rw [this]
  · have := lex_dquote env.tmpdir h2 [] b!" -f -"
    simp [words, lex, isBlank, isSpecial] at this ⊢
    rw [this]
  · have := lex_dquote out h3 b!"OUTPUT_DIR=" b!" blogc-make -V all"
    simp [words, lex, isBlank, isSpecial] at this ⊢
    rw [this]

/-- A revision is written in hexadecimal digits, so it is literal. -/
theorem hex_literal (rev : Str) (h : ∀ c ∈ rev, isDigit c = true ∨ (c!"a" ≤ c ∧ c ≤ c!"f")) : Literal rev := by
  intro c hc
  have key : ∀ n : Fin 256, (isDigit (UInt8.ofFin n) = true ∨ (c!"a" ≤ UInt8.ofFin n ∧ UInt8.ofFin n ≤ c!"f")) →
      UInt8.ofFin n ≠ 0 ∧ UInt8.ofFin n ≠ c!"\"" ∧ UInt8.ofFin n ≠ c!"\\" ∧ UInt8.ofFin n ≠ c!"$" ∧ UInt8.ofFin n ≠ c!"`" := by
    decide +kernel
  exact key c.toFin (h c hc)

/-- The name of the directory is not quoted for the shell: with a `$` in it, something else than the
directory is built into. -/
theorem words_violated : words (b!"OUTPUT_DIR=\"" ++ b!"/srv/$x/builds/1a-2" ++ b!"\" blogc-make -V all") = none := by
  decide +kernel

/-! ## Rejected pushes -/

/-- What holds if the push is rejected. -/
def Rejected (h : List (Call × Bool)) : Outcome → Prop
  | .exit 1 => (∀ target p, (.symlink target p, true) ∉ h) ∧
      ∀ p, (.unlink p, true) ∈ h → ∃ target, (.symlink target p, false) ∈ h
  | _ => True

/-- The link was not changed. -/
def Quiet (h : List (Call × Bool)) : Prop :=
  (∀ target p, (.symlink target p, true) ∉ h) ∧ ∀ p, (.unlink p, true) ∉ h

theorem Quiet.add {h : List (Call × Bool)} (hq : Quiet h) (c : Call) (b : Bool)
    (hc : b = true → match c with | .symlink _ _ => False | .unlink _ => False | _ => True) : Quiet (h ++ [(c, b)]) := by
  constructor
  · intro t p hm
    rcases List.mem_append.mp hm with hm | hm
    · exact hq.1 t p hm
    · cases List.mem_singleton.mp hm
      exact hc rfl
  · intro p hm
    rcases List.mem_append.mp hm with hm | hm
    · exact hq.2 p hm
    · cases List.mem_singleton.mp hm
      exact hc rfl

theorem Quiet.rejected {h : List (Call × Bool)} (hq : Quiet h) (o : Outcome) : Rejected h o := by
  unfold Rejected
  split
  · exact ⟨hq.1, fun p hp => absurd hp (hq.2 p)⟩
  · trivial

theorem rejected_cleanup (env : Env) (s : Nat) (h : List (Call × Bool)) (hr : Rejected h (.exit s)) :
    (cleanup env s).Ensures Rejected h := by
  refine Prog.ensures_require trivial ?_
  match s, hr with
  | 0, _ => trivial
  | 1, hr => simpa [Prog.Ensures, Rejected] using hr
  | _ + 2, _ => trivial

theorem rejected_giveUp (env : Env) (out : Str) (h : List (Call × Bool)) (hr : Rejected h (.exit 1)) :
    (giveUp env out).Ensures Rejected h := by
  refine Prog.ensures_require trivial (rejected_cleanup _ _ _ ?_)
  simpa [Rejected] using hr

theorem rejected_deploy (env : Env) (sym out cmd : Str) (h : List (Call × Bool)) (hq : Quiet h) :
    (deploy env sym out cmd).Ensures Rejected h := by
  have hq' := hq.add (.system cmd) true (fun _ => trivial)
  refine Prog.ensures_call (rejected_giveUp _ _ _ ((hq.add _ _ (by simp)).rejected _)) ?_
  simp only [reduceCtorEq, if_false]
  cases env.realpath2 sym with
  | none =>
    refine Prog.ensures_call (rejected_giveUp _ _ _ ((hq'.add _ _ (by simp)).rejected _)) ?_
    exact rejected_cleanup _ _ _ trivial
  | some old =>
    refine Prog.ensures_call (rejected_giveUp _ _ _ ((hq'.add _ _ (by simp)).rejected _)) ?_
    refine Prog.ensures_call (rejected_giveUp _ _ _ ?_) ?_
    · refine ⟨fun t p hm => ?_, fun p hm => ?_⟩
      · simp at hm
        exact hq.1 t p hm
      · refine ⟨out, ?_⟩
        simp at hm
        rcases hm with hm | hm
        · exact absurd hm (hq.2 p)
        · simp [hm]
    · exact Prog.ensures_require trivial (rejected_cleanup _ _ _ trivial)

theorem rejected_build (env : Env) (sym out : Str) (h : List (Call × Bool)) (hq : Quiet h) :
    (build env sym out).Ensures Rejected h := by
  have add : ∀ {h}, Quiet h → ∀ (cmd : Str) b, Quiet (h ++ [(.found cmd, b)]) := fun hq cmd b =>
    hq.add _ _ (fun _ => trivial)
  have add' : ∀ {h}, Quiet h → ∀ (f : Str) b, Quiet (h ++ [(.exists_ f, b)]) := fun hq cmd b =>
    hq.add _ _ (fun _ => trivial)
  have hm : ∀ h, Quiet h → Prog.Ensures Rejected (.call (.found b!"gmake -f /dev/null 2> /dev/null > /dev/null") fun ok =>
      if ok then deploy env sym out (b!"gmake" ++ b!" -j" ++ decNat env.cpus ++ b!" OUTPUT_DIR=\"" ++ out ++ b!"\" BLOGC_GIT_RECEIVER=1")
      else .call (.found b!"make -f /dev/null 2> /dev/null > /dev/null") fun ok =>
        if ok then deploy env sym out (b!"make" ++ b!" -j" ++ decNat env.cpus ++ b!" OUTPUT_DIR=\"" ++ out ++ b!"\" BLOGC_GIT_RECEIVER=1") else cleanup env 1) h := by
    intro h hq
    refine Prog.ensures_call (Prog.ensures_call (rejected_cleanup _ _ _ ?_) (rejected_deploy _ _ _ _ _ ?_))
      (rejected_deploy _ _ _ _ _ ?_)
    · exact (add (add hq _ _) _ _).rejected _
    · exact add (add hq _ _) _ _
    · exact add hq _ _
  refine Prog.ensures_call (Prog.ensures_call (Prog.ensures_call ?_ ?_) ?_) (Prog.ensures_call ?_ ?_)
  · exact rejected_cleanup _ _ _ trivial
  · exact hm _ (add' (add' (add' hq _ _) _ _) _ _)
  · exact hm _ (add' (add' hq _ _) _ _)
  · exact rejected_cleanup _ _ _ ((add (add' hq _ _) _ _).rejected _)
  · exact rejected_deploy _ _ _ _ _ (add (add' hq _ _) _ _)

theorem rejected_checkout (env : Env) (sym rev : Str) (h : List (Call × Bool)) (hq : Quiet h) :
    (checkout env sym rev).Ensures Rejected h := by
  have q1 := fun b => hq.add .mkdtemp b (fun _ => trivial)
  have q2 := fun b => (q1 true).add (.system (archive env rev)) b (fun _ => trivial)
  have q3 := fun b => (q2 true).add (.chdir env.tmpdir) b (fun _ => trivial)
  refine Prog.ensures_call ((q1 false).rejected _) (Prog.ensures_call (rejected_cleanup _ _ _ ((q2 false).rejected _))
    (Prog.ensures_call (rejected_cleanup _ _ _ ((q3 false).rejected _)) ?_))
  simp only [reduceCtorEq, if_false]
  cases buildsDir env with
  | ub => trivial
  | ok builds =>
    exact Prog.ensures_call (rejected_build _ _ _ _ ((q3 true).add _ _ (fun _ => trivial)))
      (rejected_build _ _ _ _ ((q3 true).add _ _ (fun _ => trivial)))

/-- A push that is rejected with status 1 leaves the site as it is, unless the link could not be made
again after it was removed. -/
theorem rejected_partial (env : Env) (t : List (Call × Bool)) (h : (preReceive env).Exec t (.exit 1)) :
    (∀ target p, (.symlink target p, true) ∉ t) ∧
    ∀ p, (.unlink p, true) ∈ t → ∃ target, (.symlink target p, false) ∈ t := by
  have he : (preReceive env).Ensures Rejected [] := by
    have q0 : Quiet [] := by simp [Quiet]
    unfold preReceive
    split
    · exact q0.rejected _
    · next repo _ =>
      have q1 := fun b => q0.add (.chdir repo) b (fun _ => trivial)
      refine Prog.ensures_require ((q1 false).rejected _) ?_
      split
      · split
        · trivial
        · exact rejected_checkout _ _ _ _ (q1 true)
      · refine Prog.ensures_require (((q1 true).add _ _ (fun _ => trivial)).rejected _) ?_
        split
        · exact ((q1 true).add _ _ (fun _ => trivial)).rejected _
        · exact rejected_checkout _ _ _ _ ((q1 true).add _ _ (fun _ => trivial))
  have := Prog.exec_of_ensures he h
  rw [List.nil_append] at this
  exact this

/-! ## Cases -/

/-- A push of `master` to the repository `/h/repos/s.git`, deployed before as `/h/builds/0a-1`. -/
def sample : Env where
  base := some b!"/h"
  home := none
  builds := none
  gitDir := true
  self := b!"hooks/pre-receive"
  realpath := fun p => if p = b!"hooks" then some b!"/h/repos/s.git/hooks" else none
  realpath2 := fun p => if p = b!"/h/repos/s.git/htdocs" then some b!"/h/builds/0a-1" else none
  config := fun _ => none
  stdin := b!"0a 1b refs/heads/master\n"
  tmpdir := b!"/tmp/x"
  epoch := 7
  cpus := 4

theorem sample_repo : repoDir sample = some b!"/h/repos/s.git" := by decide +kernel

/-- The calls before the build of the sample. -/
def sampleStart : List (Call × Bool) :=
  [(.chdir b!"/h/repos/s.git", true), (.mkdtemp, true),
   (.system b!"git archive \"1b\" | tar -x -C \"/tmp/x\" -f -", true), (.chdir b!"/tmp/x", true),
   (.exists_ b!"/h/builds/1b-7", false), (.exists_ b!"blogcfile", true),
   (.found b!"blogc-make -v 2> /dev/null > /dev/null", true)]

/-- An execution of a program, given the outcomes of the calls. -/
def play {C α : Type} : Prog C α → List Bool → Option (List (C × Bool) × α)
  | .ret a, [] => some ([], a)
  | .ret _, _ :: _ => none
  | .call _ _, [] => none
  | .call c k, b :: l => (play (k b) l).map fun (t, a) => ((c, b) :: t, a)

theorem play_exec {C α : Type} (p : Prog C α) (l : List Bool) (t : List (C × Bool)) (a : α) (h : play p l = some (t, a)) :
    p.Exec t a := by
  induction l generalizing p t with
  | nil =>
    cases p with
    | ret b => simp [play] at h; obtain ⟨rfl, rfl⟩ := h; exact .ret _
    | call c k => simp [play] at h
  | cons b l ih =>
    cases p with
    | ret b => simp [play] at h
    | call c k =>
      simp only [play, Option.map_eq_some_iff] at h
      obtain ⟨⟨t', a'⟩, h1, h2⟩ := h
      cases h2
      exact .call (ih _ _ h1)

/-- The push is accepted: the site is deployed, and the previous build removed. -/
example : (preReceive sample).Exec (sampleStart ++
    [(.system b!"OUTPUT_DIR=\"/h/builds/1b-7\" blogc-make -V all", true), (.unlink b!"/h/repos/s.git/htdocs", true),
     (.symlink b!"/h/builds/1b-7" b!"/h/repos/s.git/htdocs", true), (.remove b!"/h/builds/0a-1", true),
     (.remove b!"/tmp/x", true)]) (.exit 0) :=
  play_exec _ [true, true, true, true, false, true, true, true, true, true, true, true] _ _ (by decide +kernel)

/-- The build fails: the push is rejected, and the link kept. -/
example : (preReceive sample).Exec (sampleStart ++
    [(.system b!"OUTPUT_DIR=\"/h/builds/1b-7\" blogc-make -V all", false), (.remove b!"/h/builds/1b-7", true),
     (.remove b!"/tmp/x", true)]) (.exit 1) :=
  play_exec _ [true, true, true, true, false, true, true, false, true, true] _ _ (by decide +kernel)

/-- A push of another branch. -/
example : (preReceive { sample with stdin := b!"0a 1b refs/heads/topic\n" }).Exec
    [(.chdir b!"/h/repos/s.git", true)] (.exit 0) :=
  play_exec _ [true] _ _ (by decide +kernel)

/-- A push that is rejected can leave no site at all: the link is removed before it is made again. -/
theorem rejected_violated : ∃ (env : Env) (t : List (Call × Bool)), (preReceive env).Exec t (.exit 1) ∧
    (.unlink b!"/h/repos/s.git/htdocs", true) ∈ t ∧ ∀ target p, (.symlink target p, true) ∉ t := by
  have h : (preReceive sample).Exec (sampleStart ++
      [(.system b!"OUTPUT_DIR=\"/h/builds/1b-7\" blogc-make -V all", true), (.unlink b!"/h/repos/s.git/htdocs", true),
       (.symlink b!"/h/builds/1b-7" b!"/h/repos/s.git/htdocs", false), (.remove b!"/h/builds/1b-7", true),
       (.remove b!"/tmp/x", true)]) (.exit 1) :=
    play_exec _ [true, true, true, true, false, true, true, true, true, false, true, true] _ _ (by decide +kernel)
  exact ⟨sample, _, h, by simp, (rejected_partial _ _ h).1⟩

/-- A push that is rejected can be deployed nevertheless: the previous build could not be removed. -/
theorem deployed_violated : ∃ (env : Env) (t : List (Call × Bool)), (preReceive env).Exec t (.exit 2) ∧
    (.symlink b!"/h/builds/1b-7" b!"/h/repos/s.git/htdocs", true) ∈ t :=
  ⟨sample, sampleStart ++
    [(.system b!"OUTPUT_DIR=\"/h/builds/1b-7\" blogc-make -V all", true), (.unlink b!"/h/repos/s.git/htdocs", true),
     (.symlink b!"/h/builds/1b-7" b!"/h/repos/s.git/htdocs", true), (.remove b!"/h/builds/0a-1", false)],
    play_exec _ [true, true, true, true, false, true, true, true, true, true, false] _ _ (by decide +kernel), by simp⟩

/-- When the new build cannot be removed, the checkout is left behind. -/
theorem checkout_removed_violated : ∃ (env : Env) (t : List (Call × Bool)), (preReceive env).Exec t (.exit 2) ∧
    (.mkdtemp, true) ∈ t ∧ ∀ ok, (.remove env.tmpdir, ok) ∉ t :=
  ⟨sample, sampleStart ++
    [(.system b!"OUTPUT_DIR=\"/h/builds/1b-7\" blogc-make -V all", false), (.remove b!"/h/builds/1b-7", false)],
    play_exec _ [true, true, true, true, false, true, true, false, false] _ _ (by decide +kernel), by decide +kernel,
    by decide +kernel⟩

/-- Without `BLOGC_GIT_RECEIVER_BUILDS_DIR`, `BLOGC_GIT_RECEIVER_BASE_DIR` and `HOME` a null pointer
is printed as a string. -/
theorem statuses_violated : ∃ (env : Env) (t : List (Call × Bool)), repoDir env ≠ none ∧ (preReceive env).Exec t .undefined :=
  ⟨{ sample with base := none }, sampleStart.take 4, by decide +kernel,
    play_exec _ [true, true, true, true] _ _ (by decide +kernel)⟩

/-- Built again by hand. -/
example : (preReceive { sample with gitDir := false, realpath := fun p =>
      if p = b!"/h/repos/s.git/htdocs" then some b!"/h/builds/0a-1" else sample.realpath p }).Exec
    [(.chdir b!"/h/repos/s.git", true), (.readable b!"/h/repos/s.git/htdocs", true), (.mkdtemp, true),
     (.system b!"git archive \"0a\" | tar -x -C \"/tmp/x\" -f -", false), (.remove b!"/tmp/x", true)] (.exit 1) :=
  play_exec _ [true, true, true, false, true] _ _ (by decide +kernel)

end Blogc.C80
