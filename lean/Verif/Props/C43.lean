import Verif.Props.C06
import Verif.Props.C41

/-!
# C43: the command handed to git-shell is never truncated or split
-/

namespace Blogc.C43

open Blogc Blogc.GitShell Blogc.Shell

/-! ## The path decoder keeps C strings -/

theorem dec_nulFree : ∀ (t : Str) (q : C41.Q) (rv p : Str), NulFree t → NulFree rv →
    (∀ acc, q = .inner acc → NulFree acc) → C41.dec t q rv = some p → NulFree p := by
  intro t
  induction t with
  | nil =>
    intro q rv p _ hrv _ h
    rw [C41.dec] at h
    split at h
    · simp only [Option.some.injEq] at h; exact h ▸ hrv
    · exact absurd h (by simp)
  | cons c t ih =>
    intro q rv p ht hrv hq h
    have ht' : NulFree t := fun x hx => ht x (by simp [hx])
    have hc : NulFree [c] := fun x hx => ht x (by simp at hx; simp [hx])
    have app : ∀ {a b : Str}, NulFree a → NulFree b → NulFree (a ++ b) := by
      intro a b ha hb x hx
      rcases List.mem_append.1 hx with h | h
      · exact ha x h
      · exact hb x h
    cases q with
    | outer =>
      rw [C41.dec] at h
      split at h
      · exact ih _ _ _ ht' hrv (by simp) h
      · split at h
        · exact ih _ _ _ ht' hrv (by simp) h
        · exact absurd h (by simp)
    | opening =>
      rw [C41.dec] at h
      split at h
      · exact ih _ _ _ ht' hrv (by simp) h
      · split at h
        · refine ih _ _ _ ht' hrv ?_ h
          intro acc e; cases e; intro x hx; simp at hx
        · refine ih _ _ _ ht' hrv ?_ h
          intro acc e; cases e; exact hc
    | esc =>
      rw [C41.dec] at h
      split at h
      · exact ih _ _ _ ht' (app hrv hc) (by simp) h
      · exact absurd h (by simp)
    | inner acc =>
      rw [C41.dec] at h
      split at h
      · exact ih _ _ _ ht' (app hrv (hq acc rfl)) (by simp) h
      · refine ih _ _ _ ht' hrv ?_ h
        intro acc' e; cases e; exact app (hq acc rfl) hc

theorem parse_nulFree (c p : Str) (hc : NulFree c) (h : parse c = some p) : NulFree p := by
  obtain ⟨name, -, t, rfl, ht⟩ := (C41.parse_iff c p).1 h
  exact dec_nulFree t _ _ _ (fun x hx => hc x (by simp [hx])) (fun x hx => by simp at hx)
    (by simp) ht

theorem commandName_of_parse (c p : Str) (h : parse c = some p) :
    commandName c ∈ commands ∧ c = commandName c ++ b!" " ++ c.drop ((commandName c).length + 1) := by
  obtain ⟨name, hn, t, rfl, -⟩ := (C41.parse_iff c p).1 h
  have hsp : ∀ x ∈ commands, x.takeWhile (· != c!" ") = x := by decide
  have e : commandName (name ++ c!" " :: t) = name := by
    unfold commandName
    rw [List.takeWhile_append, if_pos (by rw [hsp name hn])]
    simp
  rw [e]
  refine ⟨hn, ?_⟩
  rw [List.drop_append]
  simp

theorem words_name (name x : Str) (hn : name ∈ commands) :
    words (name ++ b!" " ++ x) = (lex .plain none x).map (name :: ·) := by
  have h : ∀ y ∈ commands, lex .plain none y = some [y] := by decide
  have := C06.lex_blank .plain none name x [name] (h name hn)
  rw [List.append_assoc]
  exact this

/-! ## Executions -/

/-- What the shell promises about the calls it makes: git-shell gets the
requested command and one argument, and the only other command run creates the
repository. -/
def CallOk (bd arg p : Str) : Call → Prop
  | .execGitShell buf => words buf = some [commandName arg, bd ++ b!"/repos/" ++ p]
  | .system cmd => ∃ c, cmd = c ++ b!" > /dev/null" ∧
      words c = some [b!"git", b!"init", b!"--bare", bd ++ b!"/repos/" ++ p]
  | _ => True

/-- The shell ends with status 1 without having run git-shell, or git-shell is
the last thing it runs. -/
def Final (t : List (Call × Bool)) (rv : Nat) : Prop :=
  (rv = 1 ∧ ∀ c ∈ t, ∀ buf, c.1 ≠ .execGitShell buf) ∨
  ∃ t' buf ok, t = t' ++ [(.execGitShell buf, ok)] ∧ ∀ c ∈ t', ∀ buf, c.1 ≠ .execGitShell buf

/-- Calls made before git-shell is run. -/
def Before (bd arg p : Str) (t : List (Call × Bool)) : Prop :=
  ∀ c ∈ t, CallOk bd arg p c.1 ∧ ∀ buf, c.1 ≠ .execGitShell buf

theorem Before.snoc {bd arg p : Str} {t : List (Call × Bool)} (h : Before bd arg p t) (c : Call)
    (ok : Bool) (hc : CallOk bd arg p c) (he : ∀ buf, c ≠ .execGitShell buf) :
    Before bd arg p (t ++ [(c, ok)]) := by
  intro x hx
  rcases List.mem_append.1 hx with hx | hx
  · exact h x hx
  · simp only [List.mem_singleton] at hx; subst hx; exact ⟨hc, he⟩

/-- What is proved of every execution. -/
def Good (bd arg p : Str) (t : List (Call × Bool)) (rv : Nat) : Prop :=
  (∀ c ∈ t, CallOk bd arg p c.1) ∧ Final t rv

theorem Before.good {bd arg p : Str} {t : List (Call × Bool)} (h : Before bd arg p t) :
    Good bd arg p t 1 :=
  ⟨fun c hc => (h c hc).1, .inl ⟨rfl, fun c hc => (h c hc).2⟩⟩

/-- A call that is neither git-shell nor a command. -/
def Plain (c : Call) : Prop := (∀ buf, c ≠ .execGitShell buf) ∧ ∀ cmd, c ≠ .system cmd

theorem Before.plain {bd arg p : Str} {t : List (Call × Bool)} (h : Before bd arg p t) {c : Call}
    (ok : Bool) (hc : Plain c) : Before bd arg p (t ++ [(c, ok)]) := by
  refine h.snoc c ok ?_ hc.1
  cases c <;> try trivial
  · exact absurd rfl (hc.2 _)
  · exact absurd rfl (hc.1 _)

theorem require_good {bd arg p : Str} {c : Call} (hc : Plain c) {k : Prog Call Nat}
    (hk : ∀ h, Before bd arg p h → k.Ensures (Good bd arg p) h) (h : List (Call × Bool))
    (hb : Before bd arg p h) : (Prog.require c 1 k).Ensures (Good bd arg p) h :=
  Prog.ensures_require (hb.plain _ hc).good (hk _ (hb.plain _ hc))

theorem call_good {bd arg p : Str} {c : Call} (hc : Plain c) {k : Bool → Prog Call Nat}
    (hk : ∀ ok h, Before bd arg p h → (k ok).Ensures (Good bd arg p) h) (h : List (Call × Bool))
    (hb : Before bd arg p h) : (Prog.call c k).Ensures (Good bd arg p) h :=
  fun ok => hk ok _ (hb.plain _ hc)

theorem installHook_good {bd arg p self name : Str} {k : Prog Call Nat}
    (hk : ∀ h, Before bd arg p h → k.Ensures (Good bd arg p) h) (h : List (Call × Bool))
    (hb : Before bd arg p h) : (installHook self name k).Ensures (Good bd arg p) h := by
  have hl : ∀ h, Before bd arg p h →
      (Prog.require (.symlink self name) 1 k).Ensures (Good bd arg p) h :=
    require_good (by simp [Plain]) hk
  refine call_good (by simp [Plain]) ?_ h hb
  intro ok h hb
  cases ok with
  | true => exact require_good (by simp [Plain]) hl h hb
  | false => exact hl h hb

theorem gitExec_good {bd arg p : Str} (hp : parse arg = some p) (hbd : NulFree bd) (harg : NulFree arg)
    (h : List (Call × Bool)) (hb : Before bd arg p h) :
    (gitExec bd arg (shellQuote (some (bd ++ b!"/repos/" ++ p)))).Ensures (Good bd arg p) h := by
  refine require_good (by simp [Plain]) ?_ h hb
  intro h hb
  show (if _ then _ else _ : Prog Call Nat).Ensures _ _
  split
  · exact hb.good
  · rename_i hsz
    have hrepo : NulFree (bd ++ b!"/repos/" ++ p) := by
      have h1 := parse_nulFree arg p harg hp
      have h2 : NulFree b!"/repos/" := by decide
      intro x hx
      rcases List.mem_append.1 hx with hx | hx
      · rcases List.mem_append.1 hx with hx | hx
        · exact hbd x hx
        · exact h2 x hx
      · exact h1 x hx
    have hw : words (commandName arg ++ b!" " ++ shellQuote (some (bd ++ b!"/repos/" ++ p)))
        = some [commandName arg, bd ++ b!"/repos/" ++ p] := by
      rw [words_name _ _ (commandName_of_parse arg p hp).1]
      have := C06.quote_lex _ hrepo none []
      rw [List.append_nil] at this
      rw [this]
      simp [lex]
    intro ok
    show Good _ _ _ _ _
    rw [List.take_of_length_le (by
      simp only [List.length_append, List.length_cons, List.length_nil] at hsz ⊢; omega)]
    refine ⟨?_, .inr ⟨h, _, ok, rfl, fun c hc => (hb c hc).2⟩⟩
    intro c hc
    rcases List.mem_append.1 hc with hc | hc
    · exact (hb c hc).1
    · simp only [List.mem_singleton] at hc
      subst hc
      exact hw

theorem shell_good {self bd arg p : Str} (hp : parse arg = some p) (hbd : NulFree bd)
    (harg : NulFree arg) : (shell (some self) (some bd) arg).Ensures (Good bd arg p) [] := by
  have hb : Before bd arg p [] := by intro c hc; simp at hc
  have hx := @gitExec_good bd arg p hp hbd harg
  unfold shell
  rw [hp]
  show (if _ then _ else _ : Prog Call Nat).Ensures _ _
  split
  · exact hx [] hb
  · have hhooks : ∀ h, Before bd arg p h →
        (Prog.require (.chdir (bd ++ b!"/repos/" ++ p)) 1 <|
          .call (.exists_ b!"hooks") fun there =>
          let inHooks :=
            Prog.require (.chdir b!"hooks") 1 <|
            installHook self b!"pre-receive" <|
            installHook self b!"post-receive" <|
            gitExec bd arg (shellQuote (some (bd ++ b!"/repos/" ++ p)))
          if there then inHooks else Prog.require (.mkdir b!"hooks") 1 inHooks).Ensures
            (Good bd arg p) h := by
      have hin := require_good (c := .chdir b!"hooks") (by simp [Plain])
        (installHook_good (self := self) (name := b!"pre-receive")
          (installHook_good (self := self) (name := b!"post-receive") hx))
      refine require_good (by simp [Plain]) (call_good (by simp [Plain]) ?_)
      intro ok h hb
      cases ok with
      | true => exact hin h hb
      | false => exact require_good (by simp [Plain]) hin h hb
    refine call_good (by simp [Plain]) ?_ [] hb
    intro ok h hb
    cases ok with
    | true => exact hhooks h hb
    | false =>
      have hcmd : CallOk bd arg p (.system (b!"git init --bare " ++
          shellQuote (some (bd ++ b!"/repos/" ++ p)) ++ b!" > /dev/null")) := by
        refine ⟨_, rfl, ?_⟩
        have hrepo : NulFree (bd ++ b!"/repos/" ++ p) := by
          have h1 := parse_nulFree arg p harg hp
          have h2 : NulFree b!"/repos/" := by decide
          intro x hx
          rcases List.mem_append.1 hx with hx | hx
          · rcases List.mem_append.1 hx with hx | hx
            · exact hbd x hx
            · exact h2 x hx
          · exact h1 x hx
        have h3 := C06.lex_blank .plain none b!"git init --bare"
          (shellQuote (some (bd ++ b!"/repos/" ++ p))) [b!"git", b!"init", b!"--bare"] (by decide)
        have h4 := C06.quote_lex _ hrepo none []
        rw [List.append_nil] at h4
        rw [h4] at h3
        exact h3
      exact Prog.ensures_require (hb.snoc _ _ hcmd (by simp)).good
        (hhooks _ (hb.snoc _ _ hcmd (by simp)))

/-- In every execution of the restricted shell, for every answer of the system
to every call: if the command is not acceptable nothing is called and the status
is 1. Otherwise git-shell, if run, is run last, with exactly two words, the
requested command and the path of the repository; and if it is not run the
status is 1. -/
theorem one_argument (self bd arg : Str) (hbd : NulFree bd) (harg : NulFree arg)
    (t : List (Call × Bool)) (rv : Nat) (h : (shell (some self) (some bd) arg).Exec t rv) :
    match parse arg with
    | none => t = [] ∧ rv = 1
    | some p =>
      (∀ buf ok, (Call.execGitShell buf, ok) ∈ t →
        words buf = some [commandName arg, bd ++ b!"/repos/" ++ p] ∧ commandName arg ∈ commands) ∧
      ((rv = 1 ∧ ∀ c ∈ t, ∀ buf, c.1 ≠ .execGitShell buf) ∨
        ∃ t' buf ok, t = t' ++ [(.execGitShell buf, ok)] ∧
          ∀ c ∈ t', ∀ buf, c.1 ≠ .execGitShell buf) := by
  cases hp : parse arg with
  | none =>
    unfold shell at h
    rw [hp] at h
    cases h
    exact ⟨rfl, rfl⟩
  | some p =>
    have := Prog.exec_of_ensures (shell_good (self := self) hp hbd harg) h
    rw [List.nil_append] at this
    exact ⟨fun buf ok hm => ⟨this.1 _ hm, (commandName_of_parse arg p hp).1⟩, this.2⟩

/-- The only other program the shell runs is `git init --bare` with the path of
the repository as its single argument, its output being discarded. -/
theorem init_argument (self bd arg p : Str) (hp : parse arg = some p) (hbd : NulFree bd)
    (harg : NulFree arg) (t : List (Call × Bool)) (rv : Nat)
    (h : (shell (some self) (some bd) arg).Exec t rv) (cmd : Str) (ok : Bool)
    (hm : (Call.system cmd, ok) ∈ t) :
    ∃ c, cmd = c ++ b!" > /dev/null" ∧
      words c = some [b!"git", b!"init", b!"--bare", bd ++ b!"/repos/" ++ p] := by
  have := Prog.exec_of_ensures (shell_good (self := self) hp hbd harg) h
  rw [List.nil_append] at this
  exact this.1 _ hm

/-- Without a base directory or a program path nothing is run. -/
theorem no_environment (self bd : Option Str) (h0 : self = none ∨ bd = none) (arg : Str)
    (t : List (Call × Bool)) (rv : Nat) (h : (shell self bd arg).Exec t rv) : t = [] ∧ rv = 1 := by
  unfold shell at h
  cases self with
  | none => cases h; exact ⟨rfl, rfl⟩
  | some s =>
    cases bd with
    | none => cases h; exact ⟨rfl, rfl⟩
    | some b => simp at h0

/-- A fetch of a repository with awkward bytes in its name. -/
example : ∃ t, (shell (some b!"/usr/bin/r") (some b!"/home/git") b!"git-upload-pack '/a'\\'' b.git'").Exec t 0 ∧
    t = [(.chdir b!"/home/git", true),
      (.execGitShell b!"git-upload-pack '/home/git/repos/a'\\'' b.git'", true)] :=
  ⟨_, .call (ok := true) (.call (ok := true) (.ret 0)), rfl⟩

end Blogc.C43
