import Verif.Lemmas.Prog
import Verif.Model.GitHooks
import Verif.Spec.Shell
import Verif.Props.C06
import Verif.Props.C80b

/-!
# C81: mirroring never blocks a push, and uses the configured mirror

`GitHooks.postReceive env` is the hook that git runs after a push.
-/

namespace Blogc.C81

open Blogc Blogc.GitHooks Blogc.Shell

/-- The command that mirrors to `url`. -/
def push (url : Str) : Str := b!"git push --mirror " ++ url

def askPush : Call := .system b!"git config --local remote.mirror.pushurl > /dev/null"
def askUrl : Call := .system b!"git config --local remote.mirror.url > /dev/null"

/-- The executions, once the repository is entered: the remote `mirror` of the repository goes first,
then the mirror of the settings. The outcome of the push does not matter. -/
theorem exact (env : Env) (repo : Str) (hr : repoDir env = some repo) (t : List (Call × Bool)) (o : Outcome) :
    (postReceive env).Exec t o ↔
      (t = [(.chdir repo, false)] ∧ o = .exit 1) ∨
      (o = .exit 0 ∧ ∃ rest, t = (.chdir repo, true) :: rest ∧
        ((∃ ok, rest = [(askPush, true), (.system (push b!"mirror"), ok)]) ∨
         (∃ ok, rest = [(askPush, false), (askUrl, true), (.system (push b!"mirror"), ok)]) ∨
         (∃ url ok, setting env repo b!"mirror" = some url ∧
            rest = [(askPush, false), (askUrl, false), (.system (push url), ok)]) ∨
         (setting env repo b!"mirror" = none ∧ rest = [(askPush, false), (askUrl, false)]))) := by
  constructor
  · intro h
    have he : (postReceive env).Ensures (fun t o =>
        (t = [(Call.chdir repo, false)] ∧ o = .exit 1) ∨
      (o = .exit 0 ∧ ∃ rest, t = (Call.chdir repo, true) :: rest ∧
        ((∃ ok, rest = [(askPush, true), (.system (push b!"mirror"), ok)]) ∨
         (∃ ok, rest = [(askPush, false), (askUrl, true), (.system (push b!"mirror"), ok)]) ∨
         (∃ url ok, setting env repo b!"mirror" = some url ∧
            rest = [(askPush, false), (askUrl, false), (.system (push url), ok)]) ∨
         (setting env repo b!"mirror" = none ∧ rest = [(askPush, false), (askUrl, false)])))) [] := by
      unfold postReceive
      rw [hr]
      refine Prog.ensures_require (.inl ⟨rfl, rfl⟩) (Prog.ensures_call (Prog.ensures_call ?_ ?_) ?_)
      · simp only [Bool.false_eq_true, if_false]
        cases hs : setting env repo b!"mirror" with
        | none => exact .inr ⟨rfl, _, rfl, .inr (.inr (.inr ⟨rfl, rfl⟩))⟩
        | some url => exact fun ok => .inr ⟨rfl, _, rfl, .inr (.inr (.inl ⟨url, ok, rfl, rfl⟩))⟩
      · exact fun ok => .inr ⟨rfl, _, rfl, .inr (.inl ⟨ok, rfl⟩)⟩
      · exact fun ok => .inr ⟨rfl, _, rfl, .inl ⟨ok, rfl⟩⟩
    simpa using Prog.exec_of_ensures he h
  · unfold postReceive
    rw [hr]
    rintro (⟨rfl, rfl⟩ | ⟨rfl, rest, rfl, ⟨ok, rfl⟩ | ⟨ok, rfl⟩ | ⟨url, ok, hs, rfl⟩ | ⟨hs, rfl⟩⟩)
    · exact .call (.ret _)
    · exact .call (.call (.call (.ret _)))
    · exact .call (.call (.call (.call (.ret _))))
    · refine .call (.call (.call ?_))
      simp only [Bool.false_eq_true, if_false, hs]
      exact .call (.ret _)
    · refine .call (.call (.call ?_))
      simp only [Bool.false_eq_true, if_false, hs]
      exact .ret _

/-- The push is accepted, whatever the mirror does. -/
theorem never_blocks (env : Env) (repo : Str) (hr : repoDir env = some repo) (t : List (Call × Bool)) (o : Outcome)
    (h : (postReceive env).Exec t o) (hc : (.chdir repo, false) ∉ t) : o = .exit 0 := by
  rcases (exact env repo hr t o).mp h with ⟨rfl, -⟩ | ⟨rfl, -⟩
  · simp at hc
  · rfl

/-- The bytes that are words of a shell command by themselves. -/
def Bare (s : Str) : Prop := s ≠ [] ∧ ∀ c ∈ s, isBlank c = false ∧ isSpecial c = false ∧ c ≠ c!"'" ∧ c ≠ c!"\"" ∧ c ≠ c!"\\"

theorem lex_bare (s : Str) (hs : ∀ c ∈ s, isBlank c = false ∧ isSpecial c = false ∧ c ≠ c!"'" ∧ c ≠ c!"\"" ∧ c ≠ c!"\\")
    (cur : Str) : lex .plain (some cur) s = some [cur ++ s] := by
  induction s generalizing cur with
  | nil => simp [lex]
  | cons c s ih =>
    obtain ⟨h1, h2, h3, h4, h5⟩ := hs c (by simp)
    rw [lex, if_neg (by simp [h1]), if_neg h3, if_neg h4, if_neg h5, if_neg (by simp [h2]),
      ih (fun x hx => hs x (by simp [hx]))]
    simp

/-- git pushes to the configured URL, if no byte of it is special to the shell. -/
theorem words_partial (url : Str) (h : Bare url) : words (push url) = some [b!"git", b!"push", b!"--mirror", url] := by
  obtain ⟨c, r, rfl⟩ : ∃ c r, url = c :: r := List.exists_cons_of_ne_nil h.1
  obtain ⟨h1, h2, h3, h4, h5⟩ := h.2 c (by simp)
  have := lex_bare r (fun x hx => h.2 x (by simp [hx])) [c]
  have hl : lex .plain none (c :: r) = some [c :: r] := by
    rw [lex, if_neg (by simp [h1]), if_neg h3, if_neg h4, if_neg h5, if_neg (by simp [h2])]
    simpa using this
  have := C06.lex_blank .plain none b!"git push --mirror" (c :: r) [b!"git", b!"push", b!"--mirror"] (by decide +kernel)
  rw [hl] at this
  exact this

example : Bare b!"git@github.com:u/r.git" := ⟨by decide, by decide +kernel⟩

/-- The URL is not quoted: of a directory with a blank in its name only the first part is used, and a
URL with a `&`, which is allowed in URLs, is cut. -/
theorem words_violated :
    words (push b!"/srv/my mirror.git") = some [b!"git", b!"push", b!"--mirror", b!"/srv/my", b!"mirror.git"] ∧
    words (push b!"https://h/r.git?a=1&b=2") = none := by
  constructor <;> decide +kernel

/-- A push with a mirror that fails. -/
example : (postReceive { C80.sample with self := b!"hooks/post-receive" }).Exec
    [(.chdir b!"/h/repos/s.git", true), (askPush, false), (askUrl, true),
     (.system b!"git push --mirror mirror", false)] (.exit 0) :=
  C80.play_exec _ [true, false, true, false] _ _ (by decide +kernel)

end Blogc.C81
