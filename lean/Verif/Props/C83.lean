import Verif.Model.GitHooks
import Verif.Props.C80b

/-!
# C83: the git receiver is a hook, a restricted shell, or nothing

`GitHooks.mode argv sshOrig` is what `blogc-git-receiver` does when called as `argv` with the
variable `SSH_ORIGINAL_COMMAND` being `sshOrig`. What the restricted shell accepts is the matter of
C41 to C43.
-/

namespace Blogc.C83

open Blogc Blogc.GitHooks

/-- `s` is the last part of the path `p`, which does not end in a slash. -/
def NameOf (p s : Str) : Prop := s ≠ [] ∧ c!"/" ∉ s ∧ (p = s ∨ ∃ dir, p = dir ++ b!"/" ++ s)

theorem basename_plain (s : Str) (hn : s ≠ []) (hs : c!"/" ∉ s) : basename s = s := by
  have hmem : ∀ x ∈ s.reverse, x ≠ c!"/" := fun x hx e => hs (by simpa [e] using hx)
  obtain ⟨c, r, e⟩ : ∃ c r, s.reverse = c :: r := by
    cases e : s.reverse with
    | nil => simp at e; exact absurd e hn
    | cons c r => exact ⟨c, r, rfl⟩
  have hc : c ≠ c!"/" := hmem c (by simp [e])
  have hstrip : Make.stripSlashes s = s := by
    unfold Make.stripSlashes
    rw [e, List.dropWhile_cons_of_neg (by simpa using hc), ← e, List.reverse_reverse]
  unfold basename
  rw [hstrip, if_neg hn, if_neg hn]
  have := List.takeWhile_append_of_pos (p := (· != c!"/")) (l₁ := s.reverse) (l₂ := []) (by intro x hx; simpa using hmem x hx)
  simp only [List.append_nil, List.takeWhile_nil] at this
  rw [this, List.reverse_reverse]

theorem basename_name (p s : Str) (h : NameOf p s) : basename p = s := by
  obtain ⟨h1, h2, rfl | ⟨dir, rfl⟩⟩ := h
  · exact basename_plain _ h1 h2
  · exact C80.basename_join dir s h1 h2

/-- The program was called by the name `s`: that is the last part of the path, and slashes at the
end of the path do not count. -/
def CalledAs (a0 s : Str) : Prop := ∃ p k, NameOf p s ∧ a0 = p ++ List.replicate k c!"/"

theorem strip_slashes (p : Str) (k : Nat) :
    Make.stripSlashes (p ++ List.replicate k c!"/") = Make.stripSlashes p := by
  unfold Make.stripSlashes
  rw [List.reverse_append, List.reverse_replicate]
  congr 1
  induction k with
  | zero => rfl
  | succ k ih => rw [List.replicate_succ, List.cons_append, List.dropWhile_cons_of_pos (by decide)]; exact ih

theorem stripped (s : Str) : ∃ k, s = Make.stripSlashes s ++ List.replicate k c!"/" := by
  have h := List.takeWhile_append_dropWhile (p := (· == c!"/")) (l := s.reverse)
  have ht : s.reverse.takeWhile (· == c!"/") = List.replicate (s.reverse.takeWhile (· == c!"/")).length c!"/" := by
    apply List.eq_replicate_iff.2 ⟨rfl, ?_⟩
    intro b hb
    simpa using List.all_eq_true.1 (List.all_takeWhile (p := (· == c!"/")) (l := s.reverse)) b hb
  refine ⟨(s.reverse.takeWhile (· == c!"/")).length, ?_⟩
  have := congrArg List.reverse h
  rw [List.reverse_append, List.reverse_reverse, ht, List.reverse_replicate] at this
  exact this.symm

theorem last_name (q s : Str) (h : (q.reverse.takeWhile (· != c!"/")).reverse = s) (hs : s ≠ []) : NameOf q s := by
  have h1 := List.takeWhile_append_dropWhile (p := (· != c!"/")) (l := q.reverse)
  have h2 := congrArg List.reverse h1
  rw [List.reverse_append, List.reverse_reverse, h] at h2
  refine ⟨hs, ?_, ?_⟩
  · rw [← h]
    intro hm
    have := List.all_eq_true.1 (List.all_takeWhile (p := (· != c!"/")) (l := q.reverse)) _ (List.mem_reverse.1 hm)
    simp at this
  · cases hd : q.reverse.dropWhile (· != c!"/") with
    | nil => rw [hd] at h2; exact .inl h2.symm
    | cons c r =>
      have hc : c = c!"/" := by
        have := List.head?_dropWhile_not (p := (· != c!"/")) q.reverse
        rw [hd] at this
        simpa using this
      subst hc
      rw [hd, List.reverse_cons] at h2
      exact .inr ⟨r.reverse, h2.symm⟩

theorem calledAs_iff (a0 s : Str) (hn : s ≠ []) (hs : c!"/" ∉ s) (hd : s ≠ b!".") :
    CalledAs a0 s ↔ basename a0 = s := by
  constructor
  · rintro ⟨p, k, hp, rfl⟩
    have hp0 : p ≠ [] := by
      rintro rfl
      obtain ⟨h1, _, h | ⟨d, h⟩⟩ := hp
      · exact h1 h.symm
      · simp at h
    have : basename (p ++ List.replicate k c!"/") = basename p := by
      unfold basename
      rw [strip_slashes, if_neg hp0, if_neg (by simp [hp0])]
    rw [this]
    exact basename_name p s hp
  · intro h
    unfold basename at h
    split at h
    · exact absurd h.symm hd
    · split at h
      · exact absurd (h ▸ by decide : c!"/" ∈ s) hs
      · obtain ⟨k, hk⟩ := stripped a0
        exact ⟨_, k, last_name _ s h hn, hk⟩

theorem pre_iff (a0 : Str) : basename a0 = b!"pre-receive" ↔ CalledAs a0 b!"pre-receive" :=
  (calledAs_iff a0 _ (by decide) (by decide) (by decide)).symm

theorem post_iff (a0 : Str) : basename a0 = b!"post-receive" ↔ CalledAs a0 b!"post-receive" :=
  (calledAs_iff a0 _ (by decide) (by decide) (by decide)).symm

/-- A command of the client comes only from `-c` or, if nothing else is given, from
`SSH_ORIGINAL_COMMAND`; then the program must have been called by its absolute path, which the
session uses as its shell. -/
theorem shell_iff (argv : List Str) (ssh : Option Str) (cmd : Str) (self : Option Str) :
    mode argv ssh = .shell cmd self ↔
      ∃ a0 args, argv = a0 :: args ∧ ¬ CalledAs a0 b!"pre-receive" ∧ ¬ CalledAs a0 b!"post-receive" ∧
        ((args = [b!"-c", cmd] ∧ self = none) ∨
         (args = [] ∧ ssh = some cmd ∧ a0.head? = some c!"/" ∧ self = some a0)) := by
  simp only [← pre_iff, ← post_iff]
  cases argv with
  | nil => simp [mode]
  | cons a0 args =>
    simp only [mode, List.cons.injEq]
    constructor
    · intro h
      refine ⟨a0, args, ⟨rfl, rfl⟩, ?_⟩
      split at h
      · cases h
      · next h1 =>
        split at h
        · cases h
        · next h2 =>
          refine ⟨h1, h2, ?_⟩
          split at h
          · split at h
            · next flag command hf => cases h; subst hf; exact .inl ⟨rfl, rfl⟩
            · cases h
          · split at h
            · split at h
              · next hs => cases h; exact .inr ⟨rfl, rfl, hs, rfl⟩
              · cases h
            · cases h
          · cases h
    · rintro ⟨a0', args', ⟨rfl, rfl⟩, h1, h2, ⟨rfl, rfl⟩ | ⟨rfl, rfl, h3, rfl⟩⟩
      · simp [h1, h2]
      · simp [h1, h2, h3]

/-- A client never reaches a hook: the name of the program decides, not the command. -/
theorem hook_iff (argv : List Str) (ssh : Option Str) :
    (mode argv ssh = .preReceive ↔ ∃ a0 args, argv = a0 :: args ∧ CalledAs a0 b!"pre-receive") ∧
    (mode argv ssh = .postReceive ↔ ∃ a0 args, argv = a0 :: args ∧ CalledAs a0 b!"post-receive") := by
  simp only [← pre_iff, ← post_iff]
  cases argv with
  | nil => simp [mode]
  | cons a0 args =>
    by_cases e1 : basename a0 = b!"pre-receive"
    · simp [mode, e1]
    by_cases e2 : basename a0 = b!"post-receive"
    · simp [mode, e2]
    have key : mode (a0 :: args) ssh ≠ .preReceive ∧ mode (a0 :: args) ssh ≠ .postReceive := by
      simp only [mode, if_neg e1, if_neg e2]
      split
      · split <;> simp
      · split
        · split <;> simp
        · simp
      · simp
    constructor
    · exact ⟨fun h => absurd h key.1, by rintro ⟨_, _, e, h⟩; cases e; exact absurd h e1⟩
    · exact ⟨fun h => absurd h key.2, by rintro ⟨_, _, e, h⟩; cases e; exact absurd h e2⟩

example : NameOf b!"/srv/git/r.git/hooks/pre-receive" b!"pre-receive" :=
  ⟨by decide, by decide, .inr ⟨b!"/srv/git/r.git/hooks", by decide⟩⟩
example : CalledAs b!"hooks/pre-receive//" b!"pre-receive" :=
  ⟨b!"hooks/pre-receive", 2, ⟨by decide, by decide, .inr ⟨b!"hooks", by decide⟩⟩, by decide⟩
example : mode [b!"hooks/pre-receive//"] none = .preReceive := by decide +kernel
example : mode [b!"/usr/bin/blogc-git-receiver"] (some b!"git-upload-pack 'a'") =
    .shell b!"git-upload-pack 'a'" (some b!"/usr/bin/blogc-git-receiver") := by decide +kernel
example : mode [b!"-blogc-git-receiver"] (some b!"ls") = .refuse := by decide +kernel
example : mode [b!"blogc-git-receiver"] none = .refuse := by decide +kernel

end Blogc.C83
