import Verif.Spec.Shell
import Verif.Model.Strings

/-!
# C06: shell quoting is opaque to a POSIX shell
-/

namespace Blogc.C06

open Blogc Blogc.Shell

theorem lex_squote_body (s : Str) (hn : NulFree s) (cur : Str) (rest : Str) :
    lex .squote (some cur) (s.flatMap shellQuoteByte ++ c!"'" :: rest)
      = lex .plain (some (cur ++ s)) rest := by
  induction s generalizing cur with
  | nil => simp [lex]
  | cons b s ih =>
    have hb : b ≠ 0 := hn b (by simp)
    have hs : NulFree s := fun c hc => hn c (by simp [hc])
    rw [List.flatMap_cons, List.append_assoc]
    by_cases h1 : b = c!"!"
    · have e : shellQuoteByte b = b!"'\\!'" := by rw [shellQuoteByte, if_pos h1]
      rw [e, h1]
      simp [lex, isBlank, ih hs]
    · by_cases h2 : b = c!"'"
      · have e : shellQuoteByte b = b!"'\\''" := by rw [shellQuoteByte, if_neg h1, if_pos h2]
        rw [e, h2]
        simp [lex, isBlank, ih hs]
      · have e : shellQuoteByte b = [b] := by rw [shellQuoteByte, if_neg h1, if_neg h2]
        rw [e]
        simp [lex, hb, h2, ih hs]

/-- Wherever the shell is in the middle of a command (with `cur` the word in
progress, if any), the quoted string contributes exactly the bytes of `s` to
the current word, and nothing else. -/
theorem quote_lex (s : Str) (hn : NulFree s) (cur : Option Str) (rest : Str) :
    lex .plain cur (shellQuote (some s) ++ rest)
      = lex .plain (some (cur.getD [] ++ s)) rest := by
  have := lex_squote_body s hn (cur.getD []) rest
  simp only [shellQuote, List.append_assoc, List.cons_append, List.nil_append]
  rw [← this]
  simp [lex, isBlank]

/-- A complete command prefix followed by a blank is lexed on its own. -/
theorem lex_blank (m : Mode) (cur : Option Str) (pre post : Str) (ws : List Str)
    (h : lex m cur pre = some ws) :
    lex m cur (pre ++ c!" " :: post) = (lex .plain none post).map (ws ++ ·) := by
  induction pre generalizing m cur ws with
  | nil =>
    cases m <;> simp [lex] at h
    subst h
    simp [lex, isBlank]
  | cons c pre ih =>
    cases m with
    | plain =>
      simp only [List.cons_append, lex] at h ⊢
      split
      · rename_i hb
        rw [if_pos hb] at h
        cases hl : lex .plain none pre with
        | none => rw [hl] at h; simp at h
        | some ws' =>
          rw [hl] at h
          simp at h
          rw [ih _ _ _ hl]
          subst h
          cases lex .plain none post <;> simp
      · rename_i hb
        rw [if_neg hb] at h
        split at h
        · rename_i h1; rw [if_pos h1]; exact ih _ _ _ h
        · rename_i h1; rw [if_neg h1]
          split at h
          · rename_i h2; rw [if_pos h2]; exact ih _ _ _ h
          · rename_i h2; rw [if_neg h2]
            split at h
            · rename_i h3; rw [if_pos h3]; exact ih _ _ _ h
            · rename_i h3; rw [if_neg h3]
              split at h
              · simp at h
              · rename_i h4; rw [if_neg h4]; exact ih _ _ _ h
    | escape =>
      simp only [List.cons_append, lex] at h ⊢
      split at h
      · simp at h
      · rename_i h0; rw [if_neg h0]
        split at h
        · rename_i h1; rw [if_pos h1]; exact ih _ _ _ h
        · rename_i h1; rw [if_neg h1]; exact ih _ _ _ h
    | squote =>
      simp only [List.cons_append, lex] at h ⊢
      split at h
      · simp at h
      · rename_i h0; rw [if_neg h0]
        split at h
        · rename_i h1; rw [if_pos h1]; exact ih _ _ _ h
        · rename_i h1; rw [if_neg h1]; exact ih _ _ _ h
    | dquote =>
      simp only [List.cons_append, lex] at h ⊢
      split at h
      · simp at h
      · rename_i h0; rw [if_neg h0]
        split at h
        · rename_i h1; rw [if_pos h1]; exact ih _ _ _ h
        · rename_i h1; rw [if_neg h1]
          split at h
          · rename_i h2; rw [if_pos h2]; exact ih _ _ _ h
          · rename_i h2; rw [if_neg h2]
            split at h
            · simp at h
            · rename_i h3; rw [if_neg h3]; exact ih _ _ _ h
    | dquoteEscape =>
      simp only [List.cons_append, lex] at h ⊢
      split at h
      · simp at h
      · rename_i h0; rw [if_neg h0]
        split at h
        · rename_i h1; rw [if_pos h1]; exact ih _ _ _ h
        · rename_i h1; rw [if_neg h1]
          split at h
          · rename_i h2; rw [if_pos h2]; exact ih _ _ _ h
          · rename_i h2; rw [if_neg h2]; exact ih _ _ _ h

/-- The quoted string alone is exactly one word, equal to the original. -/
theorem quote_word (s : Str) (hn : NulFree s) : words (shellQuote (some s)) = some [s] := by
  have := quote_lex s hn none []
  simp only [List.append_nil] at this
  rw [words, this]
  simp [lex]

/-- Between blanks in any command whose other words are literal, the quoted
string is exactly one word equal to the original. -/
theorem quote_between_blanks (s : Str) (hn : NulFree s) (pre post : Str) (ws vs : List Str)
    (hpre : words pre = some ws) (hpost : words post = some vs) :
    words (pre ++ c!" " :: (shellQuote (some s) ++ c!" " :: post)) = some (ws ++ s :: vs) := by
  rw [words, lex_blank _ _ _ _ _ hpre,
    lex_blank .plain none (shellQuote (some s)) post [s] (quote_word s hn)]
  rw [words] at hpost
  rw [hpost]
  simp

/-- Distinct strings have distinct quoted forms. -/
theorem quote_injective (s t : Str) (hs : NulFree s) (ht : NulFree t)
    (h : shellQuote (some s) = shellQuote (some t)) : s = t := by
  have h1 := quote_word s hs
  rw [h, quote_word t ht] at h1
  simpa using h1.symm

example : words (b!"rm" ++ c!" " :: (shellQuote (some b!"it's; $(x) !\n") ++ c!" " :: b!"-f"))
    = some [b!"rm", b!"it's; $(x) !\n", b!"-f"] := by decide
example : NulFree b!"it's; $(x) !\n" := by decide

end Blogc.C06
