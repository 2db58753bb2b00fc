import Verif.Lemmas.Inline

/-!
# C38: inline markup is parsed in finite time and within bounds

`Run.out` is running out of the given numbers of iterations and of nested calls,
`Run.ub` is an access outside the text (the search for a closing delimiter skips
the character after a backslash, even if that is the terminator).
-/

namespace Blogc.C38

open Blogc Blogc.Content Blogc.Spec

/-- Parsing ends on every text. -/
theorem terminates (s : Str) : parseInline s ≠ .out := (parseInline_fine s).ne_out

/-- The number of iterations in one call is at most quadratic, the number of nested calls
at most the length of the text, for every part of the text a call may work on. -/
theorem terminates_part (s : Str) (len : Nat) (hl : len ≤ s.length) (d : Nat)
    (hd : s.length < d) : inlineInternal d s len ≠ .out :=
  (inlineInternal_fine d s len hd hl).ne_out

/-- Full statement: every text is parsed within its bounds. It fails: after an
opening `*`, a backslash at the end makes the search for the closing `*` run over
the terminator. -/
theorem in_bounds_violated : ¬ ∀ s : Str, NulFree s → parseInline s ≠ .ub := by
  intro h
  exact h b!"*a\\" (by decide) (by decide +kernel)

/-- The same in the middle of a text that was not meant as emphasis. -/
theorem in_bounds_violated_example : parseInline b!"2 * 3 [C:\\" = .ub := by decide +kernel

/-- Parsing stays in bounds for every text that does not end in the middle of an escape
(an odd number of backslashes at the end), and for texts of backslashes only. What is missing
is exactly the case shown above. -/
theorem in_bounds_partial (s : Str) (hn : NulFree s)
    (hs : ¬ Dangling s ∨ ∀ c ∈ s, c = c!"\\") : ∃ html, parseInline s = .ok html := by
  obtain ⟨a, h, _⟩ := (parseInline_fine s).ok (fun h => h ⟨hn, hs⟩)
  exact ⟨a, h⟩

/-- Nesting, unterminated links, escapes: the hypotheses hold, and the result is the expected one. -/
example : ¬ Dangling b!"a *b [c](d) \\* e* [f" ∧
    parseInline b!"a *b [c](d) \\* e* [f" = .ok b!"a <em>b <a href=\"d\">c</a> * e</em> [f" := by
  decide +kernel

end Blogc.C38
