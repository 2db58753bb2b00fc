import Verif.Lemmas.ContentPairs
import Verif.Lemmas.ContentSafe
import Verif.Spec.Lists
import Verif.Props.C40b

/-!
# C40: block markup is parsed in finite time and within bounds

`Run.out` is running out of the given number of nested calls (one call for every
quotation inside a quotation), `Run.ub` is an access to memory that is not (or no longer)
valid.
-/

namespace Blogc.C40

open Blogc Blogc.Content Blogc.Spec

/-- Full statement, first part: every text is parsed with some number of nested calls.
It fails: see C40b for the text, which uses both kinds of line endings. -/
theorem terminates_violated :
    ¬ ∀ s : Str, NulFree s → ∃ depth, parse depth s true ≠ .out := by
  intro h
  obtain ⟨d, hd⟩ := h loop (by decide)
  exact hd (loop_out false d _)

/-- Full statement, second part: no text leads to undefined behaviour. It fails: the lines of
a list that is given up are released (line 1101), and used again by the next list. -/
theorem in_bounds_violated : ¬ ∀ (s : Str) (depth : Nat), NulFree s → parse depth s true ≠ .ub := by
  intro h
  exact h b!"* a\nb\n\n* c\n" 1 (by decide) (by decide +kernel)

/-- The same for ordered lists (line 1212). -/
theorem in_bounds_ordered_violated :
    ¬ ∀ (s : Str) (depth : Nat), NulFree s → parse depth s true ≠ .ub := by
  intro h
  exact h b!"1. a\nb\n\n2. c\n" 1 (by decide) (by decide +kernel)

/-- It also fails, as in C38, for a line that ends with a backslash. -/
theorem in_bounds_backslash_violated :
    ¬ ∀ (s : Str) (depth : Nat), NulFree s → parse depth s true ≠ .ub := by
  intro h
  exact h b!"a *b\\\n" 1 (by decide) (by decide +kernel)

/-- The loop of one call ends on every text, if the nested calls do. -/
theorem one_call_terminates (rec : Str → Str → Run Str) (hrec : ∀ s e, rec s e ≠ .out)
    (src : Str) (w : Want) (endl : Option Str) :
    runL (blockStep false rec src w) (2 * src.length + 2) (BSt.init endl) ≠ .out :=
  loop_ends hrec endl

theorem mono_of {x : Byte} (hx : isNl x = true) {s : Str} (h : OneEnding [x] s) : Mono x s := by
  induction h with
  | last hl => intro c hc hn; rw [show isNl c = false from hl c hc] at hn; cases hn
  | line hl _ ih =>
    intro c hc hn
    simp only [List.mem_append, List.mem_singleton] at hc
    rcases hc with (hc | hc) | hc
    · rw [show isNl c = false from hl c hc] at hn; cases hn
    · exact hc
    · exact ih c hc hn

theorem pairs_of {x y : Byte} {s : Str} (h : OneEnding [x, y] s) : Pairs x y s := by
  induction h with
  | last hl => simpa using Pairs.plain_append (x := x) (y := y) hl .nil
  | line hl _ ih =>
    rw [List.append_assoc]
    exact .plain_append hl (.pair ih)

/-- Every text whose lines all end in the same way is parsed, with at most as many nested calls as the
text has `>`. -/
theorem terminates_partial (s e : Str) (he : e ∈ endings) (h : OneEnding e s) (depth : Nat)
    (hd : s.count c!">" < depth) (headers : Bool) : parse depth s headers ≠ .out := by
  have one : ∀ x : Byte, isNl x = true → OneEnding [x] s → parse depth s headers ≠ .out :=
    fun x hx h => parseBlocks_ends false x hx _ _ _ _ (mono_of hx h) (.inl rfl) hd
  have two : ∀ x y : Byte, Two x y → OneEnding [x, y] s → parse depth s headers ≠ .out := by
    intro x y ht h
    refine parseBlocks_pairs false ht _ _ _ _ ((pairs_of h).paired ht) (.inl ⟨rfl, ?_⟩) hd
    intro h0
    obtain ⟨j, hj, _⟩ := (pairs_of h).before ht 0 h0
    omega
  simp only [endings, List.mem_cons, List.not_mem_nil, or_false] at he
  rcases he with rfl | rfl | rfl | rfl
  · exact one _ rfl h
  · exact one _ rfl h
  · exact two _ _ ⟨rfl, rfl, by decide⟩ h
  · exact two _ _ ⟨rfl, rfl, by decide⟩ h

theorem nb_of_lines : ∀ {s : Str}, (∀ l ∈ lines s, l.getLast? ≠ some c!"\\") → NB s
  | [], _ => NB.nil
  | c :: r, h => by
    have hr : NB r := by
      apply nb_of_lines
      intro l hl
      unfold lines at h hl
      rw [splitLines] at h
      split at h
      · exact h l (List.mem_cons_of_mem _ hl)
      · rcases List.mem_cons.1 hl with rfl | hl
        · intro hlast
          have := h _ (by exact List.mem_cons_self)
          simp only at this
          rw [List.getLast?_cons, hlast] at this
          exact this rfl
        · exact h l (List.mem_cons_of_mem _ hl)
    intro a b e
    cases a with
    | cons d a =>
      rw [List.cons_append] at e
      injection e with _ e
      exact hr a b e
    | nil =>
      injection e with e1 e2
      subst e1 e2
      unfold lines at h
      rw [splitLines] at h
      cases r with
      | nil => exact absurd rfl (h [c!"\\"] (by simp [newline, splitLines]))
      | cons d r =>
        refine ⟨d, r, rfl, ?_⟩
        cases hd : isNl d
        · rfl
        · refine absurd rfl (h [c!"\\"] ?_)
          have h1 : newline d = true := hd
          have h2 : newline c!"\\" = false := rfl
          rw [splitLines, h1, h2]
          exact List.mem_cons_self

/-- No undefined behaviour, whatever the number of nested calls, for a text without lines
that end with a backslash or start like a list item. What is missing are lists, where the full
statement fails as shown above. -/
theorem in_bounds_partial (s : Str) (hn : NulFree s)
    (hb : ∀ l ∈ lines s, l.getLast? ≠ some c!"\\") (hl : ∀ l ∈ lines s, listLine l = false)
    (depth : Nat) (headers : Bool) : parse depth s headers ≠ .ub :=
  (parseBlocks_safe false depth s _ none
    ⟨hn, nb_of_lines hb, .inr (.inl (clean_of_lines s true (fun _ => hl _ (by simp [lines]))
      fun l h => hl l (by simp [lines, h])))⟩ (by simp)).ne_ub

theorem no_pair {x : Byte} {s : Str} (h : Mono x s) (k : Nat) (c c' : Byte) (hc : s[k]? = some c)
    (hc' : s[k + 1]? = some c') : isPair c c' = false := by
  cases hp : isPair c c' with
  | false => rfl
  | true =>
    simp only [isPair, Bool.or_eq_true, Bool.and_eq_true, beq_iff_eq] at hp
    have h1 := h c (List.mem_of_getElem? hc)
    have h2 := h c' (List.mem_of_getElem? hc')
    rcases hp with ⟨rfl, rfl⟩ | ⟨rfl, rfl⟩ <;> have := (h1 rfl).trans (h2 rfl).symm <;> cases this

/-- With lists: no undefined behaviour for a text, with line endings of one character, whose lists are not
broken off and are outside of quotations. This is all that the list of `in_bounds_violated` lacks: its second
line neither is an item nor continues one. -/
theorem lists_in_bounds_partial (s e : Str) (hn : NulFree s) (he : e = b!"\n" ∨ e = b!"\r") (hr : OneEnding e s)
    (hb : ∀ l ∈ lines s, l.getLast? ≠ some c!"\\") (hl : unbroken (lines s) = true)
    (depth : Nat) (headers : Bool) : parse depth s headers ≠ .ub := by
  have hm : ∃ x, Mono x s := by
    rcases he with rfl | rfl
    · exact ⟨_, mono_of rfl hr⟩
    · exact ⟨_, mono_of rfl hr⟩
  obtain ⟨x, hm⟩ := hm
  exact (parseBlocks_safe false depth s _ none
    ⟨hn, nb_of_lines hb, .inr (.inr ⟨hl, no_pair hm⟩)⟩ (by simp)).ne_ub

/-- With the pointer reset after the release (`fx`), lists are no longer a problem. -/
theorem repaired_in_bounds (s : Str) (hn : NulFree s)
    (hb : ∀ l ∈ lines s, l.getLast? ≠ some c!"\\") (depth : Nat) (w : Want) :
    parseBlocks true depth s w none ≠ .ub :=
  (parseBlocks_safe true depth s _ none ⟨hn, nb_of_lines hb, .inl rfl⟩ (by simp)).ne_ub

/-- Both parts together. -/
theorem parses_partial (s e : Str) (hn : NulFree s) (he : e ∈ endings) (hr : OneEnding e s)
    (hb : ∀ l ∈ lines s, l.getLast? ≠ some c!"\\") (hl : ∀ l ∈ lines s, listLine l = false)
    (depth : Nat) (hd : s.count c!">" < depth) (headers : Bool) : ∃ st, parse depth s headers = .ok st := by
  cases h : parse depth s headers with
  | ok st => exact ⟨st, rfl⟩
  | ub => exact absurd h (in_bounds_partial s hn hb hl _ _)
  | out => exact absurd h (terminates_partial s e he hr depth hd _)

/-- Both parts together, with lists. -/
theorem lists_parsed_partial (s e : Str) (hn : NulFree s) (he : e = b!"\n" ∨ e = b!"\r") (hr : OneEnding e s)
    (hb : ∀ l ∈ lines s, l.getLast? ≠ some c!"\\") (hl : unbroken (lines s) = true)
    (depth : Nat) (hd : s.count c!">" < depth) (headers : Bool) : ∃ st, parse depth s headers = .ok st := by
  cases h : parse depth s headers with
  | ok st => exact ⟨st, rfl⟩
  | ub => exact absurd h (lists_in_bounds_partial s e hn he hr hb hl _ _)
  | out =>
    refine absurd h (terminates_partial s e ?_ hr depth hd _)
    rcases he with rfl | rfl <;> simp [endings]

/-- A text with all kinds of lists, a rule, an emphasis and a number at the start of a line, and a quotation. -/
def listText : Str :=
  b!"* a\n* b\n  c\n\n*d* e\n\n---\n12. x\n13. y\n\n2020 was\n\n> q\n> \n> r\n\n- z\n\n+ w\n"

theorem listText_ending : OneEnding b!"\n" listText := by
  have go : ∀ ls : List Str, (∀ l ∈ ls, ∀ c ∈ l, newline c = false) → OneEnding b!"\n" (ls.flatMap (· ++ b!"\n")) := by
    intro ls
    induction ls with
    | nil => intro _; exact .last (l := []) (by simp)
    | cons l ls ih =>
      intro h
      rw [List.flatMap_cons]
      exact .line (h l (by simp)) (ih fun m hm => h m (by simp [hm]))
  exact go [b!"* a", b!"* b", b!"  c", [], b!"*d* e", [], b!"---", b!"12. x", b!"13. y", [], b!"2020 was", [], b!"> q",
    b!"> ", b!"> r", [], b!"- z", [], b!"+ w"] (by decide)

example : NulFree listText ∧ OneEnding b!"\n" listText ∧ (∀ l ∈ lines listText, l.getLast? ≠ some c!"\\") ∧
    unbroken (lines listText) = true ∧
    (match parse 2 listText false with | .ok st => st.rv | _ => []) =
      b!"<ul>\n<li>a</li>\n<li>b\nc</li>\n</ul>\n<p><em>d</em> e</p>\n<hr />\n<ol>\n<li>x</li>\n<li>y</li>\n</ol>\n<p>2020 was</p>\n<blockquote><p>q</p>\n<p>r</p>\n</blockquote>\n<ul>\n<li>z</li>\n</ul>\n<ul>\n<li>w</li>\n</ul>\n" :=
  ⟨by decide +kernel, listText_ending, by decide +kernel, by decide +kernel, by decide +kernel⟩

example : unbroken (lines b!"* a\nb\n\n* c\n") = false := by decide +kernel

theorem sample_endings {e : Str} : OneEnding e (b!"# T" ++ e ++ (e ++ (b!"> a" ++ e ++ (b!"> " ++ e ++ (b!"> > b *c*" ++ e ++
    (e ++ (b!"    code" ++ e))))))) := by
  have blank : ∀ {s : Str}, OneEnding e s → OneEnding e (e ++ s) := fun h => .line (l := []) (by simp) h
  refine .line (by decide) (blank (.line (by decide) (.line (by decide) (.line (by decide) (blank ?_)))))
  have := OneEnding.line (e := e) (l := b!"    code") (by decide) (.last (l := []) (by simp))
  simpa using this

/-- A text with a header, quotations inside quotations and code meets the hypotheses. -/
example :
    let s := b!"# T\n\n> a\n> \n> > b *c*\n\n    code\n"
    NulFree s ∧ OneEnding b!"\n" s ∧ (∀ l ∈ lines s, l.getLast? ≠ some c!"\\") ∧
    (∀ l ∈ lines s, listLine l = false) ∧
    (match parse 4 s false with | .ok st => st.rv | _ => []) =
      b!"<h1 id=\"t\">T</h1>\n<blockquote><p>a</p>\n<blockquote><p>b <em>c</em></p>\n</blockquote>\n</blockquote>\n<pre><code>code</code></pre>\n" :=
  ⟨by decide +kernel, sample_endings (e := b!"\n"), by decide +kernel, by decide +kernel, by decide +kernel⟩

/-- The same text as it is written on other systems. -/
example :
    let s := b!"# T\r\n\r\n> a\r\n> \r\n> > b *c*\r\n\r\n    code\r\n"
    NulFree s ∧ OneEnding b!"\r\n" s ∧ (∀ l ∈ lines s, l.getLast? ≠ some c!"\\") ∧
    (∀ l ∈ lines s, listLine l = false) ∧
    (match parse 4 s false with | .ok st => st.rv | _ => []) =
      b!"<h1 id=\"t\">T</h1>\r\n<blockquote><p>a</p>\r\n<blockquote><p>b <em>c</em></p>\r\n</blockquote>\r\n</blockquote>\r\n<pre><code>code</code></pre>\r\n" :=
  ⟨by decide +kernel, sample_endings (e := b!"\r\n"), by decide +kernel, by decide +kernel, by decide +kernel⟩

/-- A marker alone on the first line, where the quoted text starts with half of a line ending. -/
example : OneEnding b!"\r\n" b!">\r\n> a\r\n" ∧
    (match parse 3 b!">\r\n> a\r\n" false with | .ok st => st.rv | _ => []) =
      b!"<blockquote><blockquote><p>a</p>\r\n</blockquote>\r\n</blockquote>\r\n" :=
  ⟨.line (l := b!">") (by decide) (.line (l := b!"> a") (by decide) (.last (l := []) (by decide))), by decide +kernel⟩

end Blogc.C40
