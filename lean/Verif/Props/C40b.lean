import Verif.Lemmas.Content

/-!
# C40: a text on which the block parser never ends

`real_end` is set by a line ending of two characters and never reset
(src/blogc/content-parser.c:744). A later quoted line ended by a single newline then
extends to the end of the text; two such lines make the quoted text longer than the text
itself, and again of the same form.
-/

namespace Blogc.C40

open Blogc Blogc.Content

/-- The loop never gets to an end from this state, whatever the number of iterations. -/
def Diverges (fx : Bool) (rec : Str → Str → Run Str) (src : Str) (w : Want) (st : BSt) : Prop :=
  ∀ n, runL (blockStep fx rec src w) n st = .out

variable {fx : Bool} {rec : Str → Str → Run Str} {src : Str} {w : Want} {st : BSt}

theorem Diverges.step {st' : BSt} (h : blockStep fx rec src w st = .ok (.inl st'))
    (h' : Diverges fx rec src w st') : Diverges fx rec src w st := by
  intro n
  cases n with
  | zero => rfl
  | succ n => rw [runL, h]; exact h' n

theorem Diverges.now (h : blockStep fx rec src w st = .out) : Diverges fx rec src w st := by
  intro n
  cases n with
  | zero => rfl
  | succ n => rw [runL, h]

/-- At the start of a block, at position `pos`, with the line ending already known. -/
structure Ready (st : BSt) (pos re : Nat) : Prop where
  state : st.state = .startLine
  current : st.current = pos
  le : st.lineEnding = b!"\n"
  found : st.lineEndingFound = true
  realEnd : st.realEnd = re
  lines : st.lines = []

theorem get_append (pre rest : Str) (k : Nat) : (pre ++ rest)[pre.length + k]? = rest[k]? := by
  rw [List.getElem?_append_right (by omega)]
  congr 1
  omega

/-- No character that the inline parser could trip over. -/
def Tame (s : Str) : Prop := ∀ c ∈ s, c ≠ 0 ∧ c ≠ c!"\\"

theorem Tame.good {s : Str} (h : Tame s) : Good s := by
  refine ⟨fun c hc => (h c hc).1, ?_⟩
  left
  rw [dangling_iff]
  have : tail s = 0 := by
    unfold tail
    rcases hr : s.reverse with _ | ⟨c, r⟩
    · rfl
    · have : c ∈ s := by rw [← List.mem_reverse, hr]; simp
      rw [List.takeWhile_cons_of_neg (by simpa using (h c this).2)]
      rfl
  omega

theorem dup_ok (src : Str) (a b : Nat) (ht : Tame src) (h : a ≤ src.length) :
    ∃ t, dup src a b = .ok t ∧ ∃ html, parseInline t = .ok html := by
  unfold dup
  rw [if_neg (by omega)]
  have key : ∀ t : Str, (∀ c ∈ t, c ∈ src) → ∃ html, parseInline t = .ok html := by
    intro t hs
    obtain ⟨x, hx, _⟩ := (parseInline_fine t).ok
      (fun h => h (Tame.good (fun c hc => ht c (hs c hc))))
    exact ⟨x, hx⟩
  split
  · exact ⟨_, rfl, key _ fun c hc => List.mem_of_mem_drop (List.mem_of_mem_take hc)⟩
  · exact ⟨_, rfl, key _ fun c hc => List.mem_of_mem_drop hc⟩

theorem notLast {k : Nat} {c : Byte} (h : src[k + 1]? = some c) : (k == src.length - 1) = false := by
  have := (List.getElem?_eq_some_iff.1 h).1
  rw [beq_eq_false_iff_ne]
  omega

theorem step_plain {c d : Byte} (h : src[st.current]? = some c) (hc : isNl c = false)
    (h' : src[st.current + 1]? = some d) :
    blockStep fx rec src w st = dispatch fx rec src w st c false := by
  unfold blockStep
  rw [h]
  simp only [hc, notLast h']
  rfl

theorem step_nl {d : Byte} (h : src[st.current]? = some c!"\n") (h' : src[st.current + 1]? = some d)
    (hd : d ≠ c!"\r") (hf : st.lineEndingFound = true) :
    blockStep fx rec src w st = dispatch fx rec src w st c!"\n" false := by
  unfold blockStep
  rw [h, h']
  have e : { st with lineEnding := (if st.lineEndingFound = true then st.lineEnding else [10]),
                     lineEndingFound := true } = st := by
    cases st; simp_all
  simp [isNl, isPair, hd, e]

theorem step_crlf {d : Byte} (h : src[st.current]? = some c!"\r")
    (h' : src[st.current + 1]? = some c!"\n") (h'' : src[st.current + 1 + 1]? = some d)
    (hf : st.lineEndingFound = true) :
    blockStep fx rec src w st = dispatch fx rec src w
      { st with realEnd := st.current, current := st.current + 1 } c!"\n" false := by
  unfold blockStep
  rw [h, h']
  have e : { st with lineEnding := (if st.lineEndingFound = true then st.lineEnding else [13, 10]),
                     lineEndingFound := true, realEnd := st.current, current := st.current + 1 } =
      { st with realEnd := st.current, current := st.current + 1 } := by
    cases st; simp_all
  have hl := notLast h''
  simp [isNl, isPair, e, hl]

/-- A newline at the start of a block is skipped. -/
theorem skip_newline {pre rest : Str} {re : Nat} {d : Byte} (hs : src = pre ++ b!"\n" ++ d :: rest)
    (hd : d ≠ c!"\r") (hst : Ready st pre.length re)
    (h : ∀ st', Ready st' (pre ++ b!"\n").length re → Diverges fx rec src w st') :
    Diverges fx rec src w st := by
  obtain ⟨h1, h2, h3, h4, h5, h6⟩ := hst
  have g : ∀ k, src[st.current + k]? = (b!"\n" ++ d :: rest)[k]? := by
    intro k; rw [hs, h2, List.append_assoc]; exact get_append pre _ k
  refine Diverges.step (st' := { st with current := st.current + 1 }) ?_ (h _ ?_)
  · rw [step_nl (g 0) (g 1) hd h4]
    simp [dispatch, h1, startLine, ends, isNl, BSt.brk]
  · exact ⟨h1, by simp [h2], h3, h4, h5, h6⟩

/-- The end of a paragraph and the blank line after it. -/
theorem end_paragraph {pre rest : Str} {re : Nat} {d : Byte}
    (hs : src = pre ++ b!"\n\n" ++ d :: rest) (ht : Tame src) (hd : d ≠ c!"\r")
    (h1 : st.state = .paragraph) (h2 : st.current = pre.length) (h3 : st.lineEnding = b!"\n")
    (h4 : st.lineEndingFound = true) (h5 : st.realEnd = re) (h6 : st.lines = [])
    (h7 : st.start ≤ src.length)
    (h : ∀ st', Ready st' (pre ++ b!"\n\n").length re → Diverges fx rec src w st') :
    Diverges fx rec src w st := by
  have g : ∀ k, src[st.current + k]? = (b!"\n\n" ++ d :: rest)[k]? := by
    intro k; rw [hs, h2, List.append_assoc]; exact get_append pre _ k
  refine Diverges.step (st' := { st with
      current := st.current + 1, state := .paragraphEnd, stop := lineStop src st c!"\n" false }) ?_ ?_
  · rw [step_nl (g 0) (g 1) (by decide) h4]
    simp [dispatch, h1, paragraph, ends, isNl, BSt.brk]
  · obtain ⟨t, hdup, html, hin⟩ := dup_ok src st.start (lineStop src st c!"\n" false) ht h7
    refine Diverges.step (st' := { st with
        current := st.current + 1 + 1, state := .startLine, stop := lineStop src st c!"\n" false
        description := if w.description = true ∧ st.description = none then some (fixDescription t)
          else st.description
        rv := st.rv ++ b!"<p>" ++ html ++ b!"</p>" ++ st.lineEnding
        start := st.current + 1 }) ?_ (h _ ?_)
    · refine Eq.trans (step_nl (d := d) (g 1) (g 2) hd h4) ?_
      simp [dispatch, paragraphEnd, ends, isNl, BSt.brk, hdup, hin]
    · exact ⟨rfl, by simp [h2], h3, h4, h5, h6⟩

/-- A character inside a paragraph. -/
theorem in_paragraph {c d : Byte} (hc : src[st.current]? = some c) (hd : src[st.current + 1]? = some d)
    (hn : isNl c = false) (hp : st.state = .paragraph)
    (h : Diverges fx rec src w { st with current := st.current + 1 }) :
    Diverges fx rec src w st := by
  refine Diverges.step ?_ h
  rw [step_plain hc hn hd]
  have he : ends c false = false := by simp [ends, hn]
  simp [dispatch, hp, paragraph, he, BSt.brk]

/-- The first character of a paragraph. -/
theorem begin_paragraph {c d : Byte} {re : Nat} {pos : Nat} (hst : Ready st pos re)
    (hc : src[st.current]? = some c)
    (hd : src[st.current + 1]? = some d) (hl : c = c!"a" ∨ c = c!"b" ∨ c = c!"x")
    (h : Diverges fx rec src w { st with current := st.current + 1, state := .paragraph,
                                         start := st.current }) :
    Diverges fx rec src w st := by
  refine Diverges.step ?_ h
  have hn : isNl c = false := by rcases hl with rfl | rfl | rfl <;> decide
  rw [step_plain hc hn hd]
  rcases hl with rfl | rfl | rfl <;>
    simp [dispatch, hst.state, startLine, ends, isNl, isDig, isSp, BSt.brk, BSt.goto]

/-- A paragraph of one letter. -/
theorem paragraph_b {pre rest : Str} {re : Nat} {d : Byte}
    (hs : src = pre ++ b!"b\n\n" ++ d :: rest) (ht : Tame src) (hd : d ≠ c!"\r")
    (hst : Ready st pre.length re)
    (h : ∀ st', Ready st' (pre ++ b!"b\n\n").length re → Diverges fx rec src w st') :
    Diverges fx rec src w st := by
  have g : ∀ k, src[st.current + k]? = (b!"b\n\n" ++ d :: rest)[k]? := by
    intro k; rw [hs, hst.current, List.append_assoc]; exact get_append pre _ k
  refine begin_paragraph hst (g 0) (g 1) (by simp) ?_
  have hlt := (List.getElem?_eq_some_iff.1 (g 0)).1
  refine end_paragraph (pre := pre ++ b!"b") (rest := rest) (d := d) (re := re) (by rw [hs]; simp) ht hd rfl (by simp [hst.current])
    hst.le hst.found hst.realEnd hst.lines (by simp only; omega) ?_
  simpa using h

/-- The paragraph left by a quoted text, at the start of the text. -/
theorem paragraph_ab {rest : Str} {re : Nat} {d : Byte} (hs : src = b!"a\n> b\n\n" ++ d :: rest)
    (ht : Tame src) (hd : d ≠ c!"\r") (hst : Ready st 0 re)
    (h : ∀ st', Ready st' 7 re → Diverges fx rec src w st') :
    Diverges fx rec src w st := by
  have g : ∀ k, src[st.current + k]? = (b!"a\n> b\n\n" ++ d :: rest)[k]? := by
    intro k; rw [hs, hst.current, Nat.zero_add]
  refine begin_paragraph hst (g 0) (g 1) (by simp) ?_
  have h0 := hst.current
  refine Diverges.step (st' := { st with
      current := st.current + 1 + 1, state := .paragraphEnd, start := st.current
      stop := lineStop src { st with current := st.current + 1, state := .paragraph, start := st.current } c!"\n" false }) ?_ ?_
  · refine Eq.trans (step_nl (d := c!">") (g 1) (g 2) (by decide) hst.found) ?_
    simp [dispatch, paragraph, ends, isNl, BSt.brk]
  generalize lineStop src _ _ _ = stop
  refine Diverges.step (st' := { st with
      current := st.current + 1 + 1 + 1, state := .paragraph, start := st.current
      stop := stop }) ?_ ?_
  · refine Eq.trans (step_plain (c := c!">") (d := c!" ") (g 2) (by decide) (g 3)) ?_
    simp [dispatch, paragraphEnd, ends, isNl, BSt.brk, BSt.goto]
  refine in_paragraph (c := c!" ") (d := c!"b") (g 3) (g 4) (by decide) rfl ?_
  refine in_paragraph (c := c!"b") (d := c!"\n") (g 4) (g 5) (by decide) rfl ?_
  refine end_paragraph (pre := b!"a\n> b") (rest := rest) (d := d) (re := re) (by rw [hs]; simp) ht hd rfl
    (by simp [hst.current]) hst.le hst.found hst.realEnd hst.lines (by simp only; omega) h

/-- A paragraph with line endings of two characters. -/
theorem paragraph_x {pre rest : Str} {re : Nat} {d : Byte}
    (hs : src = pre ++ b!"x\r\n\r\n" ++ d :: rest) (ht : Tame src)
    (hst : Ready st pre.length re)
    (h : ∀ st', Ready st' (pre ++ b!"x\r\n\r\n").length (pre.length + 3) → Diverges fx rec src w st') :
    Diverges fx rec src w st := by
  have g : ∀ k, src[st.current + k]? = (b!"x\r\n\r\n" ++ d :: rest)[k]? := by
    intro k; rw [hs, hst.current, List.append_assoc]; exact get_append pre _ k
  have hlt := (List.getElem?_eq_some_iff.1 (g 0)).1
  refine begin_paragraph hst (g 0) (g 1) (by simp) ?_
  refine Diverges.step (st' := { st with
      current := st.current + 3, state := .paragraphEnd, start := st.current
      realEnd := st.current + 1, stop := st.current + 1 }) ?_ ?_
  · refine Eq.trans (step_crlf (d := c!"\r") (g 1) (g 2) (g 3) hst.found) ?_
    simp [dispatch, paragraph, ends, isNl, BSt.brk, lineStop]
  obtain ⟨t, hdup, html, hin⟩ := dup_ok src st.current (st.current + 1) ht (by simp at hlt; omega)
  refine Diverges.step (st' := { st with
      current := st.current + 5, state := .startLine, stop := st.current + 1, realEnd := st.current + 3
      description := if w.description = true ∧ st.description = none then some (fixDescription t)
        else st.description
      rv := st.rv ++ b!"<p>" ++ html ++ b!"</p>" ++ st.lineEnding
      start := st.current + 4 }) ?_ (h _ ?_)
  · refine Eq.trans (step_crlf (d := d) (g 3) (g 4) (g 5) hst.found) ?_
    simp [dispatch, paragraphEnd, ends, isNl, BSt.brk, hdup, hin]
  · exact ⟨rfl, by simp [hst.current], hst.le, hst.found, by simp [hst.current], hst.lines⟩

/-- The quoted text collected from the two quoted lines of `> a`, `> b` before `R`, when
both lines extend to the end of the text. -/
def nest (R : Str) : Str := b!"a\n> b\n\n" ++ R ++ b!"\n" ++ (b!"b\n\n" ++ R ++ b!"\n")

/-- A quotation after a stale `real_end`. -/
theorem quote {pre rest : Str} {re : Nat} {d : Byte}
    (hs : src = pre ++ b!"> a\n> b\n\n" ++ d :: rest) (hd : d ≠ c!"\r")
    (hst : Ready st pre.length re) (h0 : re ≠ 0) (hre : re < pre.length)
    (hrec : rec (nest (d :: rest)) b!"\n" = .out) : Diverges fx rec src w st := by
  have g : ∀ k, src[st.current + k]? = (b!"> a\n> b\n\n" ++ d :: rest)[k]? := by
    intro k; rw [hs, hst.current, List.append_assoc]; exact get_append pre _ k
  have hcur := hst.current
  have hlen : src.length = st.current + 9 + (d :: rest).length := by
    rw [hs, hcur]; simp; omega
  have hle : pre.length ≤ src.length := by omega
  have hdrop : src.drop st.current = b!"> a\n> b\n\n" ++ d :: rest := by
    rw [hs, hcur, List.append_assoc]; simp
  have hdrop4 : src.drop (st.current + 4) = b!"> b\n\n" ++ d :: rest := by
    rw [← List.drop_drop, hdrop]; rfl
  have hpre : dup src st.current (st.current + 1 + 1) = .ok b!"> " := by
    unfold dup
    rw [if_neg (by omega), if_pos (by omega), slice, hdrop]
    have e : st.current + 1 + 1 - st.current = 2 := by omega
    rw [e]; rfl
  have hd1 : dup src st.current re = .ok (b!"> a\n> b\n\n" ++ d :: rest) := by
    unfold dup
    rw [if_neg (by omega), if_neg (by omega), hdrop]
  have hd2 : dup src (st.current + 4) re = .ok (b!"> b\n\n" ++ d :: rest) := by
    unfold dup
    rw [if_neg (by omega), if_neg (by omega), hdrop4]
  -- `>`, the blank and the first letter
  refine Diverges.step (st' := { st with
    current := st.current + 1, state := .blockquote, start := st.current, start2 := st.current }) ?_ ?_
  · refine Eq.trans (step_plain (c := c!">") (d := c!" ") (g 0) (by decide) (g 1)) ?_
    simp [dispatch, hst.state, startLine, ends, isNl, isDig, isSp, BSt.brk]
  refine Diverges.step (st' := { st with
    current := st.current + 1 + 1, state := .blockquote, start := st.current, start2 := st.current }) ?_ ?_
  · refine Eq.trans (step_plain (c := c!" ") (d := c!"a") (g 1) (by decide) (g 2)) ?_
    simp [dispatch, takePrefix, isSp, BSt.brk]
  refine Diverges.step (st' := { st with
    current := st.current + 3, state := .blockquoteStart, start := st.current, start2 := st.current,
    pre := some b!"> " }) ?_ ?_
  · refine Eq.trans (step_plain (c := c!"a") (d := c!"\n") (g 2) (by decide) (g 3)) ?_
    simp [dispatch, takePrefix, isSp, BSt.brk, hpre]
  -- the first quoted line
  refine Diverges.step (st' := { st with
    current := st.current + 4, state := .blockquoteEnd, start := st.current, start2 := st.current,
    pre := some b!"> ", stop := re, lines := [b!"a\n> b\n\n" ++ d :: rest] }) ?_ ?_
  · refine Eq.trans (step_nl (d := c!">") (g 3) (g 4) (by decide) hst.found) ?_
    simp [dispatch, blockquoteStart, ends, isNl, BSt.brk, lineStop, hst.realEnd, h0, hd1, startsWith,
      hst.lines]
  refine Diverges.step (st' := { st with
    current := st.current + 5, state := .blockquoteStart, start := st.current, start2 := st.current + 4,
    pre := some b!"> ", stop := re, lines := [b!"a\n> b\n\n" ++ d :: rest] }) ?_ ?_
  · refine Eq.trans (step_plain (c := c!">") (d := c!" ") (g 4) (by decide) (g 5)) ?_
    simp [dispatch, blockquoteEnd, ends, isNl, BSt.brk]
  refine Diverges.step (st' := { st with
    current := st.current + 6, state := .blockquoteStart, start := st.current, start2 := st.current + 4,
    pre := some b!"> ", stop := re, lines := [b!"a\n> b\n\n" ++ d :: rest] }) ?_ ?_
  · refine Eq.trans (step_plain (c := c!" ") (d := c!"b") (g 5) (by decide) (g 6)) ?_
    simp [dispatch, blockquoteStart, ends, isNl, BSt.brk]
  refine Diverges.step (st' := { st with
    current := st.current + 7, state := .blockquoteStart, start := st.current, start2 := st.current + 4,
    pre := some b!"> ", stop := re, lines := [b!"a\n> b\n\n" ++ d :: rest] }) ?_ ?_
  · refine Eq.trans (step_plain (c := c!"b") (d := c!"\n") (g 6) (by decide) (g 7)) ?_
    simp [dispatch, blockquoteStart, ends, isNl, BSt.brk]
  -- the second one
  refine Diverges.step (st' := { st with
    current := st.current + 8, state := .blockquoteEnd, start := st.current, start2 := st.current + 4,
    pre := some b!"> ", stop := re,
    lines := [b!"a\n> b\n\n" ++ d :: rest, b!"b\n\n" ++ d :: rest] }) ?_ ?_
  · refine Eq.trans (step_nl (d := c!"\n") (g 7) (g 8) (by decide) hst.found) ?_
    simp [dispatch, blockquoteStart, ends, isNl, BSt.brk, lineStop, hst.realEnd, h0, hd2, startsWith]
  -- the nested call
  refine Diverges.now ?_
  refine Eq.trans (step_nl (d := d) (g 8) (g 9) hd hst.found) ?_
  have e : (List.flatMap (· ++ b!"\n") [b!"a\n> b\n\n" ++ d :: rest, b!"b\n\n" ++ d :: rest]) =
      nest (d :: rest) := by
    simp [nest, List.flatMap]
  simp only [dispatch, blockquoteEnd, ends, hst.le]
  rw [e, hrec]
  rfl

/-- What precedes the next quotation after `n` nested calls. -/
def before : Nat → Str
  | 0 => b!"x\r\n\r\n"
  | n + 1 => List.replicate (n + 1) c!"\n" ++ (b!"b\n\n" ++ before n)

/-- What follows the quotation after `n` nested calls. -/
def after (n : Nat) : Str := before n ++ b!"> a\n> b\n\n" ++ List.replicate n c!"\n"

theorem nest_after (n : Nat) :
    nest (after n) = b!"a\n> b\n\n" ++ (before n ++ (b!"> a\n> b\n\n" ++ after (n + 1))) := by
  simp only [nest, after, before, List.append_assoc]
  congr 3
  simp [List.replicate_succ']

theorem tame_replicate (n : Nat) : Tame (List.replicate n c!"\n") := by
  intro c hc
  rw [(List.mem_replicate.1 hc).2]
  decide

theorem Tame.append {a b : Str} (ha : Tame a) (hb : Tame b) : Tame (a ++ b) := by
  intro c hc
  rcases List.mem_append.1 hc with h | h
  · exact ha c h
  · exact hb c h

theorem tame_before : ∀ n, Tame (before n)
  | 0 => by unfold Tame; decide
  | n + 1 => (tame_replicate _).append (Tame.append (by unfold Tame; decide) (tame_before n))

theorem tame_after (n : Nat) : Tame (after n) :=
  ((tame_before n).append (by unfold Tame; decide)).append (tame_replicate n)

theorem tame_nest (n : Nat) : Tame (nest (after n)) := by
  rw [nest_after]
  exact Tame.append (by unfold Tame; decide)
    ((tame_before n).append (Tame.append (by unfold Tame; decide) (tame_after _)))

theorem head_before (n : Nat) : ∃ d r, before n = d :: r ∧ d ≠ c!"\r" := by
  cases n with
  | zero => exact ⟨_, _, rfl, by decide⟩
  | succ n => exact ⟨c!"\n", _, rfl, by decide⟩

theorem head_after (n : Nat) : ∃ d r, after n = d :: r ∧ d ≠ c!"\r" := by
  obtain ⟨d, r, h, hd⟩ := head_before n
  exact ⟨d, r ++ b!"> a\n> b\n\n" ++ List.replicate n c!"\n", by simp [after, h], hd⟩

/-- Several newlines at the start of a block are skipped. -/
theorem skip_newlines (n : Nat) : ∀ {pre rest : Str} {re : Nat} {d : Byte} {st : BSt},
    src = pre ++ List.replicate n c!"\n" ++ d :: rest → d ≠ c!"\r" → Ready st pre.length re →
    (∀ st', Ready st' (pre ++ List.replicate n c!"\n").length re → Diverges fx rec src w st') →
    Diverges fx rec src w st := by
  induction n with
  | zero =>
    intro pre rest re d st hs hd hst h
    exact h st (by simpa using hst)
  | succ n ih =>
    intro pre rest re d st hs hd hst h
    have hs' : src = (pre ++ b!"\n") ++ List.replicate n c!"\n" ++ d :: rest := by
      rw [hs]; simp [List.replicate_succ]
    have key : ∀ st', Ready st' (pre ++ b!"\n").length re → Diverges fx rec src w st' := by
      intro st' hst'
      refine ih hs' hd hst' fun s hs => h s ?_
      simpa [List.replicate_succ, Nat.add_assoc, Nat.add_comm] using hs
    cases n with
    | zero => exact skip_newline (d := d) (rest := rest) (by rw [hs]; rfl) hd hst key
    | succ n =>
      exact skip_newline (d := c!"\n") (rest := List.replicate n c!"\n" ++ d :: rest)
        (by rw [hs]; simp [List.replicate_succ]) (by decide) hst key

/-- The blocks between two quotations leave a stale `real_end`. -/
theorem skip_before (n : Nat) : ∀ {pre rest : Str} {re : Nat} {d : Byte} {st : BSt},
    src = pre ++ before n ++ d :: rest → Tame src → Ready st pre.length re →
    (∀ st' re', re' ≠ 0 → re' < (pre ++ before n).length →
      Ready st' (pre ++ before n).length re' → Diverges fx rec src w st') →
    Diverges fx rec src w st := by
  induction n with
  | zero =>
    intro pre rest re d st hs ht hst h
    refine paragraph_x hs ht hst fun st' h' => h st' _ ?_ ?_ h'
    · omega
    · simp [before]
  | succ n ih =>
    intro pre rest re d st hs ht hst h
    refine skip_newlines (n + 1) (pre := pre) (d := c!"b") (rest := b!"\n\n" ++ before n ++ d :: rest)
      (by rw [hs]; simp [before]) (by decide) hst fun s1 h1 => ?_
    obtain ⟨e, r, he, hne⟩ := head_before n
    refine paragraph_b (pre := pre ++ List.replicate (n + 1) c!"\n") (d := e) (rest := r ++ d :: rest)
      (by rw [hs]; simp [before, he]) ht hne h1 fun s2 h2 => ?_
    refine ih (pre := pre ++ List.replicate (n + 1) c!"\n" ++ b!"b\n\n") (d := d) (rest := rest)
      (by rw [hs]; simp [before]) ht h2 fun s3 re' h0 hre h3 => h s3 re' h0 ?_ ?_
    · simpa [before, Nat.add_assoc] using hre
    · simpa [before, Nat.add_assoc] using h3

/-- The quoted text leads to another quoted text of the same form. -/
theorem nest_out (fx : Bool) (depth : Nat) : ∀ n,
    parseBlocks fx depth (nest (after n)) ⟨false, false, false, false⟩ (some b!"\n") = .out := by
  induction depth with
  | zero => intro n; rfl
  | succ k ih =>
    intro n
    rw [parseBlocks]
    refine (?_ : Diverges _ _ _ _ _) _
    obtain ⟨e, r, he, hne⟩ := head_before n
    obtain ⟨e', r', he', hne'⟩ := head_after (n + 1)
    refine paragraph_ab (d := e) (rest := r ++ (b!"> a\n> b\n\n" ++ after (n + 1))) (re := 0)
      (by rw [nest_after, he]; simp) (tame_nest n) hne ⟨rfl, rfl, rfl, rfl, rfl, rfl⟩ fun s1 h1 => ?_
    refine skip_before n (pre := b!"a\n> b\n\n") (d := c!">")
      (rest := b!" a\n> b\n\n" ++ after (n + 1)) (by rw [nest_after]; simp) (tame_nest n) h1
      fun s2 re h0 hre h2 => ?_
    refine quote (d := e') (rest := r') (by rw [nest_after, he']; simp) hne' h2 h0 hre ?_
    rw [← he', ih (n + 1)]
    rfl

/-- The text. -/
def loop : Str := b!"\nx\r\n\r\n> a\n> b\n\nx\r\n\r\n> a\n> b\n\n"

/-- The parser does not end on this text, with any number of nested calls; the
added assignment (`fx`) does not help. -/
theorem loop_out (fx : Bool) (depth : Nat) (w : Want) : parseBlocks fx depth loop w none = .out := by
  cases depth with
  | zero => rfl
  | succ k =>
    rw [parseBlocks]
    refine (?_ : Diverges _ _ _ _ _) _
    refine Diverges.step (st' := { BSt.init none with current := 1, lineEndingFound := true }) rfl ?_
    refine skip_before 0 (pre := b!"\n") (d := c!">") (rest := b!" a\n> b\n\n" ++ after 0) (re := 0)
      (by decide) (by unfold Tame; decide) ⟨rfl, rfl, rfl, rfl, rfl, rfl⟩ fun s re h0 hre h => ?_
    obtain ⟨e', r', he', hne'⟩ := head_after 0
    refine quote (d := e') (rest := r') (by rw [← he']; decide) hne' h h0 hre ?_
    rw [← he', nest_out]
    rfl

/-- The same after a title, as it can stand in a file (where the content does not start with an empty line). -/
def loopFile : Str := b!"# y\n" ++ loop.tail

theorem loopFile_out (fx : Bool) (depth : Nat) (w : Want) : parseBlocks fx depth loopFile w none = .out := by
  cases depth with
  | zero => rfl
  | succ k =>
    rw [parseBlocks]
    refine (?_ : Diverges _ _ _ _ _) _
    refine Diverges.step (st' := _) rfl ?_
    refine Diverges.step (st' := _) rfl ?_
    refine Diverges.step (st' := _) rfl ?_
    refine Diverges.step (st' := _) rfl ?_
    refine skip_before 0 (pre := b!"# y\n") (d := c!">") (rest := b!" a\n> b\n\n" ++ after 0) (re := 0)
      (by decide) (by unfold Tame; decide) ⟨rfl, rfl, rfl, rfl, rfl, rfl⟩ fun s re h0 hre h => ?_
    obtain ⟨e', r', he', hne'⟩ := head_after 0
    refine quote (d := e') (rest := r') (by rw [← he']; decide) hne' h h0 hre ?_
    rw [← he', nest_out]
    rfl

end Blogc.C40
