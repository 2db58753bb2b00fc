import Verif.Lemmas.Content
import Verif.Lemmas.ListLines

/-!
# Block content: memory safety
-/

namespace Blogc

/-- The computation has no undefined behaviour; its value, if any, satisfies `P`. -/
def Run.Safe {α : Type u} (P : α → Prop) : Run α → Prop
  | .ok a => P a
  | .ub => False
  | .out => True

theorem Run.Safe.bind {α β : Type u} {P : α → Prop} {Q : β → Prop} {x : Run α}
    {f : α → Run β} (hx : Safe P x) (hf : ∀ a, P a → Safe Q (f a)) : Safe Q (x >>= f) := by
  cases x with
  | ok a => exact hf a hx
  | ub => exact hx
  | out => trivial

theorem Run.Safe.mono {α : Type u} {P Q : α → Prop} {x : Run α} (hx : Safe P x)
    (hP : ∀ a, P a → Q a) : Safe Q x := by
  cases x with
  | ok a => exact hP a hx
  | ub => exact hx
  | out => trivial

theorem Run.Safe.ne_ub {α : Type u} {P : α → Prop} {x : Run α} (hx : Safe P x) : x ≠ .ub := by
  intro h; rw [h] at hx; exact hx

def StepSafe {σ ρ : Type u} (I : σ → Prop) (P : ρ → Prop) : σ ⊕ ρ → Prop
  | .inl s' => I s'
  | .inr r => P r

theorem runL_safe {σ ρ : Type u} {step : σ → Run (σ ⊕ ρ)} {I : σ → Prop} {P : ρ → Prop}
    (hstep : ∀ s, I s → Run.Safe (StepSafe I P) (step s)) :
    ∀ (n : Nat) (s : σ), I s → Run.Safe P (runL step n s) := by
  intro n
  induction n with
  | zero => intro s _; trivial
  | succ n ih =>
    intro s hI
    have := hstep s hI
    rw [runL]
    cases hs : step s with
    | ub => rw [hs] at this; exact this
    | out => trivial
    | ok x =>
      rw [hs] at this
      cases x with
      | inl s' => exact ih s' this
      | inr r => exact this

namespace Content

/-- No line ends with a backslash. -/
def NB (s : Str) : Prop := ∀ a b, s = a ++ c!"\\" :: b → ∃ c b', b = c :: b' ∧ isNl c = false

theorem NB.drop {s : Str} (h : NB s) (k : Nat) : NB (s.drop k) := by
  intro a b e
  exact h (s.take k ++ a) b (by rw [List.append_assoc, ← e, List.take_append_drop])

theorem NB.append {s t : Str} (hs : NB s) (ht : NB t) : NB (s ++ t) := by
  intro a b e
  rcases List.append_eq_append_iff.1 e with ⟨a', h1, h2⟩ | ⟨b', h1, h2⟩
  · exact ht a' b h2
  · cases b' with
    | nil => exact ht [] b (by simpa using h2.symm)
    | cons d b' =>
      rw [List.cons_append] at h2
      injection h2 with h2 h3
      obtain ⟨c, r, hr, hc⟩ := hs a b' (by rw [h1, h2])
      exact ⟨c, r ++ t, by rw [h3, hr]; rfl, hc⟩

theorem NB.nl {s : Str} (h : ∀ c ∈ s, isNl c = true) : NB s := by
  intro a b e
  have := h c!"\\" (by rw [e]; simp)
  exact absurd this (by decide)

theorem NB.nil : NB [] := NB.nl (by simp)

/-- The start, the end or a newline. -/
def Bd (src : Str) (k : Nat) : Prop :=
  k = 0 ∨ src.length ≤ k ∨ ∃ c, src[k]? = some c ∧ isNl c = true

theorem NB.take {s : Str} (h : NB s) {k : Nat} (hk : Bd s k) : NB (s.take k) := by
  intro a b e
  have hs : s = a ++ c!"\\" :: (b ++ s.drop k) := by
    rw [← List.cons_append, ← List.append_assoc, ← e, List.take_append_drop]
  obtain ⟨c, r, hr, hc⟩ := h _ _ hs
  cases b with
  | cons d b => exact ⟨d, b, rfl, by injection hr with hr _; rw [hr]; exact hc⟩
  | nil =>
    exfalso
    rw [List.nil_append] at hr
    rcases hk with rfl | hk | ⟨c', hk, hn⟩
    · cases a <;> cases e
    · rw [List.drop_eq_nil_of_le hk] at hr; cases hr
    · have h0 : (s.drop k)[0]? = some c := by rw [hr]; rfl
      rw [List.getElem?_drop, Nat.add_zero, hk] at h0
      injection h0 with h0
      rw [h0, hc] at hn; cases hn

theorem NB.good {s : Str} (h : NB s) (hn : NulFree s) : Good s := by
  refine ⟨hn, .inl ?_⟩
  rw [dangling_iff]
  have : tail s = 0 := by
    unfold tail
    rcases hr : s.reverse with _ | ⟨c, r⟩
    · rfl
    · rw [List.takeWhile_cons_of_neg]
      · rfl
      · intro hc
        have hc : c = c!"\\" := by simpa using hc
        obtain ⟨_, _, h1, _⟩ := h r.reverse [] (by
          have := congrArg List.reverse hr
          rw [List.reverse_reverse, List.reverse_cons, hc] at this
          exact this)
        cases h1
  omega

/-- A text that is safe for the inline parser, made of characters of `src`. -/
def Ok (src t : Str) : Prop := NB t ∧ ∀ c ∈ t, c ∈ src

theorem dup_nb {src : Str} {a b : Nat} (hs : NB src) (ha : a ≤ src.length) (hb : Bd src b) :
    Run.Safe (Ok src) (dup src a b) := by
  unfold dup
  rw [if_neg (by omega)]
  split
  next hab =>
    refine ⟨?_, fun c hc => List.mem_of_mem_drop (List.mem_of_mem_take hc)⟩
    refine (hs.drop a).take ?_
    rcases hb with rfl | hb | ⟨c, hb, hn⟩
    · exact .inl (by omega)
    · exact .inr (.inl (by rw [List.length_drop]; omega))
    · refine .inr (.inr ⟨c, ?_, hn⟩)
      rw [List.getElem?_drop]
      have : a + (b - a) = b := by omega
      rw [this]; exact hb
  · exact ⟨hs.drop a, fun c hc => List.mem_of_mem_drop hc⟩

theorem inline_safe {src t : Str} (hn : NulFree src) (h : Ok src t) :
    Run.Safe (fun _ => True) (parseInline t) := by
  obtain ⟨a, e, _⟩ := (parseInline_fine t).ok fun h' => h' (h.1.good fun c hc => hn c (h.2 c hc))
  rw [e]; trivial

/-- A character at the start of a line after which a list or a rule may follow. -/
def isMarker (c : Byte) : Bool := c == c!"*" || c == c!"+" || c == c!"-" || isDig c

/-- A character that may be part of the prefix of a quotation. -/
def isQuote (c : Byte) : Bool := c == c!">" || isSp c

/-- No line starts, after `>` and blanks, with a list marker. The first argument says
whether the text starts at such a place. -/
def clean : Bool → Str → Bool
  | _, [] => true
  | true, c :: r => if isNl c || isQuote c then clean true r else !isMarker c && clean false r
  | false, c :: r => clean (isNl c) r

theorem clean_weaken : ∀ {s : Str}, clean true s = true → clean false s = true
  | [], _ => rfl
  | c :: r, h => by
    rw [clean] at h
    rw [clean.eq_3]
    split at h
    · cases isNl c
      · exact clean_weaken h
      · exact h
    next hc =>
      have : isNl c = false := by
        cases h' : isNl c
        · rfl
        · rw [h'] at hc; exact absurd rfl hc
      rw [this]
      exact (Bool.and_eq_true_iff.1 h).2

theorem clean_after_nl {c : Byte} {b : Bool} {r : Str} (hc : isNl c = true) (h : clean b (c :: r) = true) :
    clean true r = true := by
  cases b with
  | true => rw [clean, hc, Bool.true_or, if_pos rfl] at h; exact h
  | false => rw [clean, hc] at h; exact h

theorem clean_tail {c : Byte} {b : Bool} {r : Str} (h : clean b (c :: r) = true) :
    clean false r = true := by
  cases b with
  | false =>
    rw [clean] at h
    cases hc : isNl c <;> rw [hc] at h
    · exact h
    · exact clean_weaken h
  | true =>
    rw [clean] at h
    split at h
    · exact clean_weaken h
    · exact (Bool.and_eq_true_iff.1 h).2

theorem clean_line : ∀ {s : Str} {b : Bool} {k : Nat} {c : Byte}, clean b s = true →
    s[k]? = some c → isNl c = true → clean true (s.drop (k + 1)) = true
  | [], _, _, _, _, h, _ => by simp at h
  | d :: r, b, 0, c, h, hc, hn => by
    simp only [List.getElem?_cons_zero, Option.some.injEq] at hc
    exact clean_after_nl (by rw [hc]; exact hn) h
  | d :: r, b, k + 1, c, h, hc, hn => by
    rw [List.getElem?_cons_succ] at hc
    show clean true (r.drop (k + 1)) = true
    exact clean_line (clean_tail h) hc hn

theorem clean_take : ∀ {s : Str} {b : Bool} (k : Nat), clean b s = true → clean b (s.take k) = true
  | _, _, 0, _ => by rw [List.take_zero]; cases ‹Bool› <;> rfl
  | [], _, k + 1, h => h
  | c :: r, true, k + 1, h => by
    rw [List.take_succ_cons, clean]
    rw [clean] at h
    split at h
    next hc => rw [if_pos hc]; exact clean_take k h
    next hc =>
      rw [if_neg hc]
      have := Bool.and_eq_true_iff.1 h
      rw [this.1, clean_take k this.2]; rfl
  | c :: r, false, k + 1, h => by
    rw [List.take_succ_cons, clean]
    rw [clean] at h
    exact clean_take k h

theorem clean_prefix : ∀ {p t : Str}, (∀ c ∈ p, (isNl c || isQuote c) = true) →
    clean true (p ++ t) = true → clean true t = true
  | [], _, _, h => h
  | c :: p, t, hp, h => by
    rw [List.cons_append, clean, if_pos (hp c (by simp))] at h
    exact clean_prefix (fun c hc => hp c (by simp [hc])) h

theorem clean_nl : ∀ {e t : Str} {b : Bool}, e ≠ [] → (∀ c ∈ e, isNl c = true) →
    clean true t = true → clean b (e ++ t) = true
  | [c], t, b, _, he, h => by
    have hc := he c (by simp)
    cases b with
    | true => rw [List.cons_append, clean, hc]; exact h
    | false => rw [List.cons_append, clean, hc]; exact h
  | c :: d :: e, t, b, _, he, h => by
    have hc := he c (by simp)
    have ih := clean_nl (e := d :: e) (b := true) (by simp) (fun c hc => he c (by simp [hc])) h
    cases b with
    | true => rw [List.cons_append, clean, hc]; exact ih
    | false => rw [List.cons_append, clean, hc]; exact ih

theorem clean_append : ∀ {s e t : Str} {b : Bool}, e ≠ [] → (∀ c ∈ e, isNl c = true) →
    clean b s = true → clean true t = true → clean b (s ++ (e ++ t)) = true
  | [], e, t, b, he, hn, _, ht => by rw [List.nil_append]; exact clean_nl he hn ht
  | c :: r, e, t, true, he, hn, hs, ht => by
    rw [clean] at hs
    rw [List.cons_append, clean]
    split at hs
    next hc => rw [if_pos hc]; exact clean_append he hn hs ht
    next hc =>
      rw [if_neg hc]
      have := Bool.and_eq_true_iff.1 hs
      rw [this.1, clean_append he hn this.2 ht]; rfl
  | c :: r, e, t, false, he, hn, hs, ht => by
    rw [clean] at hs
    rw [List.cons_append, clean]
    exact clean_append he hn hs ht

open Blogc.Spec in
theorem clean_of_lines : ∀ (s : Str) (b : Bool),
    (b = true → listLine (splitLines s).1 = false) → (∀ l ∈ (splitLines s).2, listLine l = false) →
    clean b s = true
  | [], b, _, _ => by cases b <;> rfl
  | c :: r, b, h1, h2 => by
    have hn : isNl c = newline c := rfl
    rw [splitLines] at h1 h2
    cases hc : newline c with
    | true =>
      rw [hc] at h1 h2
      have ih := clean_of_lines r true (fun _ => h2 _ (by simp)) (fun l hl => h2 l (by simp [hl]))
      cases b
      · rw [clean, hn, hc]; exact ih
      · rw [clean, hn, hc]; exact ih
    | false =>
      rw [hc] at h1 h2
      have ihf := clean_of_lines r false (by simp) h2
      cases b
      · rw [clean, hn, hc]; exact ihf
      · have hq : isQuote c = quoteMark c := by simp [isQuote, quoteMark, isSp, Bool.or_assoc]
        have h1 := h1 rfl
        simp only [Bool.false_eq_true, if_false] at h1
        rw [clean, hn, hc, hq, Bool.false_or]
        split
        next hqc =>
          refine clean_of_lines r true (fun _ => ?_) h2
          rw [listLine, List.dropWhile_cons_of_pos hqc] at h1
          exact h1
        next hqc =>
          rw [listLine, List.dropWhile_cons_of_neg hqc] at h1
          have : isMarker c = false := h1
          rw [this, ihf]; rfl

/-- Lists are not broken off, and no line ending takes two characters. -/
structure Tidy (src : Str) : Prop where
  lists : Spec.unbroken (Spec.lines src) = true
  ending : ∀ k c c', src[k]? = some c → src[k + 1]? = some c' → isPair c c' = false

/-- What is assumed about the text. -/
structure Sound (fx : Bool) (src : Str) : Prop where
  nul : NulFree src
  nb : NB src
  cl : fx = true ∨ clean true src = true ∨ Tidy src

/-- Position `k` is at the start of a line, or after the prefix of a quotation. -/
def Line (fx : Bool) (src : Str) (k : Nat) : Prop :=
  fx = true ∨ clean true (src.drop k) = true ∨ Tidy src ∧ LS src k

/-- A line that may be part of a quotation starts at `a`, and has no list marker. -/
def QuoteLine (fx : Bool) (src : Str) (a k : Nat) : Prop :=
  fx = true ∨ clean true (src.drop a) = true ∨ Tidy src ∧ a < k ∧ ∀ j, k ≤ j → (∀ c ∈ slice src k j, isNl c = false) →
    src[a]? = some c!">" → clean true (slice src a j) = true

/-- The lines from `k` on, up to an empty one, are lines of a list. -/
def LI (src : Str) (item : Str → Bool) (k : Nat) : Prop :=
  ∀ m ∈ Spec.block (Spec.lines (src.drop k)), item m = true

def InLine (src : Str) (a b : Nat) : Prop := a < b ∧ ∀ c ∈ slice src a b, isNl c = false

def ulItem (p m : Str) : Bool := p.isPrefixOf m || Spec.indented p.length m

def olItem (n : Nat) (m : Str) : Bool := Spec.numbered n m || Spec.indented n m

def Bullet (src : Str) (st : BSt) : Prop :=
  st.start2 = st.start ∧ LS src st.start ∧ st.start < st.current ∧ src[st.start]? = some st.d ∧
    (st.d == c!"*" || st.d == c!"+" || st.d == c!"-") = true ∧ ∀ c ∈ slice src (st.start + 1) st.current, isSp c = true

def Digits (src : Str) (st : BSt) : Prop :=
  st.start2 = st.start ∧ LS src st.start ∧ st.start < st.current ∧ ∀ c ∈ slice src st.start st.current, isDig c = true

def Dotted (src : Str) (st : BSt) : Prop :=
  st.start2 = st.start ∧ LS src st.start ∧ ∃ ds ws, slice src st.start st.current = ds ++ c!"." :: ws ∧
    ds ≠ [] ∧ (∀ c ∈ ds, isDig c = true) ∧ ∀ c ∈ ws, isSp c = true

structure Core (src : Str) (current start start2 stop re : Nat) (le : Str) (l2 : Lines2) : Prop where
  cur : current ≤ src.length
  start : start ≤ src.length
  start2 : start2 ≤ src.length
  stop : Bd src stop
  re : Bd src re ∧ (Tidy src → re = 0)
  le : le ≠ [] ∧ ∀ c ∈ le, isNl c = true
  l2 : ∃ l, l2 = .live l ∧ ∀ t ∈ l, Ok src t

abbrev CoreS (src : Str) (st : BSt) : Prop :=
  Core src st.current st.start st.start2 st.stop st.realEnd st.lineEnding st.lines2

/-- Lines of a quotation. -/
def QL (fx : Bool) (src : Str) (ls : List Str) : Prop :=
  ∀ l ∈ ls, Ok src l ∧ (fx = true ∨ clean true l = true)

def Prefix (st : BSt) : Prop :=
  ∃ p, st.pre = some p ∧ p.head? = some c!">" ∧ ∀ c ∈ p, (isNl c || isQuote c) = true

def SSt (fx : Bool) (src : Str) (st : BSt) : Prop :=
  match st.state with
  | .startLine => st.lines = [] ∧ Line fx src st.current
  | .blockquote => st.lines = [] ∧ st.start = st.start2 ∧ st.start2 ≤ st.current ∧
      Line fx src st.start2 ∧ st.start2 < st.current ∧ src[st.start]? = some c!">" ∧
      (∀ c ∈ slice src st.start st.current, (isNl c || isQuote c) = true) ∧
      (Tidy src → ∀ c ∈ slice src st.start st.current, isQuote c = true)
  | .blockquoteStart => QL fx src st.lines ∧ QuoteLine fx src st.start2 st.current ∧ Prefix st
  | .blockquoteEnd => QL fx src st.lines ∧ Line fx src st.current ∧ Prefix st
  | .codeStart | .codeEnd => st.pre.isSome = true
  | .ulStart => ∃ p, st.pre = some p ∧
      (fx = true ∨ Tidy src ∧ LI src (ulItem p) st.start2 ∧ InLine src st.start2 st.current)
  | .ulEnd => ∃ p, st.pre = some p ∧ (fx = true ∨ Tidy src ∧ LI src (ulItem p) st.current)
  | .olStart => fx = true ∨ Tidy src ∧ LI src (olItem st.prefixLen) st.start2 ∧ InLine src st.start2 st.current
  | .olEnd => fx = true ∨ Tidy src ∧ LI src (olItem st.prefixLen) st.current
  | .ulOrHrOrEm => (fx = true ∨ Tidy src ∧ Bullet src st) ∧ st.lines = []
  | .ol => (fx = true ∨ Tidy src ∧ Digits src st) ∧ st.lines = []
  | .olSpace => (fx = true ∨ Tidy src ∧ Dotted src st) ∧ st.lines = []
  | _ => st.lines = []

def SPost (fx : Bool) (src : Str) : BSt ⊕ BSt → Prop := 
  StepSafe (fun st => CoreS src st ∧ SSt fx src st) (fun _ => True)

variable {src : Str} {w : Want} {st : BSt} {c : Byte} {isLast : Bool} {fx : Bool}
  {rec : Str → Str → Run Str}

theorem slice_succ {a : Nat} (ha : a ≤ st.current) (hc : src[st.current]? = some c) :
    slice src a (st.current + 1) = slice src a st.current ++ [c] := by
  unfold slice
  have : st.current + 1 - a = (st.current - a) + 1 := by omega
  rw [this, List.take_add_one, List.getElem?_drop]
  have : a + (st.current - a) = st.current := by omega
  rw [this, hc]; rfl

theorem next_line (hG : Sound fx src) (hc : src[st.current]? = some c)
    (hlast : isLast = true → st.current + 1 = src.length) (he : ends c isLast = true) :
    Line fx src (st.current + 1) := by
  rcases hG.cl with h | h | h
  · exact .inl h
  · refine .inr (.inl ?_)
    cases hn : isNl c with
    | true => exact clean_line h hc hn
    | false =>
      have : isLast = true := by simpa [ends, hn] using he
      rw [hlast this, List.drop_length]; rfl
  · refine .inr (.inr ⟨h, ?_⟩)
    cases hn : isNl c with
    | true => exact .inr (.inr ⟨_, c, rfl, hc, hn⟩)
    | false =>
      have : isLast = true := by simpa [ends, hn] using he
      exact .inr (.inl (by rw [hlast this]; exact Nat.le_refl _))

theorem stop_bd (hC : CoreS src st) (hc : src[st.current]? = some c)
    (he : ends c isLast = true) : Bd src (lineStop src st c isLast) := by
  unfold lineStop
  split
  · exact .inr (.inl (Nat.le_refl _))
  next h =>
    split
    · exact hC.re.1
    · refine .inr (.inr ⟨c, hc, ?_⟩)
      cases hn : isNl c
      · exact absurd ⟨by simpa [ends, hn] using he, hn⟩ h
      · rfl

/-- A new state after a character: the position moves on, `start`, `start2` and `stop`
may change. -/
theorem Core.next {cur start start2 stop re : Nat} {le : Str} {l l2 : Lines2}
    (hC : Core src cur start start2 stop re le l) (hlt : cur < src.length) {a b k : Nat}
    (ha : a = start ∨ a = cur) (hb : b = start2 ∨ b = cur) (hk : k = stop ∨ Bd src k)
    (hl : l2 = l ∨ ∃ l, l2 = .live l ∧ ∀ t ∈ l, Ok src t) :
    Core src (cur + 1) a b k re le l2 := by
  refine ⟨by omega, ?_, ?_, ?_, hC.re, hC.le, ?_⟩
  · rcases ha with rfl | rfl
    · exact hC.start
    · omega
  · rcases hb with rfl | rfl
    · exact hC.start2
    · omega
  · rcases hk with rfl | h
    · exact hC.stop
    · exact h
  · rcases hl with rfl | h
    · exact hC.l2
    · exact h

theorem Core.same {cur start start2 stop re : Nat} {le : Str} {l l2 : Lines2}
    (hC : Core src cur start start2 stop re le l) {k : Nat} (hk : k = stop ∨ Bd src k)
    (hl : l2 = l ∨ ∃ l, l2 = .live l ∧ ∀ t ∈ l, Ok src t) :
    Core src cur start start2 k re le l2 := by
  refine ⟨hC.cur, hC.start, hC.start2, ?_, hC.re, hC.le, ?_⟩
  · rcases hk with rfl | h
    · exact hC.stop
    · exact h
  · rcases hl with rfl | h
    · exact hC.l2
    · exact h

theorem headerTitle_safe (hG : Sound fx src) (hC : CoreS src st) (hc : src[st.current]? = some c)
    (hlast : isLast = true → st.current + 1 = src.length)
    (hs : st.state = .headerTitle ∨ st.state = .headerTitleStart ∧ isNl c = true) (hl : st.lines = []) :
    Run.Safe (SPost fx src) (headerTitle src w st c isLast) := by
  have hlt := (List.getElem?_eq_some_iff.1 hc).1
  unfold headerTitle
  split
  next he =>
    refine (dup_nb hG.nb hC.start (stop_bd hC hc he)).bind fun t ht =>
      (inline_safe hG.nul ht).bind fun _ _ => ?_
    exact ⟨hC.next hlt (.inr rfl) (.inl rfl) (.inr (stop_bd hC hc he)) (.inl rfl), hl,
      next_line hG hc hlast he⟩
  next he =>
    rcases hs with hs | ⟨_, hn⟩
    · refine ⟨hC.next hlt (.inl rfl) (.inl rfl) (.inl rfl) (.inl rfl), ?_⟩
      simp only [SSt, hs]; exact hl
    · rw [ends, hn] at he; exact absurd rfl he

theorem htmlEnd_safe (hG : Sound fx src) (hC : CoreS src st) (hc : src[st.current]? = some c)
    (hlast : isLast = true → st.current + 1 = src.length) (hl : st.lines = []) :
    Run.Safe (SPost fx src) (htmlEnd src st c isLast) := by
  have hlt := (List.getElem?_eq_some_iff.1 hc).1
  unfold htmlEnd
  split
  next he =>
    refine (dup_nb hG.nb hC.start hC.stop).bind fun t _ => ?_
    exact ⟨hC.next hlt (.inr rfl) (.inl rfl) (.inl rfl) (.inl rfl), hl, next_line hG hc hlast he⟩
  · exact ⟨hC.next hlt (.inl rfl) (.inl rfl) (.inl rfl) (.inl rfl), hl⟩

theorem paragraphEnd_safe (hG : Sound fx src) (hC : CoreS src st) (hc : src[st.current]? = some c)
    (hlast : isLast = true → st.current + 1 = src.length) (hl : st.lines = []) :
    Run.Safe (SPost fx src) (paragraphEnd src w st c isLast) := by
  have hlt := (List.getElem?_eq_some_iff.1 hc).1
  unfold paragraphEnd
  split
  next he =>
    refine (dup_nb hG.nb hC.start hC.stop).bind fun t ht =>
      (inline_safe hG.nul ht).bind fun _ _ => ?_
    exact ⟨hC.next hlt (.inr rfl) (.inl rfl) (.inl rfl) (.inl rfl), hl, next_line hG hc hlast he⟩
  · exact ⟨hC.next hlt (.inl rfl) (.inl rfl) (.inl rfl) (.inl rfl), hl⟩

theorem codeEnd_safe (hG : Sound fx src) (hC : CoreS src st) (hc : src[st.current]? = some c)
    (hlast : isLast = true → st.current + 1 = src.length) (hp : st.pre.isSome = true) :
    Run.Safe (SPost fx src) (codeEnd st c isLast) := by
  have hlt := (List.getElem?_eq_some_iff.1 hc).1
  unfold codeEnd
  split
  next he =>
    exact ⟨hC.next hlt (.inl rfl) (.inr rfl) (.inl rfl) (.inl rfl), rfl, next_line hG hc hlast he⟩
  · exact ⟨hC.next hlt (.inl rfl) (.inr rfl) (.inl rfl) (.inl rfl), hp⟩

theorem join_ok {e : Str} (he : ∀ c ∈ e, isNl c = true) (hn : NulFree src) :
    ∀ {l : List Str}, (∀ t ∈ l, Ok src t) → Good (join e l) := by
  intro l hl
  have key : NB (join e l) ∧ NulFree (join e l) := by
    have hen : NulFree e := by
      intro c hc h
      have := he c hc
      rw [h] at this
      exact absurd this (by decide)
    have nul : ∀ t, Ok src t → NulFree t := fun t h c hc => hn c (h.2 c hc)
    have app : ∀ a b : Str, NulFree a → NulFree b → NulFree (a ++ b) := by
      intro a b ha hb c hc
      rcases List.mem_append.1 hc with h | h
      · exact ha c h
      · exact hb c h
    match l, hl with
    | [], _ => exact ⟨NB.nil, fun c hc => by cases hc⟩
    | p :: ps, hl =>
      induction ps generalizing p with
      | nil =>
        have h := hl p (by simp)
        exact ⟨h.1, nul p h⟩
      | cons q ps ih =>
        have h := hl p (by simp)
        have ih := ih q fun t ht => hl t (List.mem_cons_of_mem _ ht)
        rw [join]
        exact ⟨(h.1.append (NB.nl he)).append ih.1, app _ _ (app _ _ (nul p h) hen) ih.2⟩
  exact key.1.good key.2

theorem flushItem_safe (hG : Sound fx src) (hC : CoreS src st) :
    Run.Safe (fun st' => ∃ a b, st' = { st with lines := a, lines2 := .live b } ∧
      ∀ t ∈ b, Ok src t) (flushItem st) := by
  obtain ⟨l, hl, hok⟩ := hC.l2
  unfold flushItem
  rw [hl]
  show Run.Safe _ (if _ then _ else _)
  split
  · exact ⟨st.lines, l, by rw [← hl], hok⟩
  · have := join_ok (src := src) hC.le.2 hG.nul hok
    obtain ⟨a, e, _⟩ := (parseInline_fine _).ok fun h => h this
    rw [e]
    exact ⟨_, [], rfl, by simp⟩

theorem addLine_safe (hC : CoreS src st) {t : Str} (ht : Ok src t) :
    Run.Safe (fun st' => ∃ b, st' = { st with lines2 := .live b } ∧ ∀ t ∈ b, Ok src t)
      (addLine st t) := by
  obtain ⟨l, hl, hok⟩ := hC.l2
  unfold addLine
  rw [hl]
  refine ⟨_, rfl, ?_⟩
  intro t' h
  rcases List.mem_append.1 h with h | h
  · exact hok t' h
  · rw [List.mem_singleton.1 h]; exact ht

theorem listEnd_safe (hG : Sound fx src) (hC : CoreS src st) (hc : src[st.current]? = some c)
    (hlast : isLast = true → st.current + 1 = src.length) (tag : Str) (again : BState)
    (h : ends c isLast = false →
      SSt fx src { st with start2 := st.current, state := again, current := st.current + 1 }) :
    Run.Safe (SPost fx src) (listEnd tag again st c isLast) := by
  have hlt := (List.getElem?_eq_some_iff.1 hc).1
  unfold listEnd
  split
  next he =>
    refine (flushItem_safe hG hC).bind fun st' h => ?_
    obtain ⟨a, b, rfl, hb⟩ := h
    exact ⟨hC.next hlt (.inl rfl) (.inr rfl) (.inl rfl) (.inr ⟨b, rfl, hb⟩), rfl, next_line hG hc hlast he⟩
  next he => exact ⟨hC.next hlt (.inl rfl) (.inr rfl) (.inl rfl) (.inl rfl), h (by simpa using he)⟩

theorem listAbort_safe (hC : CoreS src st) (hlt : st.current < src.length)
    (keep : Bool) (hfx : fx = true) :
    Run.Safe (SPost fx src) (listAbort fx st keep isLast) := by
  obtain ⟨l, hl, hok⟩ := hC.l2
  unfold listAbort Lines2.giveUp
  rw [hfx, hl]
  show Run.Safe _ (if _ then _ else _)
  split
  · exact ⟨hC.same (.inl rfl) (.inr ⟨[], rfl, by simp⟩), rfl⟩
  · exact ⟨hC.next hlt (.inl rfl) (.inl rfl) (.inl rfl) (.inr ⟨[], rfl, by simp⟩), rfl⟩

theorem Ok.drop {t : Str} (h : Ok src t) (k : Nat) : Ok src (t.drop k) :=
  ⟨h.1.drop k, fun c hc => h.2 c (List.mem_of_mem_drop hc)⟩

/-- The line that ends here, as `dup` copies it. -/
theorem line_end (hT : Tidy src) (hC : CoreS src st) (hc : src[st.current]? = some c)
    (hlast : isLast = true → st.current + 1 = src.length) (he : ends c isLast = true)
    (hin : InLine src st.start2 st.current) :
    ∃ l, dup src st.start2 (lineStop src st c isLast) = .ok l ∧ (∀ d ∈ l, d ∈ src) ∧
      ∀ item, LI src item st.start2 → item l = true ∧ LI src item (st.current + 1) := by
  have hlt := (List.getElem?_eq_some_iff.1 hc).1
  have h0 := hC.re.2 hT
  have hd : dup src st.start2 (lineStop src st c isLast) =
      .ok (slice src st.start2 (lineStop src st c isLast)) := by
    unfold dup
    have : st.start2 ≤ lineStop src st c isLast := by
      unfold lineStop
      have := hin.1
      rw [h0]
      split
      · omega
      · simp; omega
    rw [if_neg (by have := hC.start2; omega), if_pos this]
  refine ⟨_, hd, fun d h => List.mem_of_mem_drop (List.mem_of_mem_take h), fun item hI => ?_⟩
  have hab := hin.1
  cases hn : isNl c with
  | true =>
    have hs : lineStop src st c isLast = st.current := by simp [lineStop, hn, h0]
    rw [hs]
    have hl := line_slice (Nat.le_of_lt hab) hin.2
    rw [drop_cons hc, splitLines_nl hn, List.append_nil] at hl
    unfold LI Spec.lines at hI
    rw [hl] at hI
    have hne : slice src st.start2 st.current ≠ [] := by
      intro h
      have := congrArg List.length h
      simp only [slice, List.length_take, List.length_drop, List.length_nil] at this
      omega
    exact ⟨hI _ (mem_block hne), fun m hm => hI m (block_tail hne hm)⟩
  | false =>
    have hl' : isLast = true := by simpa [ends, hn] using he
    have hs : lineStop src st c isLast = st.current + 1 := by simp [lineStop, hn, hl', hlast hl']
    rw [hs]
    have hno : ∀ d ∈ slice src st.start2 (st.current + 1), isNl d = false := by
      intro d hd
      rw [slice_succ (Nat.le_of_lt hab) hc] at hd
      rcases List.mem_append.1 hd with hd | hd
      · exact hin.2 d hd
      · rw [List.mem_singleton.1 hd]; exact hn
    have hl := line_slice (b := st.current + 1) (by omega) hno
    have hnil : src.drop (st.current + 1) = [] := List.drop_eq_nil_of_le (by rw [hlast hl']; exact Nat.le_refl _)
    rw [hnil] at hl
    unfold LI Spec.lines at hI
    rw [hl] at hI
    have hne : slice src st.start2 (st.current + 1) ≠ [] := by
      intro h
      have := congrArg List.length h
      simp only [slice, List.length_take, List.length_drop, List.length_nil] at this
      omega
    refine ⟨?_, ?_⟩
    · have := hI _ (mem_block (by simpa [Spec.splitLines] using hne))
      simpa [Spec.splitLines] using this
    · intro m hm
      rw [hnil] at hm
      cases hm

theorem InLine.one (hc : src[st.current]? = some c) (he : ends c isLast = false) :
    InLine src st.current (st.current + 1) := by
  refine ⟨Nat.lt_succ_self _, fun d hd => ?_⟩
  rw [slice_succ (Nat.le_refl _) hc] at hd
  have hn : isNl c = false := by
    cases h : isNl c
    · rfl
    · rw [ends, h] at he; cases he
  rcases List.mem_append.1 hd with hd | hd
  · simp [slice] at hd
  · rw [List.mem_singleton.1 hd]; exact hn

theorem InLine.next {a : Nat} (h : InLine src a st.current) (hc : src[st.current]? = some c) (hn : isNl c = false) :
    InLine src a (st.current + 1) := by
  refine ⟨Nat.lt_succ_of_lt h.1, fun d hd => ?_⟩
  rw [slice_succ (Nat.le_of_lt h.1) hc] at hd
  rcases List.mem_append.1 hd with hd | hd
  · exact h.2 d hd
  · rw [List.mem_singleton.1 hd]; exact hn

theorem ends_false (he : ¬ ends c isLast = true) : isNl c = false := by
  cases h : isNl c
  · rfl
  · rw [ends, h] at he; exact absurd rfl he

theorem ulStart_safe (hG : Sound fx src) (hC : CoreS src st) (hc : src[st.current]? = some c)
    (hlast : isLast = true → st.current + 1 = src.length) (hs : st.state = .ulStart)
    {p : Str} (hp : st.pre = some p)
    (hI : fx = true ∨ Tidy src ∧ LI src (ulItem p) st.start2 ∧ InLine src st.start2 st.current) :
    Run.Safe (SPost fx src) (ulStart fx src st c isLast) := by
  have hlt := (List.getElem?_eq_some_iff.1 hc).1
  unfold ulStart
  split
  next he =>
    rw [hp]
    have hstop := stop_bd hC hc he
    have hdup : Run.Safe (fun t => Ok src t ∧ (fx = true ∨ Tidy src ∧ ulItem p t = true ∧ LI src (ulItem p) (st.current + 1)))
        (dup src st.start2 (lineStop src st c isLast)) := by
      have h := dup_nb hG.nb hC.start2 hstop
      rcases hI with hfx | ⟨hT, h1, h2⟩
      · exact h.mono fun t ht => ⟨ht, .inl hfx⟩
      · obtain ⟨l, hl, _, h3⟩ := line_end hT hC hc hlast he h2
        rw [hl] at h ⊢
        exact ⟨h, .inr ⟨hT, h3 _ h1⟩⟩
    refine hdup.bind fun t ht => ?_
    obtain ⟨ht, hR⟩ := ht
    have hR' : fx = true ∨ Tidy src ∧ LI src (ulItem p) (st.current + 1) := hR.imp id fun h => ⟨h.1, h.2.2⟩
    have hC1 := hC.same (.inr hstop) (.inl rfl)
    show Run.Safe _ (if _ then _ else _)
    split
    · refine Run.Safe.bind (flushItem_safe hG ?_) fun s1 h1 => ?_
      · exact hC1
      obtain ⟨a, b, rfl, hb⟩ := h1
      have hC2 := hC1.same (.inl rfl) (.inr ⟨b, rfl, hb⟩)
      refine Run.Safe.bind (addLine_safe ?_ (ht.drop p.length)) fun s2 h2 => ?_
      · exact hC2
      obtain ⟨b', rfl, hb'⟩ := h2
      have hC3 := hC2.same (.inl rfl) (.inr ⟨b', rfl, hb'⟩)
      show Run.Safe _ (if _ then _ else _)
      split
      next hl =>
        refine listEnd_safe hG ?_ ?_ ?_ _ _ (fun h => ?_) <;> first | exact hC3 | exact hc | exact hlast | skip
        simp [ends, hl] at h
      · exact ⟨hC3.next hlt (.inl rfl) (.inl rfl) (.inl rfl) (.inl rfl), p, rfl, hR'⟩
    · split
      · refine Run.Safe.bind (addLine_safe ?_ (ht.drop p.length)) fun s2 h2 => ?_
        · exact hC1
        obtain ⟨b', rfl, hb'⟩ := h2
        have hC3 := hC1.same (.inl rfl) (.inr ⟨b', rfl, hb'⟩)
        show Run.Safe _ (if _ then _ else _)
        split
        next hl =>
          refine listEnd_safe hG ?_ ?_ ?_ _ _ (fun h => ?_) <;> first | exact hC3 | exact hc | exact hlast | skip
          simp [ends, hl] at h
        · exact ⟨hC3.next hlt (.inl rfl) (.inl rfl) (.inl rfl) (.inl rfl), p, rfl, hR'⟩
      next hns1 hns2 =>
        rcases hR with hfx | ⟨_, h, _⟩
        · refine listAbort_safe ?_ ?_ _ hfx <;> first | exact hC1 | exact hlt
        · exfalso
          rcases Bool.or_eq_true_iff.1 h with h | h
          · exact hns1 (prefix_startsWith h)
          · exact hns2 (prefix_startsWith h)
  next he =>
    refine ⟨hC.next hlt (.inl rfl) (.inl rfl) (.inl rfl) (.inl rfl), ?_⟩
    simp only [SSt, hs]
    exact ⟨p, hp, hI.imp id fun h => ⟨h.1, h.2.1, h.2.2.next hc (ends_false he)⟩⟩

theorem olStart_safe (hG : Sound fx src) (hC : CoreS src st) (hc : src[st.current]? = some c)
    (hlast : isLast = true → st.current + 1 = src.length) (hs : st.state = .olStart)
    (hI : fx = true ∨ Tidy src ∧ LI src (olItem st.prefixLen) st.start2 ∧ InLine src st.start2 st.current) :
    Run.Safe (SPost fx src) (olStart fx src st c isLast) := by
  have hlt := (List.getElem?_eq_some_iff.1 hc).1
  unfold olStart
  split
  next he =>
    have hstop := stop_bd hC hc he
    have hdup : Run.Safe (fun t => Ok src t ∧ (fx = true ∨ Tidy src ∧ olItem st.prefixLen t = true ∧
          LI src (olItem st.prefixLen) (st.current + 1)))
        (dup src st.start2 (lineStop src st c isLast)) := by
      have h := dup_nb hG.nb hC.start2 hstop
      rcases hI with hfx | ⟨hT, h1, h2⟩
      · exact h.mono fun t ht => ⟨ht, .inl hfx⟩
      · obtain ⟨l, hl, _, h3⟩ := line_end hT hC hc hlast he h2
        rw [hl] at h ⊢
        exact ⟨h, .inr ⟨hT, h3 _ h1⟩⟩
    refine hdup.bind fun t ht => ?_
    obtain ⟨ht, hR⟩ := ht
    have hR' : fx = true ∨ Tidy src ∧ LI src (olItem st.prefixLen) (st.current + 1) := hR.imp id fun h => ⟨h.1, h.2.2⟩
    have hC1 := hC.same (.inr hstop) (.inl rfl)
    show Run.Safe _ (if _ then _ else _)
    split
    · refine Run.Safe.bind (flushItem_safe hG ?_) fun s1 h1 => ?_
      · exact hC1
      obtain ⟨a, b, rfl, hb⟩ := h1
      have hC2 := hC1.same (.inl rfl) (.inr ⟨b, rfl, hb⟩)
      refine Run.Safe.bind (addLine_safe ?_ (ht.drop st.prefixLen)) fun s2 h2 => ?_
      · exact hC2
      obtain ⟨b', rfl, hb'⟩ := h2
      have hC3 := hC2.same (.inl rfl) (.inr ⟨b', rfl, hb'⟩)
      show Run.Safe _ (if _ then _ else _)
      split
      next hl =>
        refine listEnd_safe hG ?_ ?_ ?_ _ _ (fun h => ?_) <;> first | exact hC3 | exact hc | exact hlast | skip
        simp [ends, hl] at h
      · exact ⟨hC3.next hlt (.inl rfl) (.inl rfl) (.inl rfl) (.inl rfl), hR'⟩
    · split
      · refine Run.Safe.bind (addLine_safe ?_ (ht.drop st.prefixLen)) fun s2 h2 => ?_
        · exact hC1
        obtain ⟨b', rfl, hb'⟩ := h2
        have hC3 := hC1.same (.inl rfl) (.inr ⟨b', rfl, hb'⟩)
        show Run.Safe _ (if _ then _ else _)
        split
        next hl =>
          refine listEnd_safe hG ?_ ?_ ?_ _ _ (fun h => ?_) <;> first | exact hC3 | exact hc | exact hlast | skip
          simp [ends, hl] at h
        · exact ⟨hC3.next hlt (.inl rfl) (.inl rfl) (.inl rfl) (.inl rfl), hR'⟩
      next hns1 hns2 =>
        rcases hR with hfx | ⟨_, h, _⟩
        · refine listAbort_safe ?_ ?_ _ hfx <;> first | exact hC1 | exact hlt
        · exfalso
          rcases Bool.or_eq_true_iff.1 h with h | h
          · exact hns1 (numbered_item (fun d hd => hG.nul d (ht.2 d hd)) h)
          · exact hns2 (prefix_startsWith h)
  next he =>
    refine ⟨hC.next hlt (.inl rfl) (.inl rfl) (.inl rfl) (.inl rfl), ?_⟩
    simp only [SSt, hs]
    exact hI.imp id fun h => ⟨h.1, h.2.1, h.2.2.next hc (ends_false he)⟩

theorem codeStart_safe (hG : Sound fx src) (hC : CoreS src st) (hc : src[st.current]? = some c)
    (hlast : isLast = true → st.current + 1 = src.length) (hs : st.state = .codeStart)
    (hp : st.pre.isSome = true) :
    Run.Safe (SPost fx src) (codeStart src st c isLast) := by
  have hlt := (List.getElem?_eq_some_iff.1 hc).1
  obtain ⟨p, hp'⟩ := Option.isSome_iff_exists.1 hp
  unfold codeStart
  split
  next he =>
    rw [hp']
    have hstop := stop_bd hC hc he
    refine (dup_nb hG.nb hC.start2 hstop).bind fun t ht => ?_
    have hC1 := hC.same (.inr hstop) (.inl rfl)
    show Run.Safe _ (if _ then _ else _)
    split
    · show Run.Safe _ (if _ then _ else _)
      split
      · refine codeEnd_safe hG ?_ ?_ ?_ ?_ <;> first | exact hC1 | exact hc | exact hlast | rfl
      · exact ⟨hC1.next hlt (.inl rfl) (.inl rfl) (.inl rfl) (.inl rfl), rfl⟩
    · show Run.Safe _ (if _ then _ else _)
      split
      · exact ⟨hC1, rfl⟩
      · exact ⟨hC1.next hlt (.inl rfl) (.inl rfl) (.inl rfl) (.inl rfl), rfl⟩
  · refine ⟨hC.next hlt (.inl rfl) (.inl rfl) (.inl rfl) (.inl rfl), ?_⟩
    simp only [SSt, hs]; exact hp

/-- What is needed of nested calls. -/
def RecSafe (fx : Bool) (rec : Str → Str → Run Str) : Prop :=
  ∀ s e, Sound fx s → e ≠ [] → (∀ c ∈ e, isNl c = true) → Run.Safe (fun _ => True) (rec s e)

theorem lines_clean {e : Str} (he : e ≠ []) (hn : ∀ c ∈ e, isNl c = true) :
    ∀ {ls : List Str}, QL fx src ls → fx = true ∨ clean true (ls.flatMap (· ++ e)) = true
  | [], _ => .inr rfl
  | l :: ls, h => by
    rw [List.flatMap_cons, List.append_assoc]
    rcases (h l (by simp)).2 with h1 | h1
    · exact .inl h1
    · rcases lines_clean he hn (ls := ls) fun t ht => h t (List.mem_cons_of_mem _ ht) with h2 | h2
      · exact .inl h2
      · exact .inr (clean_append he hn h1 h2)

theorem lines_sound (hG : Sound fx src) {e : Str} (he : e ≠ []) (hn : ∀ c ∈ e, isNl c = true) :
    ∀ {ls : List Str}, QL fx src ls → Sound fx (ls.flatMap (· ++ e))
  | [], _ => ⟨by simp [NulFree], NB.nil, .inr (.inl rfl)⟩
  | l :: ls, h => by
    have ih := lines_sound hG he hn (ls := ls) fun t ht => h t (List.mem_cons_of_mem _ ht)
    obtain ⟨⟨h1, h2⟩, h3⟩ := h l (by simp)
    have hcl := lines_clean he hn h
    rw [List.flatMap_cons, List.append_assoc] at *
    refine ⟨?_, h1.append ((NB.nl hn).append ih.nb), hcl.imp id .inl⟩
    intro c hc h0
    rcases List.mem_append.1 hc with hc | hc
    · exact hG.nul c (h2 c hc) h0
    · rcases List.mem_append.1 hc with hc | hc
      · have := hn c hc
        rw [h0] at this
        exact absurd this (by decide)
      · exact ih.nul c hc h0

open Blogc.Spec in
theorem line_clean {l : Str} (hn : ∀ c ∈ l, isNl c = false) (h : listLine l = false) : clean true l = true := by
  have hs : splitLines l = (l, []) := by
    have := splitLines_append (t := []) hn
    simpa [splitLines] using this
  refine clean_of_lines l true (fun _ => ?_) ?_
  · rw [hs]; exact h
  · rw [hs]; simp

open Blogc.Spec in
theorem splitLines_plain : ∀ {s : Str}, ∀ c ∈ (splitLines s).1, isNl c = false
  | [] => by simp [splitLines]
  | c :: r => by
    intro d hd
    rw [splitLines] at hd
    split at hd
    · cases hd
    next hc =>
      rcases List.mem_cons.1 hd with rfl | hd
      · exact Bool.eq_false_iff.2 hc
      · exact splitLines_plain d hd

open Blogc.Spec in
/-- A quoted line without list marker. -/
theorem quoted_clean (hT : Tidy src) {a : Nat} (ha : LS src a) (hq : src[a]? = some c!">") :
    clean true (splitLines (src.drop a)).1 = true ∧
      ((∀ c ∈ (splitLines (src.drop a)).1, isQuote c = true) →
        ∀ l ls, (splitLines (src.drop a)).2 = l :: ls → listLine l = false) := by
  have h := (Bool.and_eq_true_iff.1 (unbroken_at hT.lists ha)).2
  have hd : (splitLines (src.drop a)).1.head? = some c!">" := by
    rw [drop_cons hq, splitLines]; rfl
  rw [hd] at h
  have h : (!listLine (splitLines (src.drop a)).1) = true ∧
    ((splitLines (src.drop a)).1.any (!quoteMark ·) || (splitLines (src.drop a)).2.head?.all (!listLine ·)) = true := by
    simpa using h
  refine ⟨line_clean splitLines_plain (by simpa using h.1), fun hq l ls hls => ?_⟩
  rcases Bool.or_eq_true_iff.1 h.2 with h | h
  · obtain ⟨c, hc, hc'⟩ := List.any_eq_true.1 h
    have h1 := hq c hc
    have : isQuote c = quoteMark c := by simp [isQuote, quoteMark, isSp, Bool.or_assoc]
    rw [← this, h1] at hc'; cases hc'
  · rw [hls] at h
    simpa using h

theorem slice_append {a b j : Nat} (h1 : a ≤ b) (h2 : b ≤ j) : slice src a j = slice src a b ++ slice src b j := by
  unfold slice
  have e1 : j - a = (b - a) + (j - b) := by omega
  have e2 : src.drop b = (src.drop a).drop (b - a) := by rw [List.drop_drop]; congr 1; omega
  rw [e1, List.take_add, e2]

/-- A line of a quotation, after its first character. -/
theorem QuoteLine.start (hl : Line fx src st.current) (hc : src[st.current]? = some c) (hn : isNl c = false) :
    QuoteLine fx src st.current (st.current + 1) := by
  rcases hl with h | h | ⟨hT, hL⟩
  · exact .inl h
  · exact .inr (.inl h)
  · refine .inr (.inr ⟨hT, Nat.lt_succ_self _, fun j hj hno hq => ?_⟩)
    have h1 : ∀ d ∈ slice src st.current j, isNl d = false := by
      intro d hd
      rw [slice_append (Nat.le_succ _) hj, slice_succ (Nat.le_refl _) hc] at hd
      rcases List.mem_append.1 hd with hd | hd
      · rcases List.mem_append.1 hd with hd | hd
        · simp [slice] at hd
        · rw [List.mem_singleton.1 hd]; exact hn
      · exact hno d hd
    have h2 := (quoted_clean hT hL hq).1
    rw [line_slice (by omega) h1] at h2
    have := clean_take (slice src st.current j).length h2
    rwa [List.take_left] at this

theorem QuoteLine.next {a : Nat} (h : QuoteLine fx src a st.current) (hc : src[st.current]? = some c) (hn : isNl c = false) :
    QuoteLine fx src a (st.current + 1) := by
  rcases h with h | h | ⟨hT, h1, h⟩
  · exact .inl h
  · exact .inr (.inl h)
  · refine .inr (.inr ⟨hT, by omega, fun j hj hno hq => h j (by omega) ?_ hq⟩)
    intro d hd
    rw [slice_append (Nat.le_succ _) hj, slice_succ (Nat.le_refl _) hc] at hd
    rcases List.mem_append.1 hd with hd | hd
    · rcases List.mem_append.1 hd with hd | hd
      · simp [slice] at hd
      · rw [List.mem_singleton.1 hd]; exact hn
    · exact hno d hd

theorem blockquoteEnd_safe (hrec : RecSafe fx rec) (hG : Sound fx src) (hC : CoreS src st)
    (hc : src[st.current]? = some c)
    (hlast : isLast = true → st.current + 1 = src.length) (hql : QL fx src st.lines)
    (hline : ends c isLast = false → Line fx src st.current) (hp : Prefix st) :
    Run.Safe (SPost fx src) (blockquoteEnd rec st c isLast) := by
  have hlt := (List.getElem?_eq_some_iff.1 hc).1
  unfold blockquoteEnd
  split
  next he =>
    refine (hrec _ _ (lines_sound hG hC.le.1 hC.le.2 hql) hC.le.1 hC.le.2).bind fun _ _ => ?_
    exact ⟨hC.next hlt (.inl rfl) (.inr rfl) (.inl rfl) (.inl rfl), rfl, next_line hG hc hlast he⟩
  next he =>
    exact ⟨hC.next hlt (.inl rfl) (.inr rfl) (.inl rfl) (.inl rfl), hql,
      .start (hline (by simpa using he)) hc (ends_false he), hp⟩

theorem dup_clean {t p : Str} (hC : CoreS src st) (hc : src[st.current]? = some c)
    (hlast : isLast = true → st.current + 1 = src.length) (he : ends c isLast = true)
    (hl : QuoteLine fx src st.start2 st.current)
    (h : dup src st.start2 (lineStop src st c isLast) = .ok t) (hp : p.head? = some c!">") (hs : startsWith t p = true) :
    fx = true ∨ clean true t = true := by
  rcases hl with hl | hl | ⟨hT, hlt, hl⟩
  · exact .inl hl
  · right
    unfold dup at h
    split at h
    · cases h
    · split at h <;> cases h
      · exact clean_take _ hl
      · exact hl
  · right
    have h0 := hC.re.2 hT
    have hb : ∃ j, lineStop src st c isLast = j ∧ st.current ≤ j ∧ ∀ d ∈ slice src st.current j, isNl d = false := by
      cases hn : isNl c with
      | true => exact ⟨st.current, by simp [lineStop, hn, h0], Nat.le_refl _, by simp [slice]⟩
      | false =>
        have hl' : isLast = true := by simpa [ends, hn] using he
        refine ⟨st.current + 1, by simp [lineStop, hn, hl', hlast hl'], Nat.le_succ _, ?_⟩
        intro d hd
        rw [slice_succ (Nat.le_refl _) hc] at hd
        rcases List.mem_append.1 hd with hd | hd
        · simp [slice] at hd
        · rw [List.mem_singleton.1 hd]; exact hn
    obtain ⟨j, hj, hle, hno⟩ := hb
    rw [hj] at h
    unfold dup at h
    rw [if_neg (by have := hC.start2; omega), if_pos (by omega)] at h
    injection h with h
    subst h
    refine hl j hle hno ?_
    -- the copy starts with `>`
    unfold startsWith at hs
    split at hs
    · cases hs
    · have h2 := beq_iff_eq.1 hs
      cases p with
      | nil => cases hp
      | cons d p =>
        injection hp with hp
        subst hp
        have h3 := congrArg List.head? h2
        simp only [slice, List.length_cons, List.head?_take, Nat.succ_ne_zero, if_false, List.head?_cons] at h3
        rw [if_neg (by omega), List.head?_drop] at h3
        exact h3

theorem blockquoteStart_safe (hrec : RecSafe fx rec) (hG : Sound fx src) (hC : CoreS src st)
    (hc : src[st.current]? = some c)
    (hlast : isLast = true → st.current + 1 = src.length) (hs : st.state = .blockquoteStart)
    (hql : QL fx src st.lines) (hline : QuoteLine fx src st.start2 st.current) (hp : Prefix st) :
    Run.Safe (SPost fx src) (blockquoteStart rec src st c isLast) := by
  have hlt := (List.getElem?_eq_some_iff.1 hc).1
  obtain ⟨p, hp', hph, hpq⟩ := hp
  unfold blockquoteStart
  split
  next he =>
    rw [hp']
    have hstop := stop_bd hC hc he
    have hdup : Run.Safe (fun t => Ok src t ∧ (startsWith t p = true → fx = true ∨ clean true t = true))
        (dup src st.start2 (lineStop src st c isLast)) := by
      have h := dup_nb hG.nb hC.start2 hstop
      cases hd : dup src st.start2 (lineStop src st c isLast) with
      | ok t => rw [hd] at h; exact ⟨h, dup_clean hC hc hlast he hline hd hph⟩
      | ub => rw [hd] at h; exact h
      | out => trivial
    refine hdup.bind fun t ht => ?_
    have hC1 := hC.same (.inr hstop) (.inl rfl)
    show Run.Safe _ (if _ then _ else _)
    split
    next hsw =>
      have hql' : QL fx src (st.lines ++ [t.drop p.length]) := by
        intro l hl
        rcases List.mem_append.1 hl with hl | hl
        · exact hql l hl
        · rw [List.mem_singleton.1 hl]
          refine ⟨ht.1.drop _, ?_⟩
          rcases ht.2 hsw with h | h
          · exact .inl h
          · right
            refine clean_prefix hpq ?_
            unfold startsWith at hsw
            split at hsw
            · cases hsw
            · have h' := List.take_append_drop p.length t
              rw [beq_iff_eq.1 hsw] at h'
              rw [h']; exact h
      show Run.Safe _ (if _ then _ else _)
      split
      next hl =>
        refine blockquoteEnd_safe hrec hG ?_ ?_ ?_ ?_ ?_ ?_
        · exact hC1
        · exact hc
        · exact hlast
        · exact hql'
        · intro h; simp [ends, hl] at h
        · exact ⟨p, rfl, hph, hpq⟩
      · exact ⟨hC1.next hlt (.inl rfl) (.inl rfl) (.inl rfl) (.inl rfl), hql',
          next_line hG hc hlast he, p, rfl, hph, hpq⟩
    · show Run.Safe _ (if _ then _ else _)
      split
      · exact ⟨hC1, rfl⟩
      · exact ⟨hC1.next hlt (.inl rfl) (.inl rfl) (.inl rfl) (.inl rfl), rfl⟩
  next he =>
    refine ⟨hC.next hlt (.inl rfl) (.inl rfl) (.inl rfl) (.inl rfl), ?_⟩
    simp only [SSt, hs]; exact ⟨hql, hline.next hc (ends_false he), p, hp', hph, hpq⟩

/-- The first line of a quotation, after its prefix. -/
theorem QuoteLine.first {a : Nat} (hl : Line fx src a) (ha : a < st.current) (hq : src[a]? = some c!">")
    (hp : Tidy src → ∀ c ∈ slice src a st.current, isQuote c = true) (hc : src[st.current]? = some c) :
    QuoteLine fx src a (st.current + 1) := by
  rcases hl with h | h | ⟨hT, hL⟩
  · exact .inl h
  · exact .inr (.inl h)
  · refine .inr (.inr ⟨hT, by omega, fun j hj hno _ => ?_⟩)
    have hp := hp hT
    have hpn : ∀ d ∈ slice src a st.current, isNl d = false := by
      intro d hd
      have h1 := hp d hd
      have : ∀ n : Fin 256, isQuote (UInt8.ofFin n) = true → isNl (UInt8.ofFin n) = false := by decide +kernel
      exact this d.toFin h1
    have e1 : slice src a j = slice src a st.current ++ ([c] ++ slice src (st.current + 1) j) := by
      rw [slice_append (b := st.current + 1) (by omega) hj, slice_succ (by omega) hc, List.append_assoc]
    rw [e1]
    have h2 := quoted_clean hT hL hq
    have hs := line_slice (src := src) (Nat.le_of_lt ha) hpn
    cases hn : isNl c with
    | true =>
      rw [drop_cons hc, splitLines_nl hn, List.append_nil] at hs
      rw [hs] at h2
      refine clean_append (by simp) (by simp [hn]) h2.1 ?_
      have h3 := h2.2 hp _ _ rfl
      have h4 := line_clean splitLines_plain h3
      rw [line_slice hj hno] at h4
      have := clean_take (slice src (st.current + 1) j).length h4
      rwa [List.take_left] at this
    | false =>
      have h1 : ∀ d ∈ slice src a j, isNl d = false := by
        intro d hd
        rw [e1] at hd
        rcases List.mem_append.1 hd with hd | hd
        · exact hpn d hd
        · rcases List.mem_append.1 hd with hd | hd
          · rw [List.mem_singleton.1 hd]; exact hn
          · exact hno d hd
      have h2 := h2.1
      rw [line_slice (by omega) h1] at h2
      have := clean_take (slice src a j).length h2
      rwa [List.take_left, e1] at this

theorem takePrefix_safe (hC : CoreS src st) (hc : src[st.current]? = some c)
    (hs : st.state = .blockquote) (hS : SSt fx src st) :
    Run.Safe (SPost fx src) (takePrefix src st c .blockquoteStart) := by
  have hlt := (List.getElem?_eq_some_iff.1 hc).1
  simp only [SSt, hs] at hS
  obtain ⟨h1, h2, h3, h4, h6, h7, h5, h8⟩ := hS
  unfold takePrefix
  split
  next hsp =>
    refine ⟨hC.next hlt (.inl rfl) (.inl rfl) (.inl rfl) (.inl rfl), ?_⟩
    simp only [SSt, hs]
    refine ⟨h1, h2, by omega, h4, by omega, h7, fun d hd => ?_, fun hT d hd => ?_⟩
    · rw [slice_succ (by omega) hc] at hd
      rcases List.mem_append.1 hd with hd | hd
      · exact h5 d hd
      · rw [List.mem_singleton.1 hd, isQuote, hsp]; simp
    · rw [slice_succ (by omega) hc] at hd
      rcases List.mem_append.1 hd with hd | hd
      · exact h8 hT d hd
      · rw [List.mem_singleton.1 hd, isQuote, hsp]; simp
  · unfold dup
    have := hC.start
    rw [if_neg (by omega), if_pos (by omega)]
    refine ⟨hC.next hlt (.inl rfl) (.inl rfl) (.inl rfl) (.inl rfl), ?_, ?_, _, rfl, ?_, h5⟩
    · simp only
      rw [h1]; intro l hl; cases hl
    · rw [h2] at h7 h8
      exact .first h4 h6 h7 h8 hc
    · rw [slice, List.head?_take, if_neg (by omega), List.head?_drop, h7]

theorem takePrefix_safe' (hC : CoreS src st) (hlt : st.current < src.length) {s s' : BState}
    (hs : st.state = s) (h1 : isSp c = true → SSt fx src { st with current := st.current + 1, state := s })
    (h2 : isSp c = false → ∀ p, (st.start ≤ st.current → p = slice src st.start st.current) →
      SSt fx src { st with current := st.current + 1, state := s', pre := some p }) :
    Run.Safe (SPost fx src) (takePrefix src st c s') := by
  subst hs
  unfold takePrefix
  split
  next hsp => exact ⟨hC.next hlt (.inl rfl) (.inl rfl) (.inl rfl) (.inl rfl), h1 hsp⟩
  next hsp =>
    have h := hC.start
    unfold dup
    rw [if_neg (by omega)]
    split
    · exact ⟨hC.next hlt (.inl rfl) (.inl rfl) (.inl rfl) (.inl rfl), h2 (by simpa using hsp) _ fun _ => rfl⟩
    · exact ⟨hC.next hlt (.inl rfl) (.inl rfl) (.inl rfl) (.inl rfl), h2 (by simpa using hsp) _ fun h => by omega⟩

/-- The marker of a list is complete. -/
theorem Bullet.list (hT : Tidy src) (hB : Bullet src st) (hc : src[st.current]? = some c)
    (h1 : ¬ (st.current = st.start + 1 ∧ c = st.d)) (h2 : ¬ (st.current = st.start + 1 ∧ isSp c = false ∧ st.d = c!"*"))
    (hsp : isSp c = false) :
    LI src (ulItem (slice src st.start st.current)) st.start2 ∧ InLine src st.start2 (st.current + 1) := by
  obtain ⟨e, hL, hlt, hd, hb, hw⟩ := hB
  have hsl : slice src st.start st.current = st.d :: slice src (st.start + 1) st.current := by
    unfold slice
    rw [drop_cons hd]
    have : st.current - st.start = (st.current - (st.start + 1)) + 1 := by omega
    rw [this, List.take_succ_cons]
  have hspn : ∀ d : Byte, isSp d = true → isNl d = false := by
    intro d h
    have : ∀ n : Fin 256, isSp (UInt8.ofFin n) = true → isNl (UInt8.ofFin n) = false := by decide +kernel
    exact this d.toFin h
  have hdn : isNl st.d = false := by
    rcases (by simpa using hb : (st.d = c!"*" ∨ st.d = c!"+") ∨ st.d = c!"-") with (h | h) | h <;> rw [h] <;> rfl
  have hno : ∀ d ∈ slice src st.start st.current, isNl d = false := by
    intro d h
    rw [hsl] at h
    rcases List.mem_cons.1 h with rfl | h
    · exact hdn
    · exact hspn d (hw d h)
  have hl := line_slice (Nat.le_of_lt hlt) hno
  have hwnil : slice src (st.start + 1) st.current = [] → st.current = st.start + 1 := by
    intro h
    have h3 := congrArg List.length h
    have := (List.getElem?_eq_some_iff.1 hc).1
    simp only [slice, List.length_take, List.length_drop, List.length_nil] at h3
    omega
  have hu := unbroken_at hT.lists hL
  rw [hl] at hu
  have hhead : ∀ x r, (Spec.splitLines (src.drop st.current)).1 = x :: r → x = c := by
    intro x r h
    rw [drop_cons hc, Spec.splitLines] at h
    split at h
    · cases h
    · injection h with h _; exact h.symm
  have hbu : Spec.bullet (slice src st.start st.current ++ (Spec.splitLines (src.drop st.current)).1) =
      some (slice src st.start st.current) := by
    rw [hsl, List.cons_append]
    refine bullet_eq hb hw ?_ ?_ ?_
    · intro x r h; rw [hhead x r h]; exact hsp
    · intro h h3
      cases hx : (Spec.splitLines (src.drop st.current)).1 with
      | nil => rw [hx] at h3; cases h3
      | cons x r =>
        rw [hx] at h3
        injection h3 with h3
        exact h1 ⟨hwnil h, by rw [← hhead x r hx, h3]⟩
    · intro h h3
      exact h2 ⟨hwnil h, hsp, h3⟩
  have hu := (Bool.and_eq_true_iff.1 (Bool.and_eq_true_iff.1 hu).1).1
  rw [hbu] at hu
  have hu := Bool.and_eq_true_iff.1 hu
  have hn : isNl c = false := by
    cases hn : isNl c
    · rfl
    · have hlen := hu.1
      rw [drop_cons hc, splitLines_nl hn] at hlen
      simp at hlen
  refine ⟨?_, ?_⟩
  · rw [e]
    unfold LI Spec.lines
    rw [hl]
    exact List.all_eq_true.1 hu.2
  · rw [e]
    exact InLine.next ⟨hlt, hno⟩ hc hn

theorem Dotted.list (hT : Tidy src) (hB : Dotted src st) (hc : src[st.current]? = some c)
    (hsp : isSp c = false) :
    isNl c = false ∧ LI src (olItem (st.current - st.start)) st.start2 ∧ InLine src st.start2 st.current := by
  obtain ⟨e, hL, ds, ws, hsl, h0, hd, hw⟩ := hB
  have hclt := (List.getElem?_eq_some_iff.1 hc).1
  have hlen : ds.length + 1 + ws.length = st.current - st.start := by
    have h := congrArg List.length hsl
    simp only [slice, List.length_take, List.length_drop, List.length_append, List.length_cons] at h
    omega
  have hlt : st.start < st.current := by omega
  have hno : ∀ d ∈ slice src st.start st.current, isNl d = false := by
    intro d h
    have key : ∀ n : Fin 256, (isSp (UInt8.ofFin n) || isDig (UInt8.ofFin n)) = true → isNl (UInt8.ofFin n) = false := by
      decide +kernel
    rw [hsl] at h
    rcases List.mem_append.1 h with h | h
    · exact key d.toFin (by show (isSp d || isDig d) = true; rw [hd d h]; simp)
    · rcases List.mem_cons.1 h with rfl | h
      · rfl
      · exact key d.toFin (by show (isSp d || isDig d) = true; rw [hw d h]; simp)
  have hl := line_slice (Nat.le_of_lt hlt) hno
  have hu := unbroken_at hT.lists hL
  rw [hl] at hu
  have hnu : Spec.number (slice src st.start st.current ++ (Spec.splitLines (src.drop st.current)).1) =
      some (st.current - st.start) := by
    rw [hsl, List.append_assoc, List.cons_append, number_eq h0 hd hw, hlen]
    intro x r h
    rw [drop_cons hc, Spec.splitLines] at h
    split at h
    · cases h
    · injection h with h _; rw [← h]; exact hsp
  have hu := (Bool.and_eq_true_iff.1 (Bool.and_eq_true_iff.1 hu).1).2
  rw [hnu] at hu
  have hu := Bool.and_eq_true_iff.1 hu
  have hn : isNl c = false := by
    cases hn : isNl c
    · rfl
    · have h := hu.1
      rw [drop_cons hc, splitLines_nl hn, List.append_nil, hsl] at h
      simp only [List.length_append, List.length_cons, decide_eq_true_eq] at h
      omega
  refine ⟨hn, ?_, ?_⟩
  · rw [e]
    unfold LI Spec.lines
    rw [hl]
    exact List.all_eq_true.1 hu.2
  · rw [e]; exact ⟨hlt, hno⟩

theorem slice_one (hc : src[st.current]? = some c) : slice src st.current (st.current + 1) = [c] := by
  rw [slice_succ (Nat.le_refl _) hc]; simp [slice]

theorem startLine_safe (hG : Sound fx src) (hC : CoreS src st) (hc : src[st.current]? = some c)
    (hlast : isLast = true → st.current + 1 = src.length) (hs : st.state = .startLine)
    (hl : st.lines = []) (hline : Line fx src st.current) :
    Run.Safe (SPost fx src) (startLine w st c isLast) := by
  have hlt := (List.getElem?_eq_some_iff.1 hc).1
  have hmark : isNl c = false → isMarker c = true → fx = true ∨ Tidy src ∧ LS src st.current := by
    intro hn hm
    rcases hline with h | h | h
    · exact .inl h
    rotate_left
    · exact .inr h
    · exfalso
      rw [List.drop_eq_getElem_cons hlt, (List.getElem?_eq_some_iff.1 hc).2, clean, hn] at h
      have : isQuote c = false := by
        revert hm
        have : ∀ n : Fin 256, isMarker (UInt8.ofFin n) = true → isQuote (UInt8.ofFin n) = false := by
          decide +kernel
        exact this c.toFin
      rw [this, hm] at h
      cases h
  unfold startLine
  split
  next he =>
    refine ⟨hC.next hlt (.inl rfl) (.inl rfl) (.inl rfl) (.inl rfl), ?_⟩
    simp only [SSt, hs]
    exact ⟨hl, next_line hG hc hlast he⟩
  next he =>
    have hn : isNl c = false := by
      cases h : isNl c
      · rfl
      · rw [ends, h] at he; exact absurd rfl he
    show Run.Safe _ (if _ then _ else _)
    split
    · exact ⟨hC.next hlt (.inr rfl) (.inl rfl) (.inl rfl) (.inl rfl), hl⟩
    split
    · exact ⟨hC.next hlt (.inr rfl) (.inl rfl) (.inl rfl) (.inl rfl), hl⟩
    split
    next hm =>
      have hk : isMarker c = true := by rcases hm with rfl | rfl | rfl <;> rfl
      refine ⟨hC.next hlt (.inr rfl) (.inr rfl) (.inl rfl) (.inl rfl), (hmark hn hk).imp id fun h => ⟨h.1, ?_⟩, hl⟩
      refine ⟨rfl, h.2, Nat.lt_succ_self _, hc, ?_, ?_⟩
      · rcases hm with rfl | rfl | rfl <;> rfl
      · simp [slice]
    split
    next hm =>
      have hk : isMarker c = true := by rw [isMarker, hm]; simp
      refine ⟨hC.next hlt (.inr rfl) (.inr rfl) (.inl rfl) (.inl rfl), (hmark hn hk).imp id fun h => ⟨h.1, ?_⟩, hl⟩
      refine ⟨rfl, h.2, Nat.lt_succ_self _, fun d hd => ?_⟩
      have hd : d ∈ slice src st.current (st.current + 1) := hd
      rw [slice_one hc] at hd
      rw [List.mem_singleton.1 hd]; exact hm
    split
    · exact ⟨hC.next hlt (.inr rfl) (.inr rfl) (.inl rfl) (.inl rfl), hl⟩
    split
    · exact ⟨hC.next hlt (.inr rfl) (.inl rfl) (.inl rfl) (.inl rfl), hl⟩
    split
    next hgt =>
      have hq : ∀ d ∈ slice src st.current (st.current + 1), isQuote d = true := by
        intro d hd
        rw [slice_one hc] at hd
        rw [List.mem_singleton.1 hd, hgt]; rfl
      refine ⟨hC.next hlt (.inr rfl) (.inr rfl) (.inl rfl) (.inl rfl), hl, rfl, Nat.le_succ _, hline,
        Nat.lt_succ_self _, ?_, ?_, fun _ => hq⟩
      · rw [← hgt]; exact hc
      · intro d hd
        rw [hq d hd]; simp
    · exact ⟨hC.next hlt (.inr rfl) (.inl rfl) (.inl rfl) (.inl rfl), hl⟩

theorem dispatch_safe (hrec : RecSafe fx rec) (hG : Sound fx src) (hC : CoreS src st)
    (hS : SSt fx src st) (hc : src[st.current]? = some c)
    (hlast : isLast = true → st.current + 1 = src.length) :
    Run.Safe (SPost fx src) (dispatch fx rec src w st c isLast) := by
  have hlt := (List.getElem?_eq_some_iff.1 hc).1
  have hN := hC.next hlt (.inl rfl) (.inl rfl) (.inl rfl) (.inl rfl)
  have hS0 := hS
  unfold dispatch
  cases h : st.state <;> simp only <;> simp only [SSt, h] at hS
  case startLine => exact startLine_safe hG hC hc hlast h hS.1 hS.2
  case excerpt =>
    unfold excerpt
    split
    · exact ⟨hN, by simp [SSt, h, hS]⟩
    split <;> exact ⟨hN, hS⟩
  case excerptEnd =>
    unfold excerptEnd
    split
    next hn => exact ⟨hN, hS, next_line hG hc hlast (by simp [ends, hn.2])⟩
    · exact ⟨hN, hS⟩
  case header =>
    unfold header
    split
    · exact ⟨hN, by simp [SSt, h, hS]⟩
    split <;> exact ⟨hN, hS⟩
  case headerTitleStart =>
    unfold headerTitleStart
    split
    · exact ⟨hN, by simp [SSt, h, hS]⟩
    split
    · exact ⟨hC.next hlt (.inr rfl) (.inl rfl) (.inl rfl) (.inl rfl), hS⟩
    next hn =>
      refine headerTitle_safe hG ?_ ?_ ?_ ?_ ?_
      · exact ⟨hC.cur, hC.cur, hC.start2, hC.stop, hC.re, hC.le, hC.l2⟩
      · exact hc
      · exact hlast
      · exact .inr ⟨h, by simpa using hn⟩
      · exact hS
  case headerTitle => exact headerTitle_safe hG hC hc hlast (.inl h) hS
  case html =>
    unfold html
    simp only
    split
    next hl =>
      have he : ends c isLast = true := by simp [ends, hl]
      rw [if_pos he]
      refine htmlEnd_safe hG ?_ ?_ ?_ ?_
      · exact hC.same (.inr (stop_bd hC hc he)) (.inl rfl)
      · exact hc
      · exact hlast
      · exact hS
    · split
      next he => exact ⟨hC.next hlt (.inl rfl) (.inl rfl) (.inr (stop_bd hC hc he)) (.inl rfl), hS⟩
      · exact ⟨hN, by simp [SSt, h, hS]⟩
  case htmlEnd => exact htmlEnd_safe hG hC hc hlast hS
  case blockquote => exact takePrefix_safe hC hc h hS0
  case blockquoteStart => exact blockquoteStart_safe hrec hG hC hc hlast h hS.1 hS.2.1 hS.2.2
  case blockquoteEnd =>
    exact blockquoteEnd_safe hrec hG hC hc hlast hS.1 (fun _ => hS.2.1) hS.2.2
  case code => exact takePrefix_safe' hC hlt h (fun _ => hS) (fun _ p _ => rfl)
  case codeStart => exact codeStart_safe hG hC hc hlast h hS
  case codeEnd => exact codeEnd_safe hG hC hc hlast hS
  case ulOrHrOrEm =>
    unfold ulOrHrOrEm
    split
    · exact ⟨hN, hS.2⟩
    next h1 =>
    split
    · exact ⟨hN, hS.2⟩
    next h2 =>
      refine takePrefix_safe' hC hlt h (fun hsp => ?_) (fun hsp p hp => ?_)
      · refine ⟨hS.1.imp id fun ⟨hT, hB⟩ => ⟨hT, ?_⟩, hS.2⟩
        obtain ⟨e, hL, hlt', hd, hb, hw⟩ := hB
        refine ⟨e, hL, Nat.lt_succ_of_lt hlt', hd, hb, fun d hd => ?_⟩
        have hd : d ∈ slice src (st.start + 1) (st.current + 1) := hd
        rw [slice_succ (by omega) hc] at hd
        rcases List.mem_append.1 hd with hd | hd
        · exact hw d hd
        · rw [List.mem_singleton.1 hd]; exact hsp
      · refine ⟨p, rfl, hS.1.imp id fun ⟨hT, hB⟩ => ⟨hT, ?_⟩⟩
        rw [hp (Nat.le_of_lt hB.2.2.1)]
        exact hB.list hT hc h1 h2 hsp
  case hrOrEm =>
    unfold hrOrEm
    split
    · split
      · exact ⟨hC, hS⟩
      · exact ⟨hN, hS⟩
    · exact ⟨hN, hS⟩
  case hr =>
    unfold hr
    split
    · exact ⟨hN, by simp [SSt, h, hS]⟩
    split
    next he =>
      exact ⟨hC.next hlt (.inr rfl) (.inl rfl) (.inl rfl) (.inl rfl), hS, next_line hG hc hlast he⟩
    · exact ⟨hN, hS⟩
  case ulStart =>
    obtain ⟨p, hp, hI⟩ := hS
    exact ulStart_safe hG hC hc hlast h hp hI
  case ulEnd =>
    obtain ⟨p, hp, hI⟩ := hS
    exact listEnd_safe hG hC hc hlast _ _ fun he =>
      ⟨p, hp, hI.imp id fun h => ⟨h.1, h.2, InLine.one hc he⟩⟩
  case ol =>
    unfold ol
    split
    next hd =>
      refine ⟨hN, ?_⟩
      simp only [SSt, h]
      refine ⟨hS.1.imp id fun ⟨hT, e, hL, hlt', hD⟩ => ⟨hT, e, hL, Nat.lt_succ_of_lt hlt', fun d hd' => ?_⟩, hS.2⟩
      have hd' : d ∈ slice src st.start (st.current + 1) := hd'
      rw [slice_succ (by omega) hc] at hd'
      rcases List.mem_append.1 hd' with hd' | hd'
      · exact hD d hd'
      · rw [List.mem_singleton.1 hd']; exact hd
    split
    next hdot =>
      refine ⟨hN, hS.1.imp id fun ⟨hT, e, hL, hlt', hD⟩ => ⟨hT, e, hL, slice src st.start st.current, [], ?_, ?_, hD, by simp⟩, hS.2⟩
      · show slice src st.start (st.current + 1) = _
        rw [slice_succ (by omega) hc, hdot]
      · intro h0
        have := congrArg List.length h0
        simp only [slice, List.length_take, List.length_drop, List.length_nil] at this
        omega
    split
    · exact ⟨hC, hS.2⟩
    · exact ⟨hN, hS.2⟩
  case olSpace =>
    unfold olSpace
    split
    next hsp =>
      refine ⟨hN, ?_⟩
      simp only [SSt, h]
      refine ⟨hS.1.imp id fun ⟨hT, e, hL, ds, ws, hsl, h0, hD, hW⟩ => ⟨hT, e, hL, ds, ws ++ [c], ?_, h0, hD, fun d hd => ?_⟩, hS.2⟩
      · show slice src st.start (st.current + 1) = _
        have : st.start ≤ st.current := by
          have h1 := congrArg List.length hsl
          simp only [slice, List.length_take, List.length_drop, List.length_append, List.length_cons] at h1
          omega
        rw [slice_succ this hc, hsl]; simp
      · rcases List.mem_append.1 hd with hd | hd
        · exact hW d hd
        · rw [List.mem_singleton.1 hd]; exact hsp
    next hsp =>
      have hR := hS.1.imp id fun h => And.intro h.1 (Dotted.list h.1 h.2 hc (by simpa using hsp))
      show Run.Safe _ (if _ then _ else _)
      split
      next hb =>
        exact ⟨hN, hR.imp id fun h => ⟨h.1, h.2.2.1, h.2.2.2.next hc hb.1⟩⟩
      · refine olStart_safe hG ?_ ?_ ?_ ?_ ?_
        · exact hC
        · exact hc
        · exact hlast
        · rfl
        · exact hR.imp id fun h => ⟨h.1, h.2.2⟩
  case olStart => exact olStart_safe hG hC hc hlast h hS
  case olEnd =>
    exact listEnd_safe hG hC hc hlast _ _ fun he => hS.imp id fun h => ⟨h.1, h.2, InLine.one hc he⟩
  case paragraph =>
    unfold paragraph
    simp only
    split
    next hl =>
      have he : ends c isLast = true := by simp [ends, hl]
      rw [if_pos he]
      refine paragraphEnd_safe hG ?_ ?_ ?_ ?_
      · exact hC.same (.inr (stop_bd hC hc he)) (.inl rfl)
      · exact hc
      · exact hlast
      · exact hS
    · split
      next he => exact ⟨hC.next hlt (.inl rfl) (.inl rfl) (.inr (stop_bd hC hc he)) (.inl rfl), hS⟩
      · exact ⟨hN, by simp [SSt, h, hS]⟩
  case paragraphEnd => exact paragraphEnd_safe hG hC hc hlast hS

/-- The first character of a line ending of two is skipped. -/
theorem SSt.skip (hS : SSt fx src st) (hc : src[st.current]? = some c) (hn : isNl c = true) (hT : ¬ Tidy src)
    (le : Str) (f : Bool) (re : Nat) :
    SSt fx src { st with lineEnding := le, lineEndingFound := f, realEnd := re,
                         current := st.current + 1 } := by
  have hl : Line fx src st.current → Line fx src (st.current + 1) := by
    intro h
    rcases h with h | h | h
    · exact .inl h
    · have := clean_line (k := 0) h (by rw [List.getElem?_drop]; exact hc) hn
      rw [List.drop_drop] at this
      exact .inr (.inl this)
    · exact absurd h.1 hT
  cases h : st.state <;> simp only [SSt, h] at hS ⊢
  case startLine => exact ⟨hS.1, hl hS.2⟩
  case blockquote =>
    obtain ⟨h1, h2, h3, h4, h6, h7, h5, _⟩ := hS
    refine ⟨h1, h2, by omega, h4, by omega, h7, fun d hd => ?_, fun h => absurd h hT⟩
    rw [slice_succ (by omega) hc] at hd
    rcases List.mem_append.1 hd with hd | hd
    · exact h5 d hd
    · rw [List.mem_singleton.1 hd, hn]; rfl
  case blockquoteEnd => exact ⟨hS.1, hl hS.2.1, hS.2.2⟩
  case blockquoteStart =>
    refine ⟨hS.1, ?_, hS.2.2⟩
    rcases hS.2.1 with h | h | h
    · exact .inl h
    · exact .inr (.inl h)
    · exact absurd h.1 hT
  case ulStart =>
    obtain ⟨p, hp, hI⟩ := hS
    exact ⟨p, hp, hI.imp id fun h => absurd h.1 hT⟩
  case ulEnd =>
    obtain ⟨p, hp, hI⟩ := hS
    exact ⟨p, hp, hI.imp id fun h => absurd h.1 hT⟩
  case olStart => exact hS.imp id fun h => absurd h.1 hT
  case olEnd => exact hS.imp id fun h => absurd h.1 hT
  case ulOrHrOrEm => exact ⟨hS.1.imp id fun h => absurd h.1 hT, hS.2⟩
  case ol => exact ⟨hS.1.imp id fun h => absurd h.1 hT, hS.2⟩
  case olSpace => exact ⟨hS.1.imp id fun h => absurd h.1 hT, hS.2⟩
  all_goals exact hS

theorem SSt.found (hS : SSt fx src st) (le : Str) (f : Bool) :
    SSt fx src { st with lineEnding := le, lineEndingFound := f } := by
  cases h : st.state <;> simp only [SSt, h] at hS ⊢ <;> exact hS

theorem blockStep_safe (hrec : RecSafe fx rec) (hG : Sound fx src) (hI : CoreS src st ∧ SSt fx src st) :
    Run.Safe (SPost fx src) (blockStep fx rec src w st) := by
  obtain ⟨hC, hS⟩ := hI
  unfold blockStep
  split
  · trivial
  next c hc =>
    have hlt := (List.getElem?_eq_some_iff.1 hc).1
    have hle : ∀ l : Str, l ≠ [] → (∀ d ∈ l, isNl d = true) →
        (if st.lineEndingFound = true then st.lineEnding else l) ≠ [] ∧
        ∀ d ∈ (if st.lineEndingFound = true then st.lineEnding else l), isNl d = true := by
      intro l h1 h2
      split
      · exact hC.le
      · exact ⟨h1, h2⟩
    split
    next hn =>
      split
      next c' hc' =>
        have hlt' := (List.getElem?_eq_some_iff.1 hc').1
        split
        next hp =>
          have hn' : isNl c' = true := by
            simp only [isPair, Bool.or_eq_true, Bool.and_eq_true, beq_iff_eq] at hp
            rcases hp with ⟨_, rfl⟩ | ⟨_, rfl⟩ <;> rfl
          have hT : ¬ Tidy src := by
            intro hT
            rw [hT.ending _ c c' hc hc'] at hp
            cases hp
          refine dispatch_safe hrec hG ?_ ?_ ?_ ?_
          · exact ⟨by simp only; omega, hC.start, hC.start2, hC.stop,
              ⟨.inr (.inr ⟨c, hc, hn⟩), fun h => absurd h hT⟩,
              hle [c, c'] (by simp) (by simp [hn, hn']), hC.l2⟩
          · exact hS.skip hc hn hT _ _ _
          · exact hc'
          · intro hl
            have := beq_iff_eq.1 hl
            simp only at this ⊢; omega
        · refine dispatch_safe hrec hG ?_ ?_ ?_ ?_
          · exact ⟨hC.cur, hC.start, hC.start2, hC.stop, hC.re, hle [c] (by simp) (by simp [hn]), hC.l2⟩
          · exact hS.found _ _
          · exact hc
          · intro hl; cases hl
      next hc' =>
        refine dispatch_safe hrec hG ?_ ?_ ?_ ?_
        · exact ⟨hC.cur, hC.start, hC.start2, hC.stop, hC.re, hle [c] (by simp) (by simp [hn]), hC.l2⟩
        · exact hS.found _ _
        · exact hc
        · intro _
          have := List.getElem?_eq_none_iff.1 hc'
          simp only; omega
    · refine dispatch_safe hrec hG hC hS hc ?_
      intro hl
      have := beq_iff_eq.1 hl; omega

/-- The block parser has no undefined behaviour on sound texts. -/
theorem parseBlocks_safe (fx : Bool) : ∀ (depth : Nat) (src : Str) (w : Want) (endl : Option Str),
    Sound fx src → (∀ e, endl = some e → e ≠ [] ∧ ∀ c ∈ e, isNl c = true) →
    Run.Safe (fun _ => True) (parseBlocks fx depth src w endl) := by
  intro depth
  induction depth with
  | zero => intros; trivial
  | succ d ih =>
    intro src w endl hG he
    rw [parseBlocks]
    refine runL_safe (I := fun st => CoreS src st ∧ SSt fx src st) (P := fun _ => True)
      (fun s hs => blockStep_safe ?_ hG hs) _ _ ?_
    · intro s e hs h1 h2
      refine (ih s ⟨false, false, false, false⟩ (some e) hs ?_).bind fun _ _ => trivial
      intro e' h; injection h with h; rw [← h]; exact ⟨h1, h2⟩
    · refine ⟨⟨Nat.zero_le _, Nat.zero_le _, Nat.zero_le _, .inl rfl, ⟨.inl rfl, fun _ => rfl⟩, ?_, [], rfl, by simp⟩,
        rfl, ?_⟩
      · cases endl with
        | none => exact ⟨by simp [BSt.init], by simp [BSt.init, isNl]⟩
        | some e => exact he e rfl
      · rcases hG.cl with h | h | h
        · exact .inl h
        · exact .inr (.inl h)
        · exact .inr (.inr ⟨h, .inl rfl⟩)

end Content

end Blogc
