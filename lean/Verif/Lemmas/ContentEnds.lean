import Verif.Lemmas.Content

/-!
# Block content: nested calls end, for texts with one kind of newline

The quoted text has fewer `>` than the text.
-/

namespace Blogc.Content

open Blogc

/-- No newline character other than `x`. -/
def Mono (x : Byte) (s : Str) : Prop := ∀ c ∈ s, isNl c = true → c = x

def quotes (s : Str) : Nat := s.count c!">"

theorem quotes_append (a b : Str) : quotes (a ++ b) = quotes a + quotes b := List.count_append

/-- States in which an iteration that does not move goes on. -/
def quiet : BState → Bool
  | .paragraph | .paragraphEnd | .hr => true
  | _ => false

/-- Inside the first marker of a quotation. -/
structure Marker (src : Str) (st : BSt) : Prop where
  lines : st.lines = []
  start : st.start = st.start2
  lt : st.start2 < st.current
  gt : src[st.start2]? = some c!">"
  plain : ∀ i c, st.start2 ≤ i → i < st.current → src[i]? = some c → isNl c = false

/-- What is known about the lines of a quotation; `K` is for the states after its first marker. -/
def QInv (K : BSt → Prop) (src : Str) (st : BSt) : Prop :=
  match st.state with
  | .blockquote => Marker src st
  | .blockquoteStart | .blockquoteEnd => K st
  | .codeStart | .codeEnd | .ulStart | .ulEnd | .olStart | .olEnd => True
  | _ => st.lines = []

/-- The lines of a quotation, in a text with one kind of newline. -/
def Quoted (src : Str) (st : BSt) : Prop :=
  match st.state with
  | .blockquoteEnd => (∃ p, st.pre = some p ∧ c!">" ∈ p) ∧ (∀ l ∈ st.lines, ∀ c ∈ l, c ∈ src) ∧
      quotes st.lines.flatten + 1 ≤ quotes (src.take st.current)
  | _ => st.start2 ≤ st.current ∧ (∃ p, st.pre = some p ∧ c!">" ∈ p) ∧
      (∀ l ∈ st.lines, ∀ c ∈ l, c ∈ src) ∧
      quotes st.lines.flatten ≤ quotes (src.take st.start2)

/-- The line ending found so far, or none. -/
def LInv (x : Byte) (src : Str) (st : BSt) : Prop :=
  st.lineEnding = [x] ∨ (st.lineEndingFound = false ∧ st.lineEnding = b!"\n" ∧
    ∀ c ∈ src.take st.current, isNl c = false)

structure TInv (x : Byte) (src : Str) (st : BSt) : Prop where
  re : st.realEnd = 0
  le : LInv x src st
  q : QInv (Quoted src) src st

def Keep (st st' : BSt) : Prop :=
  st'.lineEnding = st.lineEnding ∧ st'.lineEndingFound = st.lineEndingFound ∧ st'.realEnd = st.realEnd

/-- An iteration moves on, except at the last character. -/
def Moved (isLast : Bool) (st st' : BSt) : Prop :=
  st'.current = st.current + 1 ∨
    (isLast = true ∧ st'.current = st.current ∧ rank st.state = 1 ∧ quiet st'.state = true)

theorem Moved.shape {st st' : BSt} {isLast : Bool} (h : Moved isLast st st') : Shape st (.inl st') := by
  rcases h with h | ⟨_, h1, h2, h3⟩
  · exact .inl h
  · refine .inr ⟨h1, h2, ?_⟩
    cases hs : st'.state <;> rw [hs] at h3 <;> first | rfl | cases h3

def Post (K : BSt → Prop) (src : Str) (isLast : Bool) (st : BSt) : BSt ⊕ BSt → Prop
  | .inl st' => Moved isLast st st' ∧ Keep st st' ∧ QInv K src st'
  | .inr _ => True

theorem flushItem_frame (st : BSt) :
    Run.Fine True (fun st' => ∃ a b, st' = { st with lines := a, lines2 := b }) (flushItem st) := by
  unfold flushItem
  refine (get_fine _).bind fun l _ => ?_
  show Run.Fine _ _ (if _ then _ else _)
  split
  · exact ⟨_, _, rfl⟩
  · exact (inline_fine' _).bind fun _ _ => ⟨_, _, rfl⟩

theorem addLine_frame (st : BSt) (l : Str) :
    Run.Fine True (fun st' => ∃ b, st' = { st with lines2 := b }) (addLine st l) := by
  unfold addLine
  exact (get_fine _).bind fun _ _ => ⟨_, rfl⟩

variable {K : BSt → Prop} {src : Str} {w : Want} {st : BSt} {c : Byte} {isLast : Bool} {fx : Bool}
  {rec : Str → Str → Run Str} {x : Byte}

theorem headerTitle_post (h : st.state = .headerTitle ∨ st.state = .headerTitleStart)
    (hl : st.lines = []) :
    Run.Fine True (Post K src isLast st) (headerTitle src w st c isLast) := by
  unfold headerTitle
  split
  · exact (dup_fine _ _ _).bind fun _ _ => (inline_fine' _).bind fun _ _ =>
      ⟨.inl rfl, ⟨rfl, rfl, rfl⟩, hl⟩
  · refine ⟨.inl rfl, ⟨rfl, rfl, rfl⟩, ?_⟩
    rcases h with h | h <;> simp [QInv, h, hl]

theorem htmlEnd_post (hl : st.lines = []) :
    Run.Fine True (Post K src isLast st) (htmlEnd src st c isLast) := by
  unfold htmlEnd
  split
  · exact (dup_fine _ _ _).bind fun _ _ => ⟨.inl rfl, ⟨rfl, rfl, rfl⟩, hl⟩
  · exact ⟨.inl rfl, ⟨rfl, rfl, rfl⟩, hl⟩

theorem paragraphEnd_post (hl : st.lines = []) :
    Run.Fine True (Post K src isLast st) (paragraphEnd src w st c isLast) := by
  unfold paragraphEnd
  split
  · exact (dup_fine _ _ _).bind fun _ _ => (inline_fine' _).bind fun _ _ =>
      ⟨.inl rfl, ⟨rfl, rfl, rfl⟩, hl⟩
  · exact ⟨.inl rfl, ⟨rfl, rfl, rfl⟩, hl⟩

theorem codeEnd_post : Run.Fine True (Post K src isLast st) (codeEnd st c isLast) := by
  unfold codeEnd
  split
  · exact ⟨.inl rfl, ⟨rfl, rfl, rfl⟩, rfl⟩
  · exact ⟨.inl rfl, ⟨rfl, rfl, rfl⟩, trivial⟩

theorem listEnd_post (tag : Str) (again : BState) (h : again = .ulStart ∨ again = .olStart) :
    Run.Fine True (Post K src isLast st) (listEnd tag again st c isLast) := by
  unfold listEnd
  split
  · refine (flushItem_frame st).bind fun st' h => ?_
    obtain ⟨a, b, rfl⟩ := h
    exact ⟨.inl rfl, ⟨rfl, rfl, rfl⟩, rfl⟩
  · refine ⟨.inl rfl, ⟨rfl, rfl, rfl⟩, ?_⟩
    rcases h with rfl | rfl <;> trivial

theorem giveUp_fine (l : Lines2) : Run.Fine True (fun _ => True) (l.giveUp fx) := by
  unfold Lines2.giveUp
  split
  · exact (get_fine _).bind fun _ _ => trivial
  · exact release_fine _

theorem listAbort_post (keep : Bool) (h : rank st.state = 1) :
    Run.Fine True (Post K src isLast st) (listAbort fx st keep isLast) := by
  unfold listAbort
  refine (giveUp_fine st.lines2).bind fun l _ => ?_
  show Run.Fine _ _ (if _ then _ else _)
  split
  · exact ⟨.inr ⟨by assumption, rfl, h, rfl⟩, ⟨rfl, rfl, rfl⟩, rfl⟩
  · exact ⟨.inl rfl, ⟨rfl, rfl, rfl⟩, rfl⟩

/-- A step of a modified state is a step of the original one. -/
theorem Post.of {st' : BSt} {y : Run (BSt ⊕ BSt)} (h : Run.Fine True (Post K src isLast st') y)
    (hc : st'.current = st.current) (hr : rank st'.state ≤ rank st.state) (hk : Keep st st') :
    Run.Fine True (Post K src isLast st) y := by
  refine h.mono id ?_
  intro r hr'
  cases r with
  | inr _ => trivial
  | inl s =>
    obtain ⟨h1, h2, h3⟩ := hr'
    refine ⟨?_, ?_, h3⟩
    · rcases h1 with h | ⟨hl, h, h1, h2⟩
      · exact .inl (by rw [h, hc])
      · refine .inr ⟨hl, by rw [h, hc], ?_, h2⟩
        have := rank_le st.state
        omega
    · obtain ⟨a, b, c⟩ := h2
      obtain ⟨a', b', c'⟩ := hk
      exact ⟨a.trans a', b.trans b', c.trans c'⟩

theorem ulStart_post (h : st.state = .ulStart) :
    Run.Fine True (Post K src isLast st) (ulStart fx src st c isLast) := by
  unfold ulStart
  split
  · split
    · trivial
    · refine (dup_fine _ _ _).bind fun tmp _ => ?_
      simp only
      split
      · refine (flushItem_frame _).bind fun s1 h1 => ?_
        obtain ⟨a, b, rfl⟩ := h1
        refine (addLine_frame _ _).bind fun s2 h2 => ?_
        obtain ⟨b', rfl⟩ := h2
        show Run.Fine _ _ (if _ then _ else _)
        split
        · exact Post.of (listEnd_post _ _ (.inl rfl)) rfl (by simp [BSt.goto, rank]) ⟨rfl, rfl, rfl⟩
        · exact ⟨.inl rfl, ⟨rfl, rfl, rfl⟩, trivial⟩
      · split
        · refine (addLine_frame _ _).bind fun s2 h2 => ?_
          obtain ⟨b', rfl⟩ := h2
          show Run.Fine _ _ (if _ then _ else _)
          split
          · exact Post.of (listEnd_post _ _ (.inl rfl)) rfl (by simp [BSt.goto, rank]) ⟨rfl, rfl, rfl⟩
          · exact ⟨.inl rfl, ⟨rfl, rfl, rfl⟩, trivial⟩
        · exact Post.of (listAbort_post _ (by simp [h, rank])) rfl (Nat.le_refl _) ⟨rfl, rfl, rfl⟩
  · exact ⟨.inl rfl, ⟨rfl, rfl, rfl⟩, by simp [QInv, h]⟩

theorem olStart_post (h : st.state = .olStart) :
    Run.Fine True (Post K src isLast st) (olStart fx src st c isLast) := by
  unfold olStart
  split
  · refine (dup_fine _ _ _).bind fun tmp _ => ?_
    simp only
    split
    · refine (flushItem_frame _).bind fun s1 h1 => ?_
      obtain ⟨a, b, rfl⟩ := h1
      refine (addLine_frame _ _).bind fun s2 h2 => ?_
      obtain ⟨b', rfl⟩ := h2
      show Run.Fine _ _ (if _ then _ else _)
      split
      · exact Post.of (listEnd_post _ _ (.inr rfl)) rfl (by simp [BSt.goto, rank]) ⟨rfl, rfl, rfl⟩
      · exact ⟨.inl rfl, ⟨rfl, rfl, rfl⟩, trivial⟩
    · split
      · refine (addLine_frame _ _).bind fun s2 h2 => ?_
        obtain ⟨b', rfl⟩ := h2
        show Run.Fine _ _ (if _ then _ else _)
        split
        · exact Post.of (listEnd_post _ _ (.inr rfl)) rfl (by simp [BSt.goto, rank]) ⟨rfl, rfl, rfl⟩
        · exact ⟨.inl rfl, ⟨rfl, rfl, rfl⟩, trivial⟩
      · exact Post.of (listAbort_post _ (by simp [h, rank])) rfl (Nat.le_refl _) ⟨rfl, rfl, rfl⟩
  · exact ⟨.inl rfl, ⟨rfl, rfl, rfl⟩, by simp [QInv, h]⟩

theorem codeStart_post (h : st.state = .codeStart) :
    Run.Fine True (Post K src isLast st) (codeStart src st c isLast) := by
  unfold codeStart
  split
  · split
    · trivial
    · refine (dup_fine _ _ _).bind fun tmp _ => ?_
      show Run.Fine _ _ (if _ then _ else _)
      split
      · show Run.Fine _ _ (if _ then _ else _)
        split
        · exact Post.of codeEnd_post rfl (by simp [rank]) ⟨rfl, rfl, rfl⟩
        · exact ⟨.inl rfl, ⟨rfl, rfl, rfl⟩, trivial⟩
      · show Run.Fine _ _ (if _ then _ else _)
        split
        · exact ⟨.inr ⟨by assumption, rfl, by simp [h, rank], rfl⟩, ⟨rfl, rfl, rfl⟩, rfl⟩
        · exact ⟨.inl rfl, ⟨rfl, rfl, rfl⟩, rfl⟩
  · exact ⟨.inl rfl, ⟨rfl, rfl, rfl⟩, by simp [QInv, h]⟩

/-- The nested texts. -/
def Nested (src s e : Str) : Prop :=
  quotes s < quotes src ∧ ∃ y, isNl y = true ∧ e = [y] ∧ Mono y s

/-- The line ending, when the character has been looked at. -/
def LDisp (x : Byte) (src : Str) (st : BSt) (c : Byte) (isLast : Bool) : Prop :=
  st.lineEnding = [x] ∨ (st.lineEnding = b!"\n" ∧ isNl c = false ∧
    (isLast = true → ∀ c ∈ src, isNl c = false))

theorem quotes_lines (y : Byte) (hy : isNl y = true) (ls : List Str) :
    quotes (ls.flatMap (· ++ [y])) = quotes ls.flatten := by
  induction ls with
  | nil => rfl
  | cons l ls ih =>
    rw [List.flatMap_cons, List.flatten_cons, quotes_append, quotes_append, quotes_append, ih]
    have : quotes [y] = 0 := by
      unfold quotes
      rw [List.count_singleton]
      have : (y == c!">") = false := by
        simp only [isNl, Bool.or_eq_true, beq_iff_eq] at hy
        rcases hy with rfl | rfl <;> decide
      rw [this]; rfl
    omega

theorem quotes_take_le (src : Str) (n : Nat) : quotes (src.take n) ≤ quotes src :=
  (List.take_sublist n src).count_le _

theorem mono_lines {y : Byte} {ls : List Str} (h : ∀ l ∈ ls, Mono y l) :
    Mono y (ls.flatMap (· ++ [y])) := by
  intro c hc hn
  rw [List.mem_flatMap] at hc
  obtain ⟨l, hl, hc⟩ := hc
  rcases List.mem_append.1 hc with hc | hc
  · exact h l hl c hc hn
  · simpa using hc

theorem blockquoteEnd_post (hrec : ∀ s e, Nested src s e → rec s e ≠ .out)
    (hx : isNl x = true) (hm : Mono x src) (hld : LDisp x src st c isLast)
    (hpre : ∃ p, st.pre = some p ∧ c!">" ∈ p) (hsub : ∀ l ∈ st.lines, ∀ c ∈ l, c ∈ src)
    (hq : ends c isLast = true → quotes st.lines.flatten + 1 ≤ quotes src)
    (hq' : ends c isLast = false → quotes st.lines.flatten + 1 ≤ quotes (src.take st.current)) :
    Run.Fine True (Post (Quoted src) src isLast st) (blockquoteEnd rec st c isLast) := by
  unfold blockquoteEnd
  split
  next he =>
    have hn : Nested src (st.lines.flatMap (· ++ st.lineEnding)) st.lineEnding := by
      rcases hld with h | ⟨h, hc, hl⟩
      · rw [h]
        refine ⟨?_, x, hx, rfl, mono_lines fun l hl c hc hn => hm c (hsub l hl c hc) hn⟩
        rw [quotes_lines x hx]
        have := hq he
        omega
      · rw [h]
        refine ⟨?_, c!"\n", rfl, rfl, mono_lines fun l hl' c' hc' hn => ?_⟩
        · rw [quotes_lines _ rfl]
          have := hq he
          omega
        · have hlast : isLast = true := by simpa [ends, hc] using he
          rw [hl hlast c' (hsub l hl' c' hc')] at hn
          exact absurd hn (by decide)
    have : Run.Fine True (fun _ => True) (rec (st.lines.flatMap (· ++ st.lineEnding)) st.lineEnding) := by
      have := hrec _ _ hn
      cases h : rec (st.lines.flatMap (· ++ st.lineEnding)) st.lineEnding
      · trivial
      · trivial
      · exact this h
    exact this.bind fun _ _ => ⟨.inl rfl, ⟨rfl, rfl, rfl⟩, rfl⟩
  next he =>
    refine ⟨.inl rfl, ⟨rfl, rfl, rfl⟩, ?_⟩
    have := hq' (by simpa using he)
    refine ⟨?_, hpre, hsub, ?_⟩
    · simp
    · simp only; omega

/-- A line of the quotation. -/
theorem quoted_line {tmp p : Str} {a b : Nat} (hd : dup src a b = .ok tmp) (hab : a ≤ b)
    (hsw : startsWith tmp p = true) (hp : c!">" ∈ p) :
    (∀ c ∈ tmp.drop p.length, c ∈ src) ∧
      quotes (src.take a) + quotes (tmp.drop p.length) + 1 ≤ quotes (src.take b) := by
  unfold dup at hd
  rw [if_pos hab] at hd
  split at hd
  · cases hd
  · cases hd
    refine ⟨fun c hc => List.mem_of_mem_drop (List.mem_of_mem_take (List.mem_of_mem_drop hc)), ?_⟩
    have e : src.take b = src.take a ++ slice src a b := by
      unfold slice
      have := List.take_add (l := src) (i := a) (j := b - a)
      rw [← this]
      congr 1; omega
    have e2 : slice src a b = p ++ (slice src a b).drop p.length := by
      unfold startsWith at hsw
      split at hsw
      · cases hsw
      · have h := List.take_append_drop p.length (slice src a b)
        rw [beq_iff_eq.1 hsw] at h
        exact h.symm
    have e3 : 1 ≤ quotes p := List.count_pos_iff.2 hp
    rw [e, quotes_append]
    generalize slice src a b = u at *
    have : quotes u = quotes p + quotes (u.drop p.length) := by
      rw [← quotes_append, ← e2]
    omega

theorem blockquoteStart_post (hrec : ∀ s e, Nested src s e → rec s e ≠ .out)
    (hx : isNl x = true) (hm : Mono x src) (hld : LDisp x src st c isLast)
    (hs : st.state = .blockquoteStart) (hq : QInv (Quoted src) src st) (hre : st.realEnd = 0)
    (hc : src[st.current]? = some c) (hlast : isLast = true → st.current + 1 = src.length) :
    Run.Fine True (Post (Quoted src) src isLast st) (blockquoteStart rec src st c isLast) := by
  have hq0 := hq
  simp only [QInv, hs, Quoted] at hq
  obtain ⟨h2, ⟨p, hp, hgt⟩, hsub, hle⟩ := hq
  have hlt := (List.getElem?_eq_some_iff.1 hc).1
  have hstop : st.current ≤ lineStop src st c isLast ∧ lineStop src st c isLast ≤ st.current + 1 ∧
      lineStop src st c isLast ≤ src.length ∧
      (isLast = false → lineStop src st c isLast = st.current) := by
    unfold lineStop
    rw [hre]
    split
    next h => have := hlast h.1; exact ⟨by omega, by omega, by omega, by simp [h.1]⟩
    · simp; omega
  unfold blockquoteStart
  rw [hp]
  split
  · refine Run.Fine.bind (P := fun t => dup src st.start2 (lineStop src st c isLast) = .ok t) ?_ ?_
    · cases h : dup src st.start2 (lineStop src st c isLast) with
      | ok t => rfl
      | ub => trivial
      | out => have := (dup_fine src st.start2 (lineStop src st c isLast)).ne_out h; exact this.elim
    intro tmp htmp
    show Run.Fine _ _ (if _ then _ else _)
    split
    next hsw =>
      obtain ⟨hsub', hcount⟩ := quoted_line htmp (by omega) hsw hgt
      have hall : ∀ l ∈ st.lines ++ [tmp.drop p.length], ∀ c ∈ l, c ∈ src := by
        intro l hl
        rcases List.mem_append.1 hl with h | h
        · exact hsub l h
        · rw [List.mem_singleton.1 h]; exact hsub'
      have hsum : quotes (st.lines ++ [tmp.drop p.length]).flatten + 1 ≤
          quotes (src.take (lineStop src st c isLast)) := by
        rw [List.flatten_append, quotes_append]
        simp only [List.flatten_cons, List.flatten_nil, List.append_nil]
        omega
      show Run.Fine _ _ (if _ then _ else _)
      split
      next hl =>
        refine Post.of (blockquoteEnd_post hrec hx hm hld ⟨p, rfl, hgt⟩ hall ?_ ?_) rfl
          (by simp [rank]) ⟨rfl, rfl, rfl⟩
        · intro _; exact Nat.le_trans hsum (quotes_take_le _ _)
        · intro h; simp [ends, hl] at h
      next hl =>
        refine ⟨.inl rfl, ⟨rfl, rfl, rfl⟩, ⟨p, rfl, hgt⟩, hall, ?_⟩
        refine Nat.le_trans hsum ?_
        rw [hstop.2.2.2 (by simpa using hl)]
        exact (List.take_sublist_take_left (by simp)).count_le _
    · show Run.Fine _ _ (if _ then _ else _)
      split
      · exact ⟨.inr ⟨by assumption, rfl, by simp [hs, rank], rfl⟩, ⟨rfl, rfl, rfl⟩, rfl⟩
      · exact ⟨.inl rfl, ⟨rfl, rfl, rfl⟩, rfl⟩
  · refine ⟨.inl rfl, ⟨rfl, rfl, rfl⟩, ?_⟩
    simp only [QInv, hs, Quoted]
    exact ⟨by omega, ⟨p, hp, hgt⟩, hsub, hle⟩

theorem Marker.next {st : BSt} (h : Marker src st) (hc : src[st.current]? = some c) (hn : isNl c = false) :
    Marker src { st with current := st.current + 1 } := by
  obtain ⟨hl, h12, hlt, hgt, hp⟩ := h
  refine ⟨hl, h12, Nat.lt_succ_of_lt hlt, hgt, fun i d h1 h2 h3 => ?_⟩
  simp only at h1 h2
  by_cases e : i = st.current
  · rw [e, hc] at h3
    injection h3 with h3
    rw [← h3, hn]
  · exact hp i d h1 (by omega) h3

theorem Marker.of {st st' : BSt} (h1 : st'.lines = st.lines) (h2 : st'.start = st.start)
    (h3 : st'.start2 = st.start2) (h4 : st'.current = st.current) (h : Marker src st) : Marker src st' :=
  ⟨by rw [h1]; exact h.1, by rw [h2, h3]; exact h.2, by rw [h3, h4]; exact h.3, by rw [h3]; exact h.4,
    by rw [h3, h4]; exact h.5⟩

theorem notNl_of_isSp (h : isSp c = true) : isNl c = false := by
  simp only [isSp, Bool.or_eq_true, beq_iff_eq] at h
  rcases h with rfl | rfl <;> rfl

theorem takePrefix_quote (hs : st.state = .blockquote) (hm : Marker src st) (hc0 : src[st.current]? = some c) :
    Run.Fine True (Post (Quoted src) src isLast st) (takePrefix src st c .blockquoteStart) := by
  have hc := (List.getElem?_eq_some_iff.1 hc0).1
  obtain ⟨hl, h12, hlt, hgt, _⟩ := id hm
  unfold takePrefix
  split
  · rename_i hsp
    refine ⟨.inl rfl, ⟨rfl, rfl, rfl⟩, ?_⟩
    rw [QInv]
    simp only [hs]
    exact Marker.of (st := { st with current := st.current + 1 }) rfl rfl rfl rfl (hm.next hc0 (notNl_of_isSp hsp))
  · unfold dup
    rw [if_neg (by omega), if_pos (by omega)]
    refine ⟨.inl rfl, ⟨rfl, rfl, rfl⟩, ?_⟩
    refine ⟨?_, ⟨_, rfl, ?_⟩, ?_, ?_⟩
    · simp only; omega
    · rw [h12]
      unfold slice
      have hlt' := (List.getElem?_eq_some_iff.1 hgt).1
      rw [List.drop_eq_getElem_cons hlt', (List.getElem?_eq_some_iff.1 hgt).2]
      obtain ⟨k, hk⟩ : ∃ k, st.current - st.start2 = k + 1 := ⟨st.current - st.start2 - 1, by omega⟩
      rw [hk, List.take_succ_cons]
      exact List.mem_cons_self
    · rw [hl]; simp
    · rw [hl]; simp [quotes]

/-- Outside of lists and code, and of quotations, no lines are collected. -/
def Idle (st : BSt) : Prop :=
  match st.state with
  | .blockquote | .blockquoteStart | .blockquoteEnd | .codeStart | .codeEnd | .ulStart | .ulEnd | .olStart
  | .olEnd => True
  | _ => st.lines = []

theorem QInv.marker {st : BSt} (h : QInv K src st) (hs : st.state = .blockquote) : Marker src st := by
  unfold QInv at h
  rw [hs] at h
  exact h

theorem QInv.quoted {st : BSt} (h : QInv K src st) (hs : st.state = .blockquoteStart ∨ st.state = .blockquoteEnd) :
    K st := by
  unfold QInv at h
  rcases hs with hs | hs <;> rw [hs] at h <;> exact h

theorem QInv.idle {st : BSt} (h : QInv K src st) : Idle st := by
  unfold QInv at h
  unfold Idle
  cases e : st.state <;> simp only [e] at h ⊢ <;> exact h

theorem Idle.of {st st' : BSt} (h : Idle st) (hs : st'.state = st.state) (hl : st'.lines = st.lines) : Idle st' := by
  unfold Idle at *
  rw [hs, hl]
  exact h

/-- An iteration, given what it does to quotations. -/
theorem dispatch_post
    (h1 : st.state = .blockquote →
      Run.Fine True (Post K src isLast st) (takePrefix src st c .blockquoteStart))
    (h2 : st.state = .blockquoteStart → Run.Fine True (Post K src isLast st) (blockquoteStart rec src st c isLast))
    (h3 : st.state = .blockquoteEnd → Run.Fine True (Post K src isLast st) (blockquoteEnd rec st c isLast))
    (hq : Idle st) (hc : src[st.current]? = some c) :
    Run.Fine True (Post K src isLast st) (dispatch fx rec src w st c isLast) := by
  unfold dispatch
  cases h : st.state <;> simp only <;> simp only [Idle, h] at hq
  case startLine =>
    unfold startLine
    simp only
    repeat' split
    case isTrue => exact ⟨.inl rfl, ⟨rfl, rfl, rfl⟩, by simp [QInv, h, hq]⟩
    all_goals first
      | exact ⟨.inl rfl, ⟨rfl, rfl, rfl⟩, hq⟩
      | (refine ⟨.inl rfl, ⟨rfl, rfl, rfl⟩, hq, rfl, Nat.lt_succ_self _, by simp_all, ?_⟩
         intro i d hi1 hi2 hi3
         have : i = st.current := Nat.le_antisymm (Nat.le_of_lt_succ hi2) hi1
         rw [this, hc] at hi3
         injection hi3 with hi3
         subst hi3
         rename_i hgt
         rw [hgt]; rfl)
  case excerpt =>
    unfold excerpt; repeat' split
    all_goals first
      | exact ⟨.inl rfl, ⟨rfl, rfl, rfl⟩, hq⟩
      | exact ⟨.inl rfl, ⟨rfl, rfl, rfl⟩, by simp [QInv, h, hq]⟩
  case excerptEnd => unfold excerptEnd; split <;> exact ⟨.inl rfl, ⟨rfl, rfl, rfl⟩, hq⟩
  case header =>
    unfold header; repeat' split
    all_goals first
      | exact ⟨.inl rfl, ⟨rfl, rfl, rfl⟩, hq⟩
      | exact ⟨.inl rfl, ⟨rfl, rfl, rfl⟩, by simp [QInv, h, hq]⟩
  case headerTitleStart =>
    unfold headerTitleStart
    split
    · exact ⟨.inl rfl, ⟨rfl, rfl, rfl⟩, by simp [QInv, h, hq]⟩
    · split
      · exact ⟨.inl rfl, ⟨rfl, rfl, rfl⟩, hq⟩
      · exact Post.of (headerTitle_post (.inr h) hq) rfl (Nat.le_refl _) ⟨rfl, rfl, rfl⟩
  case headerTitle => exact headerTitle_post (.inl h) hq
  case html =>
    unfold html
    simp only
    split
    · refine Post.of (htmlEnd_post ?_) ?_ ?_ ?_
      · split <;> exact hq
      · split <;> rfl
      · split <;> simp [h, rank]
      · split <;> exact ⟨rfl, rfl, rfl⟩
    · split
      · exact ⟨.inl rfl, ⟨rfl, rfl, rfl⟩, hq⟩
      · exact ⟨.inl rfl, ⟨rfl, rfl, rfl⟩, by simp [QInv, h, hq]⟩
  case htmlEnd => exact htmlEnd_post hq
  case blockquote => exact h1 h
  case blockquoteStart => exact h2 h
  case blockquoteEnd => exact h3 h
  case code =>
    unfold takePrefix
    split
    · exact ⟨.inl rfl, ⟨rfl, rfl, rfl⟩, by simp [QInv, h, hq]⟩
    · exact (dup_fine _ _ _).bind fun _ _ => ⟨.inl rfl, ⟨rfl, rfl, rfl⟩, trivial⟩
  case codeStart => exact codeStart_post h
  case codeEnd => exact codeEnd_post
  case ulOrHrOrEm =>
    unfold ulOrHrOrEm
    repeat' split
    · exact ⟨.inl rfl, ⟨rfl, rfl, rfl⟩, hq⟩
    · exact ⟨.inl rfl, ⟨rfl, rfl, rfl⟩, hq⟩
    · unfold takePrefix
      split
      · exact ⟨.inl rfl, ⟨rfl, rfl, rfl⟩, by simp [QInv, h, hq]⟩
      · exact (dup_fine _ _ _).bind fun _ _ => ⟨.inl rfl, ⟨rfl, rfl, rfl⟩, trivial⟩
  case hrOrEm =>
    unfold hrOrEm
    repeat' split
    · exact ⟨.inr ⟨by assumption, rfl, by simp [h, rank], rfl⟩, ⟨rfl, rfl, rfl⟩, hq⟩
    · exact ⟨.inl rfl, ⟨rfl, rfl, rfl⟩, hq⟩
    · exact ⟨.inl rfl, ⟨rfl, rfl, rfl⟩, hq⟩
  case hr =>
    unfold hr; repeat' split
    all_goals first
      | exact ⟨.inl rfl, ⟨rfl, rfl, rfl⟩, hq⟩
      | exact ⟨.inl rfl, ⟨rfl, rfl, rfl⟩, by simp [QInv, h, hq]⟩
  case ulStart => exact ulStart_post h
  case ulEnd => exact listEnd_post _ _ (.inl rfl)
  case ol =>
    unfold ol
    repeat' split
    · exact ⟨.inl rfl, ⟨rfl, rfl, rfl⟩, by simp [QInv, h, hq]⟩
    · exact ⟨.inl rfl, ⟨rfl, rfl, rfl⟩, hq⟩
    · exact ⟨.inr ⟨by assumption, rfl, by simp [h, rank], rfl⟩, ⟨rfl, rfl, rfl⟩, hq⟩
    · exact ⟨.inl rfl, ⟨rfl, rfl, rfl⟩, hq⟩
  case olSpace =>
    unfold olSpace
    split
    · exact ⟨.inl rfl, ⟨rfl, rfl, rfl⟩, by simp [QInv, h, hq]⟩
    · show Run.Fine _ _ (if _ then _ else _)
      split
      · exact ⟨.inl rfl, ⟨rfl, rfl, rfl⟩, trivial⟩
      · exact Post.of (olStart_post rfl) rfl (by simp [h, rank]) ⟨rfl, rfl, rfl⟩
  case olStart => exact olStart_post h
  case olEnd => exact listEnd_post _ _ (.inr rfl)
  case paragraph =>
    unfold paragraph
    simp only
    split
    · refine Post.of (paragraphEnd_post ?_) ?_ ?_ ?_
      · split <;> exact hq
      · split <;> rfl
      · split <;> simp [h, rank]
      · split <;> exact ⟨rfl, rfl, rfl⟩
    · split
      · exact ⟨.inl rfl, ⟨rfl, rfl, rfl⟩, hq⟩
      · exact ⟨.inl rfl, ⟨rfl, rfl, rfl⟩, by simp [QInv, h, hq]⟩
  case paragraphEnd => exact paragraphEnd_post hq

theorem dispatch_mono (hrec : ∀ s e, Nested src s e → rec s e ≠ .out)
    (hx : isNl x = true) (hm : Mono x src) (hld : LDisp x src st c isLast)
    {st0 : BSt} (hst : ∃ a b, st = { st0 with lineEnding := a, lineEndingFound := b })
    (hq0 : QInv (Quoted src) src st0) (hre : st.realEnd = 0)
    (hc : src[st.current]? = some c) (hlast : isLast = true → st.current + 1 = src.length) :
    Run.Fine True (Post (Quoted src) src isLast st) (dispatch fx rec src w st c isLast) := by
  obtain ⟨a, b, rfl⟩ := hst
  have hq : QInv (Quoted src) src { st0 with lineEnding := a, lineEndingFound := b } := by
    unfold QInv at *
    cases e : st0.state <;> simp only [e, Quoted] at hq0 ⊢ <;>
      first | exact hq0 | exact ⟨hq0.1, hq0.2, hq0.3, hq0.4, hq0.5⟩
  refine dispatch_post (fun h => ?_)
    (fun h => blockquoteStart_post hrec hx hm hld h hq hre hc hlast) (fun h => ?_) hq.idle hc
  · exact takePrefix_quote h (hq.marker h) hc
  · have hk := hq.quoted (.inr h)
    unfold Quoted at hk
    rw [h] at hk
    obtain ⟨h1, h2, h3⟩ := hk
    exact blockquoteEnd_post hrec hx hm hld h1 h2 (fun _ => Nat.le_trans h3 (quotes_take_le _ _)) (fun _ => h3)

/-- A step after which the character is behind the position, or the position is the same. -/
theorem post_step {st' : BSt} (h : st.current < src.length) (h1 : st'.current = st.current)
    (h2 : st'.state = st.state) (h3 : st'.realEnd = 0)
    (h4 : st'.lineEnding = [x] ∨ (st'.lineEndingFound = false ∧ st'.lineEnding = b!"\n" ∧
      ∀ c ∈ src.take (st.current + 1), isNl c = false))
    (r : BSt ⊕ BSt) (hr : Post (Quoted src) src isLast st' r) :
    StepFine (TInv x src) (bmeasure src) (fun _ => True) st r := by
  cases r with
  | inr _ => trivial
  | inl s =>
    obtain ⟨hs, ⟨k1, k2, k3⟩, hq⟩ := hr
    refine ⟨⟨by rw [k3, h3], ?_, hq⟩, decreases_of_shape h (by omega) h2 (.inl s) hs.shape⟩
    rcases h4 with h4 | ⟨a, b, d⟩
    · exact .inl (by rw [k1, h4])
    · refine .inr ⟨by rw [k2, a], by rw [k1, b], fun c hc => d c ?_⟩
      have : s.current ≤ st.current + 1 := by
        rcases hs with hs | ⟨_, hs, _⟩ <;> omega
      exact (List.take_sublist_take_left this).subset hc

theorem take_succ_nl {k : Nat} (hc : src[k]? = some c) (hn : isNl c = false)
    (h : ∀ c ∈ src.take k, isNl c = false) : ∀ c ∈ src.take (k + 1), isNl c = false := by
  intro d hd
  rw [List.take_add_one, hc] at hd
  rcases List.mem_append.1 hd with hd | hd
  · exact h d hd
  · simp only [Option.toList, List.mem_singleton] at hd
    rw [hd]; exact hn

theorem blockStep_tinv (hrec : ∀ s e, Nested src s e → rec s e ≠ .out)
    (hx : isNl x = true) (hm : Mono x src) (hI : TInv x src st) :
    Run.Fine True (StepFine (TInv x src) (bmeasure src) (fun _ => True) st)
      (blockStep fx rec src w st) := by
  obtain ⟨hre, hle, hq⟩ := hI
  unfold blockStep
  split
  · trivial
  next c hc =>
    have hlt := (List.getElem?_eq_some_iff.1 hc).1
    have hmem : c ∈ src := List.mem_of_getElem? hc
    have hnl : isNl c = true →
        (if st.lineEndingFound = true then st.lineEnding else [c]) = [x] := by
      intro h
      split
      next hf =>
        rcases hle with h | ⟨h, _⟩
        · exact h
        · rw [h] at hf; cases hf
      · rw [hm c hmem h]
    split
    next h =>
      split
      next c' hc' =>
        split
        next hp =>
          exfalso
          have e1 := hm c hmem h
          have : isNl c' = true := by
            simp only [isPair, Bool.or_eq_true, Bool.and_eq_true, beq_iff_eq] at hp
            rcases hp with ⟨_, rfl⟩ | ⟨_, rfl⟩ <;> rfl
          have e2 := hm c' (List.mem_of_getElem? hc') this
          rw [e1, e2] at hp
          simp only [isPair, Bool.or_eq_true, Bool.and_eq_true, beq_iff_eq] at hp
          rcases hp with ⟨h1, h2⟩ | ⟨h1, h2⟩ <;> rw [h1] at h2 <;> exact absurd h2 (by decide)
        · refine Run.Fine.mono (dispatch_mono (x := x) (st0 := st) hrec hx hm ?_ ?_ ?_ ?_ ?_ ?_) id ?_
          · exact .inl (hnl h)
          · exact ⟨_, _, rfl⟩
          · exact hq
          · exact hre
          · exact hc
          · simp
          · intro r hr
            refine post_step hlt ?_ ?_ ?_ ?_ r hr
            · rfl
            · rfl
            · exact hre
            · exact .inl (hnl h)
      next hc' =>
        refine Run.Fine.mono (dispatch_mono (x := x) (st0 := st) hrec hx hm ?_ ?_ ?_ ?_ ?_ ?_) id ?_
        · exact .inl (hnl h)
        · exact ⟨_, _, rfl⟩
        · exact hq
        · exact hre
        · exact hc
        · intro _
          have := List.getElem?_eq_none_iff.1 hc'
          simp only; omega
        · intro r hr
          refine post_step hlt ?_ ?_ ?_ ?_ r hr
          · rfl
          · rfl
          · exact hre
          · exact .inl (hnl h)
    next h =>
      have hn : isNl c = false := by simpa using h
      refine (dispatch_mono (x := x) hrec hx hm ?_ ⟨_, _, rfl⟩ hq hre hc ?_).mono id ?_
      · rcases hle with h | ⟨a, b, d⟩
        · exact .inl h
        · refine .inr ⟨b, hn, fun hl => ?_⟩
          have e : st.current + 1 = src.length := by
            have := beq_iff_eq.1 hl; omega
          have := take_succ_nl hc hn d
          rwa [e, List.take_length] at this
      · intro hl
        have : st.current = src.length - 1 := beq_iff_eq.1 hl
        show st.current + 1 = src.length
        omega
      · refine fun r hr => post_step hlt rfl rfl hre ?_ r hr
        rcases hle with h | ⟨a, b, d⟩
        · exact .inl h
        · exact .inr ⟨a, b, take_succ_nl hc hn d⟩

/-- Nested calls end when the text has one kind of newline. -/
theorem parseBlocks_ends (fx : Bool) (x : Byte) (hx : isNl x = true) : ∀ (depth : Nat) (src : Str) (w : Want)
    (endl : Option Str), Mono x src → (endl = none ∨ endl = some [x]) → quotes src < depth →
    parseBlocks fx depth src w endl ≠ .out := by
  intro depth
  induction depth generalizing x with
  | zero => intro src w endl _ _ h; omega
  | succ d ih =>
    intro src w endl hm he hd
    rw [parseBlocks]
    refine (runL_fine (A := True) (I := TInv x src) (μ := bmeasure src) (P := fun _ => True)
      (fun s hs => blockStep_tinv ?_ hx hm hs) (2 * src.length + 2) (BSt.init endl) ?_ ?_).ne_out
    · intro s e ⟨hlt, y, hy, hye, hys⟩ hout
      subst hye
      have := ih y hy s ⟨false, false, false, false⟩ (some [y]) hys (.inr rfl) (by omega)
      cases hp : parseBlocks fx d s ⟨false, false, false, false⟩ (some [y]) with
      | out => exact this hp
      | ok r => rw [hp] at hout; cases hout
      | ub => rw [hp] at hout; cases hout
    · refine ⟨rfl, ?_, rfl⟩
      rcases he with rfl | rfl
      · exact .inr ⟨rfl, rfl, by simp [BSt.init]⟩
      · exact .inl rfl
    · simp [bmeasure, BSt.init, rank]

end Blogc.Content
