import Verif.Spec.Inline
import Verif.Lemmas.Inline

/-!
# The inline parser on texts written as documented
-/

namespace Blogc.InlineDoc

open Blogc Blogc.Content Blogc.Spec

theorem shown_eq (c : Byte) : shown c = entity c := by
  have : ∀ n : Fin 256, shown (UInt8.ofFin n) = entity (UInt8.ofFin n) := by decide +kernel
  exact this c.toFin

theorem shownAll_eq (s : Str) : shownAll s = htmlentities s := by
  unfold shownAll htmlentities
  rw [show shown = entity from funext shown_eq]

/-- Some number of iterations lead to the result. -/
def Leads (rec : Str → Nat → Run Str) (mem : Str) (len : Nat) (st : ISt) (out : Str) : Prop :=
  ∃ k, ∀ n, runL (inlineStep rec mem len) (n + k) st = .ok out

variable {rec : Str → Nat → Run Str} {mem : Str} {len : Nat} {st st' : ISt} {out : Str} {c : Byte}

theorem Leads.step (h : inlineStep rec mem len st = .ok (.inl st')) (h' : Leads rec mem len st' out) :
    Leads rec mem len st out := by
  obtain ⟨k, hk⟩ := h'
  refine ⟨k + 1, fun n => ?_⟩
  rw [← Nat.add_assoc, runL, h]
  exact hk n

theorem Leads.done (h : inlineStep rec mem len st = .ok (.inr out)) : Leads rec mem len st out :=
  ⟨1, fun n => by rw [runL, h]⟩

/-- One iteration, by state. -/
def body (rec : Str → Nat → Run Str) (mem : Str) (len : Nat) (st : ISt) (c : Byte) : Run (ISt ⊕ Str) :=
  match st.state with
  | .start => inlineStart mem st c (st.current == len - 1)
  | .asterisk => inlineEm rec mem len st c c!"*" .asteriskDouble
  | .asteriskDouble => inlineStrong rec mem len st c!"*"
  | .underscore => inlineEm rec mem len st c c!"_" .underscoreDouble
  | .underscoreDouble => inlineStrong rec mem len st c!"_"
  | .backticks => inlineCode mem len st c
  | .backticksDouble => inlineCodeDouble mem len st
  | .linkAuto => inlineLinkAuto mem len st
  | .linkStart | .linkContent | .linkUrlStart | .linkUrl => inlineLink rec mem st c
  | .imageStart | .imageAlt | .imageUrlStart | .imageUrl => inlineImage mem st c
  | .endash | .emdash | .lineBreakStart | .lineBreak => inlineDash st c (st.current == len - 1)

theorem step_eq (hlt : st.current < len) (hg : mem[st.current]? = some c) :
    inlineStep rec mem len st = body rec mem len st c := by
  unfold inlineStep body
  rw [if_pos hlt, hg]
  rfl

/-- The part of the text from `current` on, up to `len`, is `s`. -/
def At (mem : Str) (len : Nat) (st : ISt) (s : Str) : Prop :=
  ∃ pre tail, mem = pre ++ s ++ tail ∧ st.current = pre.length ∧ len = pre.length + s.length

theorem At.get {s : Str} (h : At mem len st (c :: s)) :
    st.current < len ∧ mem[st.current]? = some c := by
  obtain ⟨pre, tail, rfl, h1, h2⟩ := h
  refine ⟨by simp at h2; omega, ?_⟩
  rw [h1]
  simp

theorem At.skip {s t : Str} (h : At mem len st (s ++ t)) (h' : st'.current = st.current + s.length) :
    At mem len st' t := by
  obtain ⟨pre, tail, rfl, h1, h2⟩ := h
  refine ⟨pre ++ s, tail, by simp, by simp [h', h1], ?_⟩
  simp at h2 ⊢
  omega

theorem At.next {s : Str} (h : At mem len st (c :: s)) (h' : st'.current = st.current + 1) :
    At mem len st' s := At.skip (s := [c]) h h'

theorem At.last {s : Str} (h : At mem len st (c :: s)) :
    (st.current == len - 1) = s.isEmpty := by
  obtain ⟨pre, tail, rfl, h1, h2⟩ := h
  simp at h2
  cases s with
  | nil => simp at h2; simp; omega
  | cons d s => simp at h2; simp; omega

theorem At.congr {s : Str} (h : At mem len st s) (h' : st'.current = st.current) : At mem len st' s := by
  obtain ⟨pre, tail, h0, h1, h2⟩ := h
  exact ⟨pre, tail, h0, by rw [h', h1], h2⟩

/-- The slice of what has been read since `st`. -/
theorem At.slice {s t : Str} (h : At mem len st (s ++ t)) :
    Blogc.slice mem st.current (st.current + s.length) = s := by
  obtain ⟨pre, tail, rfl, h1, h2⟩ := h
  unfold Blogc.slice
  rw [h1]
  simp

theorem At.drop {s : Str} (h : At mem len st s) :
    ∃ tail, mem.drop st.current = s ++ tail ∧ len = st.current + s.length := by
  obtain ⟨pre, tail, rfl, h1, h2⟩ := h
  exact ⟨tail, by rw [h1]; simp, by rw [h1, h2]⟩

theorem leads_end (h : At mem len st []) (hs : st.state = .start) : Leads rec mem len st st.rv := by
  refine Leads.done ?_
  obtain ⟨pre, tail, rfl, h1, h2⟩ := h
  unfold inlineStep
  rw [if_neg (by simp at h2; omega)]
  simp [inlineEnd, hs]

/-! ### Searching for closing bytes -/

theorem findLoop_upto {d : Byte} (h0 : d ≠ 0) (hb : d ≠ c!"\\") {t u : Str} (h : Upto d t u)
    (hn : NulFree t) (rest : Str) :
    ∀ i, findLoop d (t ++ d :: rest) i = .ok (some (i + t.length)) := by
  induction h with
  | nil =>
    intro i
    rw [List.nil_append, findLoop.eq_def]
    simp only [if_neg h0, if_neg hb, if_true]
    rfl
  | @pair x s u _ ih =>
    intro i
    rw [show c!"\\" :: x :: s ++ d :: rest = c!"\\" :: x :: (s ++ d :: rest) from rfl, findLoop.eq_def]
    simp only
    rw [if_neg (by decide), if_pos trivial, ih (fun b hb => hn b (by simp [hb]))]
    simp only [List.length_cons]
    congr 2
    omega
  | @byte c s u h1 h2 _ ih =>
    intro i
    rw [List.cons_append, findLoop.eq_def]
    simp only
    rw [if_neg (hn c (by simp)), if_neg h1, if_neg h2,
      ih (fun b hb => hn b (by simp [hb]))]
    simp only [List.length_cons]
    congr 2
    omega

theorem find_upto {d : Byte} (h0 : d ≠ 0) (hb : d ≠ c!"\\") {t u : Str} (h : Upto d t u)
    (hn : NulFree t) (rest : Str) : find (t ++ d :: rest) d = .ok (some t.length) := by
  rw [find, if_neg h0, List.append_assoc, List.cons_append, findLoop_upto h0 hb h hn]
  simp

/-- The closing byte is found. -/
theorem findSingle_upto {d : Byte} (h0 : d ≠ 0) (hb : d ≠ c!"\\") {t u s : Str} (h : Upto d t u)
    (hn : NulFree t) (ha : At mem len st (t ++ d :: s)) :
    findSingle mem len d st.current = .ok (some (st.current + t.length)) := by
  obtain ⟨tail, hd, hl⟩ := ha.drop
  unfold findSingle
  rw [hd, List.append_assoc, List.cons_append, find_upto h0 hb h hn]
  simp only [Run.ofRes_ok, Run.bind_ok, Run.pure_eq]
  rw [if_neg (by simp at hl; omega)]

/-- Either there is no closing byte, or there is a first one, followed by another byte. -/
theorem noPair_cases {d : Byte} {t : Str} (h : NoPair d t) :
    (∃ u, Upto d t u) ∨ ∃ a u x v, t = a ++ d :: x :: v ∧ Upto d a u ∧ x ≠ d ∧ NoPair d (x :: v) := by
  induction h with
  | nil => exact .inl ⟨_, .nil⟩
  | pair x _ ih =>
    rcases ih with ⟨u, hu⟩ | ⟨a, u, y, v, rfl, hu, hy, hv⟩
    · exact .inl ⟨_, .pair x hu⟩
    · exact .inr ⟨_, _, y, v, rfl, .pair x hu, hy, hv⟩
  | @byte c s h1 h2 hs ih =>
    by_cases hc : c = d
    · subst hc
      obtain ⟨x, r, rfl, hx⟩ := h2 rfl
      exact .inr ⟨[], [], x, r, rfl, .nil, hx, hs⟩
    · rcases ih with ⟨u, hu⟩ | ⟨a, u, y, v, rfl, hu, hy, hv⟩
      · exact .inl ⟨_, .byte h1 hc hu⟩
      · exact .inr ⟨_, _, y, v, rfl, .byte h1 hc hu, hy, hv⟩

theorem getD_after (pre t r : Str) (d x : Byte) :
    (pre ++ t ++ d :: x :: r).getD (pre.length + t.length + 1) 0 = x := by
  rw [show pre ++ t ++ d :: x :: r = (pre ++ t ++ [d]) ++ x :: r by simp,
    show pre.length + t.length + 1 = (pre ++ t ++ [d]).length by simp; omega,
    List.getD_eq_getElem?_getD, List.getElem?_append_right (Nat.le_refl _)]
  simp

theorem findDouble_aux {d : Byte} (h0 : d ≠ 0) (hb : d ≠ c!"\\") :
    ∀ (n : Nat) (t s pre tail : Str) (fuel : Nat), t.length ≤ n → NoPair d t → NulFree t →
      mem = pre ++ (t ++ d :: d :: s) ++ tail → len = pre.length + (t ++ d :: d :: s).length →
      t.length < fuel →
      findDouble mem len d fuel pre.length = .ok (some (pre.length + t.length)) := by
  intro n
  induction n using Nat.strongRecOn with
  | _ n ih =>
  intro t s pre tail fuel hle h hn hm hl hf
  cases fuel with
  | zero => omega
  | succ f =>
  have hd : mem.drop pre.length = t ++ d :: d :: (s ++ tail) := by rw [hm]; simp
  rw [findDouble]
  simp only [List.length_append, List.length_cons] at hl
  rcases noPair_cases h with ⟨u, hu⟩ | ⟨a, u, x, v, rfl, hu, hx, hv⟩
  · rw [hd, find_upto h0 hb hu hn]
    simp only [Run.ofRes_ok, Run.bind_ok]
    rw [if_pos]
    · rfl
    · refine ⟨by omega, ?_⟩
      have := getD_after pre t (s ++ tail) d d
      rw [hm]
      simpa using this
  · have hna : NulFree a := fun b hb => hn b (by simp [hb])
    have hnv : NulFree (x :: v) := fun b hb => hn b (List.mem_append_right _ (List.mem_cons_of_mem _ hb))
    simp only [List.length_append, List.length_cons] at hl hle hf
    rw [hd, show a ++ d :: x :: v ++ d :: d :: (s ++ tail) = a ++ d :: (x :: v ++ d :: d :: (s ++ tail))
      by simp, find_upto h0 hb hu hna]
    simp only [Run.ofRes_ok, Run.bind_ok]
    rw [if_neg, if_pos (by omega)]
    · have := ih (n - 1) (by omega) (x :: v) s (pre ++ a ++ [d]) tail f (by simp; omega) hv hnv
        (by rw [hm]; simp) (by simp; omega) (by simp; omega)
      simp only [List.length_append, List.length_cons, List.length_nil] at this
      rw [show pre.length + a.length + 1 = pre.length + a.length + (0 + 1) from rfl, this]
      simp only [List.length_append, List.length_cons]
      congr 2
      omega
    · rintro ⟨_, he⟩
      apply hx
      have := getD_after pre a (v ++ d :: d :: (s ++ tail)) d x
      rw [← he, hm]
      simpa using this.symm

theorem findDouble_noPair {d : Byte} (h0 : d ≠ 0) (hb : d ≠ c!"\\") {t s : Str} (h : NoPair d t)
    (hn : NulFree t) (ha : At mem len st (t ++ d :: d :: s)) :
    findDouble mem len d (mem.length + 1) st.current = .ok (some (st.current + t.length)) := by
  obtain ⟨pre, tail, hm, h1, h2⟩ := ha
  rw [h1]
  refine findDouble_aux h0 hb t.length t s pre tail _ (Nat.le_refl _) h hn hm h2 ?_
  rw [hm]
  simp
  omega

/-! ### One element -/

/-- What is asked of nested calls: texts written as documented get their HTML. -/
def Nested (rec : Str → Nat → Run Str) (n : Nat) (t ht : Str) : Prop :=
  ∀ tail : Str, (t ++ tail).length < n → rec (t ++ tail) t.length = .ok ht

theorem spaces_entity : entity c!" " = b!" " := by decide

/-- One byte is read, and `o` is written, in the start state. -/
theorem leads_out {s o : Str} (ha : At mem len st (c :: s)) (hs : st.state = .start)
    (hb : inlineStart mem st c s.isEmpty = (st.add o).brk)
    (h : ∀ st', At mem len st' s → st'.state = .start → st'.rv = st.rv ++ o →
      Leads rec mem len st' out) : Leads rec mem len st out := by
  have hst : inlineStep rec mem len st = (st.add o).brk := by
    rw [step_eq ha.get.1 ha.get.2]
    simp only [body, hs, ha.last, hb]
  refine Leads.step hst (h _ (ha.next rfl) hs rfl)

theorem leads_char {s : Str} (ha : At mem len st (c :: s)) (hs : st.state = .start)
    (hc : c ∉ b!"\\*_`[!- ")
    (h : ∀ st', At mem len st' s → st'.state = .start → st'.rv = st.rv ++ shown c →
      Leads rec mem len st' out) : Leads rec mem len st out := by
  refine leads_out ha hs ?_ h
  rw [shown_eq]
  simp only [List.mem_cons, List.not_mem_nil, or_false, not_or] at hc
  obtain ⟨m1, m2, m3, m4, m5, m6, m7, m8⟩ := hc
  simp only [inlineStart, if_neg m1, if_neg m2, if_neg m3, if_neg m4, if_neg m5, if_neg m6,
    if_neg m7, if_neg m8, ite_self]

theorem leads_escape {s : Str} (ha : At mem len st (c!"\\" :: c :: s)) (hs : st.state = .start)
    (h : ∀ st', At mem len st' s → st'.state = .start → st'.rv = st.rv ++ shown c →
      Leads rec mem len st' out) : Leads rec mem len st out := by
  have h2 : mem[st.current + 1]? = some c :=
    (ha.next (st' := { st with current := st.current + 1 }) rfl).get.2
  have hst : inlineStep rec mem len st =
      .ok (.inl { st with current := st.current + 2, rv := st.rv ++ entity c }) := by
    rw [step_eq ha.get.1 ha.get.2]
    simp only [body, hs, ha.last, inlineStart, List.isEmpty_cons, h2]
    rfl
  refine Leads.step hst (h _ ?_ hs (by rw [shown_eq]))
  exact At.skip (s := [c!"\\", c]) ha rfl

/-- Enter another state. -/
theorem leads_goto {s : Str} {d : Byte} {q : IState} (hq : (d, q) ∈ [(c!"*", IState.asterisk),
      (c!"_", .underscore), (c!"`", .backticks), (c!"[", .linkStart), (c!"!", .imageStart),
      (c!"-", .endash), (c!" ", .lineBreakStart)])
    (ha : At mem len st (d :: s)) (hs : st.state = .start) (hne : s ≠ [])
    (h : Leads rec mem len { st with current := st.current + 1, state := q } out) :
    Leads rec mem len st out := by
  have he : s.isEmpty = false := by cases s <;> simp_all
  refine Leads.step ?_ h
  rw [step_eq ha.get.1 ha.get.2]
  simp only [List.mem_cons, List.not_mem_nil, or_false, Prod.mk.injEq] at hq
  rcases hq with ⟨rfl, rfl⟩ | ⟨rfl, rfl⟩ | ⟨rfl, rfl⟩ | ⟨rfl, rfl⟩ | ⟨rfl, rfl⟩ | ⟨rfl, rfl⟩ |
    ⟨rfl, rfl⟩ <;> simp only [body, hs, ha.last, he, inlineStart] <;> rfl

/-- The last byte of a text stands for itself. -/
theorem leads_last (ha : At mem len st [c]) (hs : st.state = .start) :
    Leads rec mem len st (st.rv ++ entity c) := by
  refine leads_out (o := entity c) ha hs (by simp [inlineStart]) fun st' ha' hs' hr => ?_
  have := leads_end (rec := rec) ha' hs'
  rwa [hr] at this

theorem leads_back {s : Str} {o : Str} (ha : At mem len st (c :: s))
    (hb : body rec mem len st c = ((st.add o).goto .start).cont)
    (h : ∀ st', At mem len st' (c :: s) → st'.state = .start → st'.rv = st.rv ++ o →
      Leads rec mem len st' out) : Leads rec mem len st out := by
  have hst : inlineStep rec mem len st = ((st.add o).goto .start).cont := by
    rw [step_eq ha.get.1 ha.get.2, hb]
  exact Leads.step hst (h _ (ha.congr rfl) rfl rfl)

/-- A read byte that closes an element. -/
theorem leads_close {s : Str} {o : Str} (ha : At mem len st (c :: s))
    (hb : body rec mem len st c = ((st.add o).goto .start).brk)
    (h : ∀ st', At mem len st' s → st'.state = .start → st'.rv = st.rv ++ o →
      Leads rec mem len st' out) : Leads rec mem len st out := by
  have hst : inlineStep rec mem len st = ((st.add o).goto .start).brk := by
    rw [step_eq ha.get.1 ha.get.2, hb]
  exact Leads.step hst (h _ (ha.next rfl) rfl rfl)

/-- The rest of the text, from the start state. -/
def Rest (rec : Str → Nat → Run Str) (mem : Str) (len : Nat) (s : Str) (o : Str) (out : Str) : Prop :=
  ∀ st', At mem len st' s → st'.state = .start → st'.rv = o → Leads rec mem len st' out

theorem leads_dash {s : Str} (ha : At mem len st (c!"-" :: s)) (hs : st.state = .start)
    (hno : ∀ r, s ≠ c!"-" :: r) (h : Rest rec mem len s (st.rv ++ b!"-") out) :
    Leads rec mem len st out := by
  cases s with
  | nil => exact leads_out ha hs (by simp [inlineStart]; rfl) h
  | cons x s =>
    refine leads_goto (q := .endash) (by simp) ha hs (by simp) ?_
    refine leads_back (o := b!"-") (ha.next rfl) ?_ h
    have : x ≠ c!"-" := fun e => hno s (by rw [e])
    simp [body, inlineDash, this]

theorem leads_enDash {s : Str} (ha : At mem len st (c!"-" :: c!"-" :: s)) (hs : st.state = .start)
    (hno : ∀ r, s ≠ c!"-" :: r) (h : Rest rec mem len s (st.rv ++ b!"&ndash;") out) :
    Leads rec mem len st out := by
  refine leads_goto (q := .endash) (by simp) ha hs (by simp) ?_
  have ha' : At mem len { st with current := st.current + 1, state := .endash } (c!"-" :: s) :=
    ha.next rfl
  cases s with
  | nil =>
    refine leads_close (o := b!"&ndash;") ha' ?_ h
    have := ha'.last
    simp only at this
    simp [body, inlineDash, this]
  | cons x s =>
    refine Leads.step (st' := { st with current := st.current + 2, state := .emdash }) ?_ ?_
    · rw [step_eq ha'.get.1 ha'.get.2]
      have := ha'.last
      simp only at this
      simp [body, inlineDash, this, ISt.brk, ISt.goto]
    · refine leads_back (o := b!"&ndash;") (At.skip (s := b!"--") ha rfl) ?_ h
      have : x ≠ c!"-" := fun e => hno s (by rw [e])
      simp [body, inlineDash, this]

theorem leads_emDash {s : Str} (ha : At mem len st (c!"-" :: c!"-" :: c!"-" :: s))
    (hs : st.state = .start) (h : Rest rec mem len s (st.rv ++ b!"&mdash;") out) :
    Leads rec mem len st out := by
  refine leads_goto (q := .endash) (by simp) ha hs (by simp) ?_
  have ha' : At mem len { st with current := st.current + 1, state := .endash }
      (c!"-" :: c!"-" :: s) := ha.next rfl
  refine Leads.step (st' := { st with current := st.current + 2, state := .emdash }) ?_ ?_
  · rw [step_eq ha'.get.1 ha'.get.2]
    have := ha'.last
    simp only at this
    simp [body, inlineDash, this, ISt.brk, ISt.goto]
  · exact leads_close (o := b!"&mdash;") (At.skip (s := b!"--") ha rfl) (by simp [body, inlineDash]) h

theorem leads_bang {s : Str} (ha : At mem len st (c!"!" :: s)) (hs : st.state = .start)
    (hno : ∀ r, s ≠ c!"[" :: r) (h : Rest rec mem len s (st.rv ++ b!"!") out) :
    Leads rec mem len st out := by
  cases s with
  | nil => exact leads_out ha hs (by simp [inlineStart]; rfl) h
  | cons x s =>
    refine leads_goto (q := .imageStart) (by simp) ha hs (by simp) ?_
    refine leads_back (o := b!"!") (ha.next rfl) ?_ h
    have : x ≠ c!"[" := fun e => hno s (by rw [e])
    simp [body, inlineImage, this]

/-! ### Blanks -/

/-- Blanks counted in the line break state. -/
theorem leads_blanks {s : Str} : ∀ (n : Nat) (st : ISt), At mem len st (List.replicate n c!" " ++ s) →
    s ≠ [] → st.state = .lineBreak →
    Leads rec mem len { st with current := st.current + n, count := st.count + n } out →
    Leads rec mem len st out := by
  intro n
  induction n with
  | zero => intro st _ _ _ h; exact h
  | succ n ih =>
    intro st ha hne hs h
    rw [List.replicate_succ, List.cons_append] at ha
    have he : (List.replicate n c!" " ++ s).isEmpty = false := by cases s <;> simp_all
    refine Leads.step (st' := { st with current := st.current + 1, count := st.count + 1 }) ?_ ?_
    · rw [step_eq ha.get.1 ha.get.2]
      simp only [body, hs, inlineDash, ha.last, he]
      rfl
    · refine ih _ (ha.next rfl) hne hs ?_
      simpa [Nat.add_assoc, Nat.add_comm 1 n] using h

/-- Two or more blanks, and then another byte: the parser is in the line break state. -/
theorem leads_two {s : Str} {n : Nat} (ha : At mem len st (List.replicate (n + 2) c!" " ++ s))
    (hs : st.state = .start) (hne : s ≠ [])
    (h : Leads rec mem len
      { st with current := st.current + (n + 2), count := n + 2, state := .lineBreak } out) : Leads rec mem len st out := by
  rw [List.replicate_succ, List.replicate_succ, List.cons_append, List.cons_append] at ha
  refine leads_goto (q := .lineBreakStart) (by simp) ha hs (by simp) ?_
  have ha' : At mem len { st with current := st.current + 1, state := .lineBreakStart }
      (c!" " :: (List.replicate n c!" " ++ s)) := ha.next rfl
  have he : (List.replicate n c!" " ++ s).isEmpty = false := by cases s <;> simp_all
  refine Leads.step (st' := { st with current := st.current + 2, count := 2, state := .lineBreak }) ?_ ?_
  · rw [step_eq ha'.get.1 ha'.get.2]
    have := ha'.last
    rw [he] at this
    simp only at this
    simp [body, inlineDash, this, ISt.brk]
  · refine leads_blanks n _ (At.skip (s := b!"  ") ha rfl) hne rfl ?_
    simpa [Nat.add_assoc, Nat.add_comm 2 n] using h

theorem leads_spaces {s : Str} {n : Nat} (ha : At mem len st (List.replicate n c!" " ++ s))
    (hs : st.state = .start) (hsp : ∀ r, s ≠ c!" " :: r)
    (hn : n = 1 ∨ ∃ c r, s = c :: r ∧ c ≠ c!"\n" ∧ c ≠ c!"\r")
    (h : Rest rec mem len s (st.rv ++ List.replicate n c!" ") out) : Leads rec mem len st out := by
  match n, hn with
  | 0, _ =>
    refine h st (by simpa using ha) hs (by simp)
  | 1, _ =>
    cases s with
    | nil => exact leads_out ha hs (by simp [inlineStart]; rfl) h
    | cons x s =>
      have hx : x ≠ c!" " := fun e => hsp s (by rw [e])
      refine leads_goto (q := .lineBreakStart) (by simp) ha hs (by simp) ?_
      refine leads_back (o := b!" ") (At.next ha rfl) ?_ h
      simp [body, inlineDash, hx]
  | n + 2, .inr ⟨x, r, hx, h1, h2⟩ =>
    subst hx
    have hx : x ≠ c!" " := fun e => hsp r (by rw [e])
    refine leads_two ha hs (by simp) ?_
    refine leads_back (o := List.replicate (n + 2) c!" ") (At.skip ha (by simp)) ?_ h
    simp [body, inlineDash, hx, h1, h2]

theorem leads_lineBreak {s : Str} {n : Nat} {nl : Byte} (h2 : 2 ≤ n) (hnl : nl = c!"\n" ∨ nl = c!"\r")
    (ha : At mem len st (List.replicate n c!" " ++ nl :: s)) (hs : st.state = .start)
    (h : Rest rec mem len s (st.rv ++ (b!"<br />" ++ [nl])) out) : Leads rec mem len st out := by
  obtain ⟨n, rfl⟩ : ∃ m, n = m + 2 := ⟨n - 2, by omega⟩
  refine leads_two ha hs (by simp) ?_
  refine leads_close (o := b!"<br />" ++ [nl]) (At.skip ha (by simp)) ?_ h
  have : nl ≠ c!" " := by rcases hnl with rfl | rfl <;> decide
  simp [body, inlineDash, hnl, this]

theorem leads_lastBreak {n : Nat} (h2 : 2 ≤ n) (ha : At mem len st (List.replicate n c!" "))
    (hs : st.state = .start) : Leads rec mem len st (st.rv ++ b!"<br />") := by
  obtain ⟨n, rfl⟩ : ∃ m, n = m + 2 := ⟨n - 2, by omega⟩
  have hlast : ∀ st', At mem len st' b!" " → st'.rv = st.rv →
      (st'.state = .lineBreakStart ∨ st'.state = .lineBreak) →
      Leads rec mem len st' (st.rv ++ b!"<br />") := by
    intro st' ha' hr hst'
    refine leads_close (o := b!"<br />") (c := c!" ") (s := []) ha' ?_ ?_
    · have := ha'.last
      rcases hst' with h | h <;> simp [body, h, inlineDash, this]
    · intro st'' h1 h2 h3
      have := leads_end (rec := rec) h1 h2
      rwa [h3, hr] at this
  cases n with
  | zero =>
    refine leads_goto (q := .lineBreakStart) (s := b!" ") (by simp) ha hs (by simp) ?_
    exact hlast _ (At.next (c := c!" ") ha rfl) rfl (.inl rfl)
  | succ n =>
    have e : List.replicate (n + 1 + 2) c!" " = List.replicate (n + 2) c!" " ++ b!" " := by
      rw [show n + 1 + 2 = (n + 2) + 1 from rfl, List.replicate_succ']
    rw [e] at ha
    refine leads_two ha hs (by simp) ?_
    exact hlast _ (At.skip ha (by simp)) rfl (.inr rfl)

/-! ### Emphasis and code -/

theorem delim_ne {d : Byte} (hd : d = c!"*" ∨ d = c!"_") : d ≠ 0 ∧ d ≠ c!"\\" := by
  rcases hd with rfl | rfl <;> decide

theorem At.tail {s t : Str} (h : At mem len st (s ++ t)) :
    ∃ tail, mem.drop st.current = s ++ tail ∧ (s ++ tail).length = mem.length - st.current := by
  obtain ⟨tail, h1, _⟩ := h.drop
  refine ⟨t ++ tail, by rw [h1]; simp, ?_⟩
  have := congrArg List.length h1
  rw [List.length_drop] at this
  rw [this]
  simp

theorem em_step {d : Byte} {dbl : IState} {t u ht s : Str} (hd : d = c!"*" ∨ d = c!"_") (ht0 : t ≠ [])
    (hu : Upto d t u) (hn : NulFree t) (hr : Nested rec mem.length t ht)
    (h1 : 1 ≤ st.current) (ha : At mem len st (t ++ d :: s)) (hg : mem[st.current]? = some c) :
    inlineEm rec mem len st c d dbl =
      (({ st with current := st.current + t.length }.add (b!"<em>" ++ ht ++ b!"</em>")).goto .start).brk := by
  have hc : c ≠ d := by
    cases t with
    | nil => exact absurd rfl ht0
    | cons x t =>
      have := ha.get.2
      rw [hg] at this
      cases this
      cases hu with
      | pair => exact fun e => (delim_ne hd).2 e.symm
      | byte _ h _ => exact h
  unfold inlineEm
  rw [if_neg hc, findSingle_upto (delim_ne hd).1 (delim_ne hd).2 hu hn ha]
  simp only [Run.bind_ok]
  obtain ⟨tail, hdr, hlen⟩ := ha.tail
  have hlt : st.current < mem.length := by
    obtain ⟨pre, tl, hm, h1, _⟩ := ha
    have := congrArg List.length hm
    simp at this
    omega
  rw [hdr, Nat.add_sub_cancel_left, hr tail (by omega)]
  rfl

theorem strong_step {d : Byte} {t ht s : Str} (hd : d = c!"*" ∨ d = c!"_")
    (hu : NoPair d t) (hn : NulFree t) (hr : Nested rec mem.length t ht)
    (h1 : 1 ≤ st.current) (ha : At mem len st (t ++ d :: d :: s)) :
    inlineStrong rec mem len st d =
      (({ st with current := st.current + t.length + 1 }.add
        (b!"<strong>" ++ ht ++ b!"</strong>")).goto .start).brk := by
  unfold inlineStrong
  rw [findDouble_noPair (delim_ne hd).1 (delim_ne hd).2 hu hn ha]
  simp only [Run.bind_ok]
  obtain ⟨tail, hdr, hlen⟩ := ha.tail
  have hlt : st.current < mem.length := by
    obtain ⟨pre, tl, hm, h1, _⟩ := ha
    have := congrArg List.length hm
    simp at this
    omega
  rw [hdr, Nat.add_sub_cancel_left, hr tail (by omega)]
  rfl

theorem leads_italic {d : Byte} {t u ht s : Str} (hd : d = c!"*" ∨ d = c!"_") (ht0 : t ≠ [])
    (hu : Upto d t u) (hn : NulFree t) (hr : Nested rec mem.length t ht)
    (ha : At mem len st (d :: t ++ d :: s)) (hs : st.state = .start)
    (h : Rest rec mem len s (st.rv ++ (b!"<em>" ++ ht ++ b!"</em>")) out) : Leads rec mem len st out := by
  rw [List.cons_append] at ha
  have key : ∀ q, (d, q) ∈ [(c!"*", IState.asterisk), (c!"_", .underscore), (c!"`", .backticks),
      (c!"[", .linkStart), (c!"!", .imageStart), (c!"-", .endash), (c!" ", .lineBreakStart)] →
      (∀ c, mem[st.current + 1]? = some c →
        body rec mem len { st with current := st.current + 1, state := q } c =
        (({ st with current := st.current + 1 + t.length }.add
          (b!"<em>" ++ ht ++ b!"</em>")).goto .start).brk) → Leads rec mem len st out := by
    intro q hq hb
    refine leads_goto (q := q) hq ha hs (by simp) ?_
    have ha' : At mem len { st with current := st.current + 1, state := q } (t ++ d :: s) := ha.next rfl
    obtain ⟨x, t', rfl⟩ : ∃ x t', t = x :: t' := by
      cases t with
      | nil => exact absurd rfl ht0
      | cons x t => exact ⟨x, t, rfl⟩
    have hg := At.get (c := x) ha'
    refine Leads.step (st' := { st with
      current := st.current + 1 + (x :: t').length + 1
      rv := st.rv ++ (b!"<em>" ++ ht ++ b!"</em>"), state := .start }) ?_ ?_
    · rw [step_eq hg.1 hg.2, hb x hg.2]
      rfl
    · refine h _ ?_ rfl rfl
      have ha2 : At mem len st ((d :: (x :: t') ++ [d]) ++ s) := by simpa using ha
      exact ha2.skip (by simp; omega)
  have ha' : At mem len { st with current := st.current + 1 } (t ++ d :: s) := ha.next rfl
  rcases hd with rfl | rfl
  · refine key .asterisk (by simp) fun c hc => ?_
    have := em_step (dbl := .asteriskDouble) (.inl rfl) ht0 hu hn hr (by simp)
      (ha'.congr (st' := { st with current := st.current + 1, state := .asterisk }) rfl) hc
    exact this
  · refine key .underscore (by simp) fun c hc => ?_
    have := em_step (dbl := .underscoreDouble) (.inr rfl) ht0 hu hn hr (by simp)
      (ha'.congr (st' := { st with current := st.current + 1, state := .underscore }) rfl) hc
    exact this

theorem leads_bold {d : Byte} {t ht s : Str} (hd : d = c!"*" ∨ d = c!"_")
    (hu : NoPair d t) (hn : NulFree t) (hr : Nested rec mem.length t ht)
    (ha : At mem len st (d :: d :: t ++ d :: d :: s)) (hs : st.state = .start)
    (h : Rest rec mem len s (st.rv ++ (b!"<strong>" ++ ht ++ b!"</strong>")) out) :
    Leads rec mem len st out := by
  rw [List.cons_append, List.cons_append] at ha
  have ha1 : ∀ q, At mem len { st with current := st.current + 1, state := q } (d :: (t ++ d :: d :: s)) :=
    fun q => ha.next rfl
  have ha2 : ∀ q, At mem len { st with current := st.current + 2, state := q } (t ++ d :: d :: s) :=
    fun q => At.skip (s := [d, d]) ha rfl
  have ha3 : At mem len st ((d :: d :: t ++ [d, d]) ++ s) := by simpa using ha
  have fin : ∀ q, (∀ c, body rec mem len { st with current := st.current + 2, state := q } c =
      inlineStrong rec mem len { st with current := st.current + 2, state := q } d) →
      Leads rec mem len { st with current := st.current + 2, state := q } out := by
    intro q hq
    obtain ⟨x, hx1, hx2⟩ : ∃ x, st.current + 2 < len ∧ mem[st.current + 2]? = some x := by
      cases t with
      | nil => exact ⟨_, At.get (c := d) (ha2 q)⟩
      | cons x t => exact ⟨_, At.get (c := x) (ha2 q)⟩
    refine Leads.step (st' := { st with
      current := st.current + 2 + t.length + 1 + 1
      rv := st.rv ++ (b!"<strong>" ++ ht ++ b!"</strong>"), state := .start }) ?_ ?_
    · rw [step_eq hx1 hx2, hq x, strong_step hd hu hn hr (by simp) (ha2 q)]
      rfl
    · exact h _ (ha3.skip (by simp; omega)) rfl rfl
  rcases hd with rfl | rfl
  · refine leads_goto (q := .asterisk) (by simp) ha hs (by simp) ?_
    refine Leads.step (st' := { st with current := st.current + 2, state := .asteriskDouble }) ?_
      (fin _ fun _ => rfl)
    rw [step_eq (ha1 _).get.1 (ha1 _).get.2]
    simp [body, inlineEm, ISt.brk, ISt.goto]
  · refine leads_goto (q := .underscore) (by simp) ha hs (by simp) ?_
    refine Leads.step (st' := { st with current := st.current + 2, state := .underscoreDouble }) ?_
      (fin _ fun _ => rfl)
    rw [step_eq (ha1 _).get.1 (ha1 _).get.2]
    simp [body, inlineEm, ISt.brk, ISt.goto]

theorem leads_code {t u s : Str} (ht0 : t ≠ []) (hu : Upto c!"`" t u) (hn : NulFree t)
    (ha : At mem len st (c!"`" :: t ++ c!"`" :: s)) (hs : st.state = .start)
    (h : Rest rec mem len s (st.rv ++ (b!"<code>" ++ shownAll t ++ b!"</code>")) out) :
    Leads rec mem len st out := by
  rw [List.cons_append] at ha
  refine leads_goto (q := .backticks) (by simp) ha hs (by simp) ?_
  have ha' : At mem len { st with current := st.current + 1, state := .backticks } (t ++ c!"`" :: s) :=
    ha.next rfl
  have hf := findSingle_upto (by decide) (by decide) hu hn ha'
  have hsl := ha'.slice
  obtain ⟨x, t', rfl⟩ : ∃ x t', t = x :: t' := by
    cases t with
    | nil => exact absurd rfl ht0
    | cons x t => exact ⟨x, t, rfl⟩
  have hx : x ≠ c!"`" := by
    cases hu with
    | pair => decide
    | byte _ h _ => exact h
  have hg := At.get (c := x) ha'
  refine Leads.step (st' := { st with
    current := st.current + 1 + (x :: t').length + 1
    rv := st.rv ++ (b!"<code>" ++ shownAll (x :: t') ++ b!"</code>"), state := .start }) ?_ ?_
  · rw [step_eq hg.1 hg.2]
    simp only [body, inlineCode, if_neg hx]
    simp only at hf hsl
    rw [hf]
    simp only [Run.bind_ok, hsl, shownAll_eq]
    rfl
  · refine h _ ?_ rfl rfl
    have ha2 : At mem len st ((c!"`" :: (x :: t') ++ [c!"`"]) ++ s) := by simpa using ha
    exact ha2.skip (by simp; omega)

theorem leads_codeDouble {t s : Str} (hu : NoPair c!"`" t) (hn : NulFree t)
    (ha : At mem len st (b!"``" ++ t ++ b!"``" ++ s)) (hs : st.state = .start)
    (h : Rest rec mem len s (st.rv ++ (b!"<code>" ++ shownAll t ++ b!"</code>")) out) :
    Leads rec mem len st out := by
  have ha0 : At mem len st (c!"`" :: c!"`" :: (t ++ c!"`" :: c!"`" :: s)) := by simpa using ha
  refine leads_goto (q := .backticks) (by simp) ha0 hs (by simp) ?_
  have ha1 : At mem len { st with current := st.current + 1, state := .backticks }
    (c!"`" :: (t ++ c!"`" :: c!"`" :: s)) := ha0.next rfl
  have ha2 : At mem len { st with current := st.current + 2, state := .backticksDouble }
    (t ++ c!"`" :: c!"`" :: s) := At.skip (s := b!"``") ha0 rfl
  have hf := findDouble_noPair (by decide) (by decide) hu hn ha2
  have hsl := ha2.slice
  refine Leads.step (st' := { st with current := st.current + 2, state := .backticksDouble }) ?_ ?_
  · rw [step_eq ha1.get.1 ha1.get.2]
    simp [body, inlineCode, ISt.brk, ISt.goto]
  obtain ⟨x, hx1, hx2⟩ : ∃ x, st.current + 2 < len ∧ mem[st.current + 2]? = some x := by
    cases t with
    | nil => exact ⟨_, At.get (c := c!"`") ha2⟩
    | cons x t => exact ⟨_, At.get (c := x) ha2⟩
  refine Leads.step (st' := { st with
    current := st.current + 2 + t.length + 1 + 1
    rv := st.rv ++ (b!"<code>" ++ shownAll t ++ b!"</code>"), state := .start }) ?_ ?_
  · rw [step_eq hx1 hx2]
    simp only [body, inlineCodeDouble]
    simp only at hf hsl
    rw [hf]
    simp only [Run.bind_ok, hsl, shownAll_eq]
    rfl
  · exact h _ (ha.skip (by simp; omega)) rfl rfl

/-! ### Links and images -/

theorem upto_unescape {d : Byte} {s u : Str} (h : Upto d s u) : appendEscapedLoop false s = u := by
  induction h with
  | nil => rfl
  | pair x _ ih =>
    rw [appendEscapedLoop, if_pos ⟨rfl, rfl⟩, appendEscapedLoop, if_neg (by simp), ih]
  | byte h _ _ ih => rw [appendEscapedLoop, if_neg (by simp [h]), ih]

theorem leads_autoLink {url url' s : Str} (hu : NoPair c!"]" url) (hw : Upto 0 url url')
    (hn : NulFree url) (ha : At mem len st (b!"[[" ++ url ++ b!"]]" ++ s)) (hs : st.state = .start)
    (h : Rest rec mem len s
      (st.rv ++ (b!"<a href=\"" ++ url' ++ b!"\">" ++ url' ++ b!"</a>")) out) :
    Leads rec mem len st out := by
  have ha0 : At mem len st (c!"[" :: c!"[" :: (url ++ c!"]" :: c!"]" :: s)) := by simpa using ha
  refine leads_goto (q := .linkStart) (by simp) ha0 hs (by simp) ?_
  have ha1 : At mem len { st with current := st.current + 1, state := .linkStart }
    (c!"[" :: (url ++ c!"]" :: c!"]" :: s)) := ha0.next rfl
  have ha2 : At mem len { st with current := st.current + 2, state := .linkAuto }
    (url ++ c!"]" :: c!"]" :: s) := At.skip (s := b!"[[") ha0 rfl
  have hf := findDouble_noPair (by decide) (by decide) hu hn ha2
  have hsl := ha2.slice
  refine Leads.step (st' := { st with current := st.current + 2, state := .linkAuto }) ?_ ?_
  · rw [step_eq ha1.get.1 ha1.get.2]
    simp [body, inlineLink, ISt.brk, ISt.goto]
  obtain ⟨x, hx1, hx2⟩ : ∃ x, st.current + 2 < len ∧ mem[st.current + 2]? = some x := by
    cases url with
    | nil => exact ⟨_, At.get (c := c!"]") ha2⟩
    | cons x t => exact ⟨_, At.get (c := x) ha2⟩
  refine Leads.step (st' := { st with
    current := st.current + 2 + url.length + 1 + 1
    rv := st.rv ++ (b!"<a href=\"" ++ url' ++ b!"\">" ++ url' ++ b!"</a>"), state := .start }) ?_ ?_
  · rw [step_eq hx1 hx2]
    simp only [body, inlineLinkAuto]
    simp only at hf hsl
    rw [hf]
    simp only [Run.bind_ok, hsl, upto_unescape hw]
    rfl
  · exact h _ (ha.skip (by simp; omega)) rfl rfl

/-- Scan to a closing byte in one of the states that only look for it. -/
theorem leads_scan {d : Byte} {q : IState} (hq : (d, q) ∈ [(c!")", IState.linkUrl),
      (c!")", .imageUrl), (c!"]", .imageAlt)]) {t u : Str} (hu : Upto d t u) :
    ∀ (st : ISt) (s : Str), At mem len st (t ++ s) → st.state = q →
    Leads rec mem len { st with current := st.current + t.length } out → Leads rec mem len st out := by
  simp only [List.mem_cons, List.not_mem_nil, or_false, Prod.mk.injEq] at hq
  induction hu with
  | nil => intro st s _ _ h; exact h
  | @pair x t u _ ih =>
    intro st s ha hs h
    have ha' : At mem len st (c!"\\" :: (x :: (t ++ s))) := ha
    refine Leads.step (st' := { st with current := st.current + 2 }) ?_ ?_
    · rw [step_eq ha'.get.1 ha'.get.2]
      rcases hq with ⟨rfl, rfl⟩ | ⟨rfl, rfl⟩ | ⟨rfl, rfl⟩ <;>
        simp [body, hs, inlineLink, inlineImage, ISt.brk]
    · refine ih _ s (At.skip (s := [c!"\\", x]) ha rfl) hs ?_
      simpa [Nat.add_assoc, Nat.add_comm 2] using h
  | @byte c t u h1 h2 _ ih =>
    intro st s ha hs h
    have ha' : At mem len st (c :: (t ++ s)) := ha
    refine Leads.step (st' := { st with current := st.current + 1 }) ?_ ?_
    · rw [step_eq ha'.get.1 ha'.get.2]
      rcases hq with ⟨rfl, rfl⟩ | ⟨rfl, rfl⟩ | ⟨rfl, rfl⟩ <;>
        simp [body, hs, inlineLink, inlineImage, ISt.brk, h1, h2]
    · refine ih _ s (ha'.next rfl) hs ?_
      simpa [Nat.add_assoc, Nat.add_comm 1] using h

theorem leads_gap {q : IState} (hq : q = .linkUrlStart ∨ q = .imageUrlStart) :
    ∀ (gap : Str) (st : ISt) (s : Str), Gap gap → At mem len st (gap ++ s) → st.state = q →
    Leads rec mem len { st with current := st.current + gap.length } out →
    Leads rec mem len st out := by
  intro gap
  induction gap with
  | nil => intro st s _ _ _ h; exact h
  | cons c gap ih =>
    intro st s hg ha hs h
    have ha' : At mem len st (c :: (gap ++ s)) := ha
    have hc : isBlankNl c = true := by
      rcases hg c (by simp) with rfl | rfl | rfl | rfl <;> decide
    refine Leads.step (st' := { st with current := st.current + 1 }) ?_ ?_
    · rw [step_eq ha'.get.1 ha'.get.2]
      rcases hq with rfl | rfl <;> simp [body, hs, inlineLink, inlineImage, ISt.brk, hc]
    · refine ih _ s (fun b hb => hg b (by simp [hb])) (ha'.next rfl) hs ?_
      simpa [Nat.add_assoc, Nat.add_comm 1] using h

theorem leads_brackets {n m : Nat} {t : Str} (hb : Brackets n t m) :
    ∀ (st : ISt) (s : Str), At mem len st (t ++ s) → st.state = .linkContent → st.count = n →
    Leads rec mem len { st with current := st.current + t.length, count := m } out →
    Leads rec mem len st out := by
  induction hb with
  | nil n =>
    intro st s _ _ hc h
    have : { st with current := st.current + ([] : Str).length, count := n } = st := by
      cases st; simp_all
    rwa [this] at h
  | @pair x n m t _ ih =>
    intro st s ha hs hc h
    have ha' : At mem len st (c!"\\" :: (x :: (t ++ s))) := ha
    refine Leads.step (st' := { st with current := st.current + 2 }) ?_ ?_
    · rw [step_eq ha'.get.1 ha'.get.2]
      simp [body, hs, inlineLink, ISt.brk]
    · refine ih _ s (At.skip (s := [c!"\\", x]) ha rfl) hs hc ?_
      simpa [Nat.add_assoc, Nat.add_comm 2] using h
  | @opens n m t _ ih =>
    intro st s ha hs hc h
    have ha' : At mem len st (c!"[" :: (t ++ s)) := ha
    refine Leads.step (st' := { st with current := st.current + 1, count := st.count + 1 }) ?_ ?_
    · rw [step_eq ha'.get.1 ha'.get.2]
      simp [body, hs, inlineLink, ISt.brk]
    · refine ih _ s (ha'.next rfl) hs (by simp [hc]) ?_
      simpa [Nat.add_assoc, Nat.add_comm 1] using h
  | @closes n m t _ ih =>
    intro st s ha hs hc h
    have ha' : At mem len st (c!"]" :: (t ++ s)) := ha
    refine Leads.step (st' := { st with current := st.current + 1, count := st.count - 1 }) ?_ ?_
    · rw [step_eq ha'.get.1 ha'.get.2]
      simp [body, hs, inlineLink, ISt.brk, hc]
    · refine ih _ s (ha'.next rfl) hs (by simp [hc]) ?_
      simpa [Nat.add_assoc, Nat.add_comm 1] using h
  | @byte c n m t h1 h2 h3 _ ih =>
    intro st s ha hs hc h
    have ha' : At mem len st (c :: (t ++ s)) := ha
    refine Leads.step (st' := { st with current := st.current + 1 }) ?_ ?_
    · rw [step_eq ha'.get.1 ha'.get.2]
      simp [body, hs, inlineLink, ISt.brk, h1, h2, h3]
    · refine ih _ s (ha'.next rfl) hs hc ?_
      simpa [Nat.add_assoc, Nat.add_comm 1] using h

theorem leads_image {alt alt' gap url url' s : Str} (h1 : Upto c!"]" alt alt') (h2 : Gap gap)
    (h3 : Upto c!")" url url')
    (ha : At mem len st (b!"![" ++ alt ++ b!"]" ++ gap ++ b!"(" ++ url ++ b!")" ++ s))
    (hs : st.state = .start)
    (h : Rest rec mem len s
      (st.rv ++ (b!"<img src=\"" ++ url' ++ b!"\" alt=\"" ++ alt' ++ b!"\">")) out) :
    Leads rec mem len st out := by
  have ha0 : At mem len st (c!"!" :: c!"[" :: (alt ++ c!"]" :: (gap ++ c!"(" :: (url ++ c!")" :: s)))) := by
    simpa using ha
  refine leads_goto (q := .imageStart) (by simp) ha0 hs (by simp) ?_
  have ha1 := ha0.next (st' := { st with current := st.current + 1, state := .imageStart }) rfl
  refine Leads.step (st' := { st with
    current := st.current + 2, state := .imageAlt, startLink := st.current + 2 }) ?_ ?_
  · rw [step_eq ha1.get.1 ha1.get.2]
    simp [body, inlineImage, ISt.brk]
  have ha2 := ha1.next (st' := { st with
    current := st.current + 2, state := .imageAlt, startLink := st.current + 2 }) rfl
  have hsl := ha2.slice
  refine leads_scan (q := .imageAlt) (by simp) h1 _ _ ha2 rfl ?_
  have ha3 := ha2.skip (st' := { st with
    current := st.current + 2 + alt.length, state := .imageAlt, startLink := st.current + 2 }) rfl
  refine Leads.step (st' := { st with
    current := st.current + 2 + alt.length + 1, state := .imageUrlStart
    startLink := st.current + 2, link1 := alt }) ?_ ?_
  · rw [step_eq ha3.get.1 ha3.get.2]
    simp only at hsl
    simp [body, inlineImage, ISt.brk, hsl]
  have ha4 := ha3.next (st' := { st with
    current := st.current + 2 + alt.length + 1, state := .imageUrlStart
    startLink := st.current + 2, link1 := alt }) rfl
  refine leads_gap (q := .imageUrlStart) (.inr rfl) gap _ _ h2 ha4 rfl ?_
  have ha5 := ha4.skip (st' := { st with
    current := st.current + 2 + alt.length + 1 + gap.length, state := .imageUrlStart
    startLink := st.current + 2, link1 := alt }) rfl
  refine Leads.step (st' := { st with
    current := st.current + 2 + alt.length + 1 + gap.length + 1, state := .imageUrl
    start := st.current + 2 + alt.length + 1 + gap.length + 1
    startLink := st.current + 2, link1 := alt }) ?_ ?_
  · rw [step_eq ha5.get.1 ha5.get.2]
    simp [body, inlineImage, ISt.brk, isBlankNl]
  have ha6 := ha5.next (st' := { st with
    current := st.current + 2 + alt.length + 1 + gap.length + 1, state := .imageUrl
    start := st.current + 2 + alt.length + 1 + gap.length + 1
    startLink := st.current + 2, link1 := alt }) rfl
  have hsl2 := ha6.slice
  refine leads_scan (q := .imageUrl) (by simp) h3 _ _ ha6 rfl ?_
  have ha7 := ha6.skip (st' := { st with
    current := st.current + 2 + alt.length + 1 + gap.length + 1 + url.length, state := .imageUrl
    start := st.current + 2 + alt.length + 1 + gap.length + 1
    startLink := st.current + 2, link1 := alt }) rfl
  refine Leads.step (st' := { st with
    current := st.current + 2 + alt.length + 1 + gap.length + 1 + url.length + 1, state := .start
    rv := st.rv ++ (b!"<img src=\"" ++ url' ++ b!"\" alt=\"" ++ alt' ++ b!"\">")
    start := st.current + 2 + alt.length + 1 + gap.length + 1
    startLink := st.current + 2, link1 := [] }) ?_ ?_
  · rw [step_eq ha7.get.1 ha7.get.2]
    simp only at hsl2
    simp [body, inlineImage, ISt.brk, ISt.add, hsl2, upto_unescape h1, upto_unescape h3]
  · exact h _ (ha7.next rfl) rfl rfl

theorem leads_link {t ht gap url url' s : Str} (h1 : LinkText t) (hr : Nested rec mem.length t ht)
    (h2 : Gap gap) (h3 : Upto c!")" url url')
    (ha : At mem len st (b!"[" ++ t ++ b!"]" ++ gap ++ b!"(" ++ url ++ b!")" ++ s))
    (hs : st.state = .start)
    (h : Rest rec mem len s
      (st.rv ++ (b!"<a href=\"" ++ url' ++ b!"\">" ++ ht ++ b!"</a>")) out) :
    Leads rec mem len st out := by
  obtain ⟨x, r, rfl, hx, hb⟩ := h1
  have hlen : (x :: r : Str).length < mem.length := by
    obtain ⟨pre, tl, hm, _, _⟩ := ha
    rw [hm]
    simp
    omega
  have hrec : rec (x :: r) (r.length + 1) = .ok ht := by
    have := hr [] (by simpa using hlen)
    simpa using this
  have ha0 : At mem len st (c!"[" :: x :: (r ++ c!"]" :: (gap ++ c!"(" :: (url ++ c!")" :: s)))) := by
    simpa using ha
  refine leads_goto (q := .linkStart) (by simp) ha0 hs (by simp) ?_
  have ha1 := ha0.next (st' := { st with current := st.current + 1, state := .linkStart }) rfl
  have hsl : slice mem (st.current + 1) (st.current + 1 + (x :: r).length) = x :: r :=
    At.slice (s := x :: r) ha1
  refine Leads.step (st' := { st with
    current := st.current + 2, state := .linkContent, startLink := st.current + 1, count := 1 }) ?_ ?_
  · rw [step_eq ha1.get.1 ha1.get.2]
    simp [body, inlineLink, ISt.brk, hx]
  have ha2 := ha1.next (st' := { st with
    current := st.current + 2, state := .linkContent, startLink := st.current + 1, count := 1 }) rfl
  refine leads_brackets hb _ _ ha2 rfl rfl ?_
  have ha3 := ha2.skip (st' := { st with
    current := st.current + 2 + r.length, state := .linkContent, startLink := st.current + 1
    count := 1 }) rfl
  refine Leads.step (st' := { st with
    current := st.current + 2 + r.length + 1, state := .linkUrlStart
    startLink := st.current + 1, link1 := x :: r, count := 0 }) ?_ ?_
  · rw [step_eq ha3.get.1 ha3.get.2]
    rw [show st.current + 1 + (x :: r).length = st.current + 2 + r.length by simp; omega] at hsl
    simp [body, inlineLink, ISt.brk, hsl]
  have ha4 := ha3.next (st' := { st with
    current := st.current + 2 + r.length + 1, state := .linkUrlStart
    startLink := st.current + 1, link1 := x :: r, count := 0 }) rfl
  refine leads_gap (q := .linkUrlStart) (.inl rfl) gap _ _ h2 ha4 rfl ?_
  have ha5 := ha4.skip (st' := { st with
    current := st.current + 2 + r.length + 1 + gap.length, state := .linkUrlStart
    startLink := st.current + 1, link1 := x :: r, count := 0 }) rfl
  refine Leads.step (st' := { st with
    current := st.current + 2 + r.length + 1 + gap.length + 1, state := .linkUrl
    start := st.current + 2 + r.length + 1 + gap.length + 1
    startLink := st.current + 1, link1 := x :: r, count := 0 }) ?_ ?_
  · rw [step_eq ha5.get.1 ha5.get.2]
    simp [body, inlineLink, ISt.brk, isBlankNl]
  have ha6 := ha5.next (st' := { st with
    current := st.current + 2 + r.length + 1 + gap.length + 1, state := .linkUrl
    start := st.current + 2 + r.length + 1 + gap.length + 1
    startLink := st.current + 1, link1 := x :: r, count := 0 }) rfl
  have hsl2 := ha6.slice
  refine leads_scan (q := .linkUrl) (by simp) h3 _ _ ha6 rfl ?_
  have ha7 := ha6.skip (st' := { st with
    current := st.current + 2 + r.length + 1 + gap.length + 1 + url.length, state := .linkUrl
    start := st.current + 2 + r.length + 1 + gap.length + 1
    startLink := st.current + 1, link1 := x :: r, count := 0 }) rfl
  refine Leads.step (st' := { st with
    current := st.current + 2 + r.length + 1 + gap.length + 1 + url.length + 1, state := .start
    rv := st.rv ++ (b!"<a href=\"" ++ url' ++ b!"\">" ++ ht ++ b!"</a>")
    start := st.current + 2 + r.length + 1 + gap.length + 1
    startLink := st.current + 1, link1 := [], count := 0 }) ?_ ?_
  · rw [step_eq ha7.get.1 ha7.get.2]
    simp only at hsl2
    simp [body, inlineLink, ISt.brk, ISt.add, hsl2, upto_unescape h3, hrec]
  · exact h _ (ha7.next rfl) rfl rfl

/-! ### All together -/

theorem nulFree_left {a b : Str} (h : NulFree (a ++ b)) : NulFree a :=
  fun x hx => h x (List.mem_append_left _ hx)

theorem nulFree_right {a b : Str} (h : NulFree (a ++ b)) : NulFree b :=
  fun x hx => h x (List.mem_append_right _ hx)

/-- The parser on a text written as documented. -/
theorem leads_inline {s ht : Str} (hi : Inline s ht) : ∀ (d : Nat) (mem : Str) (len : Nat) (st : ISt),
    NulFree s → mem.length ≤ d → At mem len st s → st.state = .start →
    Leads (inlineInternal d) mem len st (st.rv ++ ht) := by
  -- the nested calls
  have nested : ∀ {t ht : Str}, (∀ (d : Nat) (mem : Str) (len : Nat) (st : ISt), NulFree t →
      mem.length ≤ d → At mem len st t → st.state = .start →
      Leads (inlineInternal d) mem len st (st.rv ++ ht)) → NulFree t → ∀ (d n : Nat), n ≤ d →
      Nested (inlineInternal d) n t ht := by
    intro t ht ih hn d n hd tail hl
    obtain ⟨d, rfl⟩ : ∃ e, d = e + 1 := ⟨d - 1, by omega⟩
    have ht := (inlineInternal_fine (d + 1) (t ++ tail) t.length (by omega) (by simp)).ne_out
    obtain ⟨k, hk⟩ := ih d (t ++ tail) t.length ISt.init hn (by omega) ⟨[], tail, rfl, rfl, by simp⟩ rfl
    rw [inlineInternal] at ht ⊢
    rw [← runL_mono _ k _ ht]
    exact hk _
  -- the rest of the text
  have rest : ∀ {s ht o out : Str}, (∀ (d : Nat) (mem : Str) (len : Nat) (st : ISt), NulFree s →
      mem.length ≤ d → At mem len st s → st.state = .start →
      Leads (inlineInternal d) mem len st (st.rv ++ ht)) → NulFree s → out = o ++ ht →
      ∀ (d : Nat) (mem : Str) (len : Nat), mem.length ≤ d → Rest (inlineInternal d) mem len s o out := by
    intro s ht o out ih hn ho d mem len hd st' ha hs hr
    have := ih d mem len st' hn hd ha hs
    rwa [hr, ← ho] at this
  induction hi with
  | nil =>
    intro d mem len st _ _ ha hs
    simpa using leads_end ha hs
  | char hc _ ih =>
    intro d mem len st hn hd ha hs
    exact leads_char ha hs hc (rest ih (nulFree_right (a := [_]) hn) (by simp) d mem len hd)
  | escape c _ ih =>
    intro d mem len st hn hd ha hs
    exact leads_escape ha hs (rest ih (nulFree_right (a := [_, _]) hn) (by simp) d mem len hd)
  | spaces h1 h2 _ ih =>
    intro d mem len st hn hd ha hs
    exact leads_spaces ha hs h1 h2 (rest ih (nulFree_right hn) (by simp) d mem len hd)
  | @lineBreak n nl s h h1 h2 _ ih =>
    intro d mem len st hn hd ha hs
    exact leads_lineBreak h1 h2 ha hs
      (rest ih (nulFree_right (a := [nl]) (nulFree_right hn)) (by simp) d mem len hd)
  | lastBreak h1 =>
    intro d mem len st hn hd ha hs
    exact leads_lastBreak h1 ha hs
  | dash h1 _ ih =>
    intro d mem len st hn hd ha hs
    exact leads_dash ha hs h1 (rest ih (nulFree_right (a := [_]) hn) (by simp) d mem len hd)
  | enDash h1 _ ih =>
    intro d mem len st hn hd ha hs
    exact leads_enDash ha hs h1 (rest ih (nulFree_right hn) (by simp) d mem len hd)
  | emDash _ ih =>
    intro d mem len st hn hd ha hs
    exact leads_emDash ha hs (rest ih (nulFree_right hn) (by simp) d mem len hd)
  | bang h1 _ ih =>
    intro d mem len st hn hd ha hs
    exact leads_bang ha hs h1 (rest ih (nulFree_right (a := [_]) hn) (by simp) d mem len hd)
  | @italic e t u ht s h h1 h2 h3 _ _ ih1 ih2 =>
    intro d mem len st hn hd ha hs
    have hn1 : NulFree t := nulFree_right (a := [e]) (nulFree_left hn)
    have hn2 : NulFree s := nulFree_right (a := [e]) (nulFree_right hn)
    exact leads_italic h1 h2 h3 hn1 (nested ih1 hn1 d _ hd) ha hs
      (rest ih2 hn2 (by simp) d mem len hd)
  | @bold e t ht s h h1 h2 _ _ ih1 ih2 =>
    intro d mem len st hn hd ha hs
    have hn1 : NulFree t := nulFree_right (a := [e, e]) (nulFree_left hn)
    have hn2 : NulFree s := nulFree_right (a := [e, e]) (nulFree_right hn)
    exact leads_bold h1 h2 hn1 (nested ih1 hn1 d _ hd) ha hs (rest ih2 hn2 (by simp) d mem len hd)
  | @code t u s h h1 h2 _ ih =>
    intro d mem len st hn hd ha hs
    have hn1 : NulFree t := nulFree_right (a := [_]) (nulFree_left hn)
    have hn2 : NulFree s := nulFree_right (a := [_]) (nulFree_right hn)
    exact leads_code h1 h2 hn1 ha hs (rest ih hn2 (by simp) d mem len hd)
  | @codeDouble t s h h1 _ ih =>
    intro d mem len st hn hd ha hs
    have hn1 : NulFree t := nulFree_right (nulFree_left (nulFree_left hn))
    exact leads_codeDouble h1 hn1 ha hs (rest ih (nulFree_right hn) (by simp) d mem len hd)
  | @image alt alt' gap url url' s h h1 h2 h3 _ ih =>
    intro d mem len st hn hd ha hs
    exact leads_image h1 h2 h3 ha hs (rest ih (nulFree_right hn) (by simp) d mem len hd)
  | @link t ht gap url url' s h h1 _ h2 h3 _ ih1 ih2 =>
    intro d mem len st hn hd ha hs
    have hn1 : NulFree t := nulFree_right (nulFree_left (nulFree_left (nulFree_left (nulFree_left
      (nulFree_left (nulFree_left hn))))))
    exact leads_link h1 (nested ih1 hn1 d _ hd) h2 h3 ha hs
      (rest ih2 (nulFree_right hn) (by simp) d mem len hd)
  | @autoLink url url' s h h1 h2 _ ih =>
    intro d mem len st hn hd ha hs
    have hn1 : NulFree url := nulFree_right (nulFree_left (nulFree_left hn))
    exact leads_autoLink h1 h2 hn1 ha hs (rest ih (nulFree_right hn) (by simp) d mem len hd)

end Blogc.InlineDoc
