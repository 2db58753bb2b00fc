import Verif.Spec.Blocks
import Verif.Model.Content
import Verif.Props.C73

/-!
# The block parser on texts written as documented
-/

namespace Blogc.BlockDoc

open Blogc Blogc.Content Blogc.Spec

/-- Iterations that each consume something lead to a result with `P`. -/
def Leads (fx : Bool) (rec : Str → Str → Run Str) (src : Str) (w : Want) (st : BSt)
    (P : BSt → Prop) : Prop :=
  ∃ r, P r ∧ ∀ n, runL (blockStep fx rec src w) (n + (src.length - st.current) + 1) st = .ok r

variable {fx : Bool} {rec : Str → Str → Run Str} {src : Str} {w : Want} {st st' : BSt}
  {P : BSt → Prop} {e : Str} {c : Byte}

theorem Leads.step (h : blockStep fx rec src w st = .ok (.inl st')) (h1 : st.current < st'.current)
    (h2 : st.current < src.length) (h' : Leads fx rec src w st' P) : Leads fx rec src w st P := by
  obtain ⟨r, hr, hk⟩ := h'
  refine ⟨r, hr, fun n => ?_⟩
  have := hk (n + (src.length - st.current) - (src.length - st'.current) - 1)
  rw [runL, h]
  simp only
  rw [← this]
  congr 1
  omega

/-- The text from `current` on is `s`. -/
def At (src : Str) (st : BSt) (s : Str) : Prop := ∃ pre, src = pre ++ s ∧ st.current = pre.length

theorem At.get {s : Str} (h : At src st (c :: s)) :
    st.current < src.length ∧ src[st.current]? = some c := by
  obtain ⟨pre, rfl, h1⟩ := h
  refine ⟨by simp; omega, ?_⟩
  rw [h1]
  simp

theorem At.skip {s t : Str} (h : At src st (s ++ t)) (h' : st'.current = st.current + s.length) :
    At src st' t := by
  obtain ⟨pre, rfl, h1⟩ := h
  exact ⟨pre ++ s, by simp, by simp [h', h1]⟩

theorem At.next {s : Str} (h : At src st (c :: s)) (h' : st'.current = st.current + 1) :
    At src st' s := At.skip (s := [c]) h h'

theorem At.congr {s : Str} (h : At src st s) (h' : st'.current = st.current) : At src st' s := by
  obtain ⟨pre, h0, h1⟩ := h
  exact ⟨pre, h0, by rw [h', h1]⟩

theorem At.lt {s : Str} (h : At src st s) (hs : s ≠ []) : st.current < src.length := by
  obtain ⟨pre, rfl, h1⟩ := h
  have := List.length_pos_iff.2 hs
  simp
  omega

/-- `T` stands between `a` and `b`. -/
def Span (src : Str) (a : Nat) (T : Str) (b : Nat) : Prop :=
  ∃ pre rest, src = pre ++ T ++ rest ∧ a = pre.length ∧ b = pre.length + T.length

theorem Span.dup {a b : Nat} {T : Str} (h : Span src a T b) : Content.dup src a b = .ok T := by
  obtain ⟨pre, rest, rfl, rfl, rfl⟩ := h
  unfold Content.dup slice
  rw [if_neg (by simp), if_pos (by omega)]
  simp

theorem At.span {s t : Str} (h : At src st (s ++ t)) :
    Span src st.current s (st.current + s.length) := by
  obtain ⟨pre, rfl, h1⟩ := h
  exact ⟨pre, t, by simp, h1, by rw [h1]⟩

theorem Span.append {a b : Nat} {T s t : Str} (h : Span src a T b) (ha : At src st (s ++ t))
    (hb : st.current = b) : Span src a (T ++ s) (b + s.length) := by
  obtain ⟨pre, rest, rfl, rfl, rfl⟩ := h
  obtain ⟨pre', h1, h2⟩ := ha
  rw [hb] at h2
  have : rest = s ++ t := by
    have := congrArg (List.drop (pre ++ T).length) h1
    rw [List.drop_left] at this
    rw [this, show (pre ++ T).length = pre'.length by simp [h2], List.drop_left]
  refine ⟨pre, t, by rw [this]; simp, rfl, by simp [Nat.add_assoc]⟩

theorem Span.nil (a : Nat) (h : a ≤ src.length) : Span src a [] a :=
  ⟨src.take a, src.drop a, by simp, by simp [h], by simp [h]⟩

/-! ### Characters and line endings -/

theorem step_char {s : Str} (ha : At src st (c :: s)) (hc : isNl c = false) (hs : s ≠ []) :
    blockStep fx rec src w st = dispatch fx rec src w st c false := by
  unfold blockStep
  rw [ha.get.2]
  simp only
  rw [hc]
  simp only [Bool.false_eq_true, if_false]
  congr 1
  obtain ⟨pre, rfl, h1⟩ := ha
  have := List.length_pos_iff.2 hs
  simp
  omega

/-- What is known about line endings. -/
def Ok (e : Str) (st : BSt) : Prop :=
  (st.lineEndingFound = true → st.lineEnding = e) ∧ (e.length = 1 → st.realEnd = 0)

/-- The state in which the last character of a line ending is looked at. -/
def nl (e : Str) (st : BSt) : BSt :=
  { st with lineEnding := e, lineEndingFound := true
            realEnd := if e.length = 2 then st.current else 0
            current := st.current + (e.length - 1) }

/-- Its last character. -/
def lastOf (e : Str) : Byte := e.getLastD 0

/-- All newline characters of the text belong to `e`. -/
def Uses (e src : Str) : Prop := ∀ c ∈ src, isNl c = true → c ∈ e

theorem ending_ne (he : LineEnding e) : e ≠ [] := by
  rcases he with rfl | rfl | rfl | rfl <;> simp

theorem isNl_lastOf (he : LineEnding e) : isNl (lastOf e) = true := by
  rcases he with rfl | rfl | rfl | rfl <;> rfl

theorem step_nl {s : Str} (he : LineEnding e) (hu : Uses e src) (ho : Ok e st)
    (ha : At src st (e ++ s)) :
    blockStep fx rec src w st = dispatch fx rec src w (nl e st) (lastOf e) s.isEmpty := by
  have one : ∀ b : Byte, isNl b = true → e = [b] →
      blockStep fx rec src w st = dispatch fx rec src w (nl e st) (lastOf e) s.isEmpty := by
    intro b hb hee
    subst hee
    have hst : { st with
        lineEnding := if st.lineEndingFound = true then st.lineEnding else [b]
        lineEndingFound := true } = nl [b] st := by
      have h1 : (if st.lineEndingFound = true then st.lineEnding else [b]) = [b] := by
        split
        next h => exact ho.1 h
        next => rfl
      rw [h1]
      unfold nl
      have := ho.2 rfl
      cases st
      simp only at this
      simp [this]
    unfold blockStep
    rw [ha.get.2]
    simp only
    rw [hb]
    simp only [if_true]
    cases s with
    | nil =>
      have : src[st.current + 1]? = none := by
        obtain ⟨pre, rfl, h1⟩ := ha
        simp [h1]
      rw [this]
      simp only
      rw [hst]
      rfl
    | cons x s =>
      have hx : At src { st with current := st.current + 1 } (x :: s) := At.next (s := x :: s) ha rfl
      have hg := hx.get.2
      simp only at hg
      rw [hg]
      simp only
      have hp : isPair b x = false := by
        cases hn : isNl x with
        | false =>
          simp only [isNl, Bool.or_eq_false_iff] at hn
          simp [isPair, hn.1, hn.2]
        | true =>
          have hm : x ∈ src := by
            obtain ⟨pre, h1, _⟩ := hx
            rw [h1]; simp
          have : x = b := by simpa using hu x hm hn
          subst this
          simp only [isNl, Bool.or_eq_true, beq_iff_eq] at hb
          rcases hb with rfl | rfl <;> rfl
      rw [hp]
      simp only [Bool.false_eq_true, if_false]
      rw [hst]
      rfl
  have two : ∀ b b' : Byte, isNl b = true → isPair b b' = true → e = [b, b'] →
      blockStep fx rec src w st = dispatch fx rec src w (nl e st) (lastOf e) s.isEmpty := by
    intro b b' hb hp hee
    subst hee
    have h1 : (if st.lineEndingFound = true then st.lineEnding else [b, b']) = [b, b'] := by
      split
      next h => exact ho.1 h
      next => rfl
    have hx : At src { st with current := st.current + 1 } (b' :: s) :=
      At.next (c := b) (s := b' :: s) (by simpa using ha) rfl
    have hg := hx.get.2
    simp only at hg
    unfold blockStep
    rw [At.get (c := b) (s := b' :: s) (by simpa using ha) |>.2]
    simp only
    rw [hb, hg]
    simp only [if_true]
    rw [hp]
    simp only [if_true]
    rw [h1]
    have hl : (st.current + 1 == src.length - 1) = s.isEmpty := by
      obtain ⟨pre, rfl, h1⟩ := ha
      cases s with
      | nil => simp; omega
      | cons y s => simp; omega
    rw [hl]
    rfl
  rcases he with h | h | h | h
  · exact one _ rfl h
  · exact one _ rfl h
  · exact two _ _ rfl rfl h
  · exact two _ _ rfl rfl h

theorem ok_nl (he : LineEnding e) : Ok e (nl e st) := by
  refine ⟨fun _ => rfl, fun h => ?_⟩
  simp [nl, h]

theorem nl_current (he : LineEnding e) : (nl e st).current + 1 = st.current + e.length := by
  rcases he with rfl | rfl | rfl | rfl <;> rfl

/-- The end of the line is where the line ending starts. -/
theorem lineStop_nl (he : LineEnding e) (h1 : 1 ≤ st.current) (b : Bool) {st' : BSt}
    (hr : st'.realEnd = (nl e st).realEnd) (hc : st'.current = (nl e st).current) :
    lineStop src st' (lastOf e) b = st.current := by
  unfold lineStop
  rw [if_neg (by simp [isNl_lastOf he]), hr, hc]
  rcases he with rfl | rfl | rfl | rfl
  · simp [nl]
  · simp [nl]
  · rw [if_pos (by simp [nl]; omega)]; rfl
  · rw [if_pos (by simp [nl]; omega)]; rfl

theorem ends_last (he : LineEnding e) (b : Bool) : ends (lastOf e) b = true := by
  simp [ends, isNl_lastOf he]

theorem ends_char (hc : isNl c = false) : ends c false = false := by
  simp [ends, hc]

theorem leads_end (h : At src st []) (hp : P st) : Leads fx rec src w st P := by
  refine ⟨st, hp, fun n => ?_⟩
  rw [runL]
  unfold blockStep
  obtain ⟨pre, rfl, h1⟩ := h
  rw [show (pre ++ [])[st.current]? = none by simp [h1]]

/-- A character that keeps the state. -/
theorem leads_char {s : Str} (ha : At src st (c :: s)) (hc : isNl c = false) (hs : s ≠ [])
    (hd : dispatch fx rec src w st c false = .ok (.inl st')) (hcur : st'.current = st.current + 1)
    (h : Leads fx rec src w st' P) : Leads fx rec src w st P :=
  Leads.step (by rw [step_char ha hc hs, hd]) (by omega) ha.get.1 h

/-- A line ending. -/
theorem leads_nl {s : Str} (he : LineEnding e) (hu : Uses e src) (ho : Ok e st)
    (ha : At src st (e ++ s))
    (hd : dispatch fx rec src w (nl e st) (lastOf e) s.isEmpty = .ok (.inl st'))
    (hcur : st'.current = st.current + e.length) (h : Leads fx rec src w st' P) :
    Leads fx rec src w st P := by
  have hne := List.length_pos_iff.2 (ending_ne he)
  exact Leads.step (by rw [step_nl he hu ho ha, hd]) (by omega)
    (ha.lt (by simp [ending_ne he])) h

theorem oneLine_isNl {l : Str} (h : OneLine l) : ∀ c ∈ l, isNl c = false := by
  intro c hc
  have := h c hc
  simp [isNl, this.1, this.2]

/-- Some characters that keep the state. -/
theorem leads_keep {s : Str} : ∀ (l : Str) (st : BSt), OneLine l → s ≠ [] →
    (∀ c ∈ l, ∀ cur, st.current ≤ cur → dispatch fx rec src w { st with current := cur } c false =
      BSt.brk { st with current := cur }) →
    At src st (l ++ s) →
    Leads fx rec src w { st with current := st.current + l.length } P → Leads fx rec src w st P
  | [], _, _, _, _, _, h => h
  | c :: l, st, hl, hs, hk, ha, h => by
    have hl' : OneLine l := fun x hx => hl x (by simp [hx])
    refine leads_char (st' := { st with current := st.current + 1 }) ha
      (oneLine_isNl hl c (by simp)) (by simp [hs]) (hk c (by simp) st.current (Nat.le_refl _)) rfl ?_
    refine leads_keep l _ hl' hs (fun x hx cur hc => hk x (by simp [hx]) cur ?_) (ha.next rfl) ?_
    · exact Nat.le_trans (Nat.le_succ _) hc
    · rw [List.length_cons, Nat.add_comm l.length 1, ← Nat.add_assoc] at h
      exact h

/-- The rest of a line. -/
theorem leads_scan {s l : Str} (hq : st.state ∈ [BState.paragraph, .html, .blockquoteStart, .codeStart,
    .ulStart, .olStart, .headerTitle]) (hl : OneLine l) (hs : s ≠ []) (ha : At src st (l ++ s))
    (h : Leads fx rec src w { st with current := st.current + l.length } P) :
    Leads fx rec src w st P := by
  refine leads_keep l st hl hs ?_ ha h
  intro c hc cur _
  have hn := ends_char (oneLine_isNl hl c hc)
  simp only [List.mem_cons, List.not_mem_nil, or_false] at hq
  rcases hq with hq | hq | hq | hq | hq | hq | hq <;>
    simp [dispatch, hq, paragraph, html, blockquoteStart, codeStart, ulStart, olStart, headerTitle, hn]

/-! ### Results -/

/-- The results of the parser. -/
structure Out where
  rv : Str
  endExcerpt : Nat
  firstHeader : Option Str
  description : Option Str
  headers : List Toctree.Header

def out (st : BSt) : Out := ⟨st.rv, st.endExcerpt, st.firstHeader, st.description, st.headers⟩

/-- What one part of the text adds. -/
def absorb (w : Want) (e : Str) (o : Out) : Piece → Out
  | .block h => { o with rv := o.rv ++ h }
  | .header n t h =>
    { o with
      rv := o.rv ++ (Piece.header n t h).html e
      firstHeader := if w.firstHeader = true ∧ o.firstHeader = none then some (htmlentities t)
        else o.firstHeader
      headers := if w.headers then Toctree.append o.headers n (some (slugify t)) (some h)
        else o.headers }
  | .para ls h =>
    { o with
      rv := o.rv ++ (Piece.para ls h).html e
      description := if w.description = true ∧ o.description = none then
          some (fixDescription (List.intercalate e ls)) else o.description }
  | .mark => { o with endExcerpt := o.rv.length }

/-- The state between two elements. -/
structure Between (e src s : Str) (st : BSt) : Prop where
  pos : At src st s
  state : st.state = .startLine
  lines : st.lines = []
  lines2 : st.lines2 = .live []
  ok : Ok e st

/-- From the state between two elements, the part `p` and then `s` are read. -/
def Rest (fx : Bool) (rec : Str → Str → Run Str) (src : Str) (w : Want) (e s : Str) (o : Out)
    (P : BSt → Prop) : Prop :=
  ∀ st, Between e src s st → out st = o → Leads fx rec src w st P

/-! ### Paragraphs and HTML -/

/-- The two kinds of elements that are copied from the text. -/
structure Copied (fx : Bool) (rec : Str → Str → Run Str) (src : Str) (w : Want) (q qe : BState)
    (fin : BSt → Byte → Bool → Run (BSt ⊕ BSt)) : Prop where
  scan : q ∈ [BState.paragraph, .html, .blockquoteStart, .codeStart, .ulStart, .olStart, .headerTitle]
  last : ∀ st c, st.state = q → isNl c = true →
    dispatch fx rec src w st c true = fin { st with state := qe, stop := lineStop src st c true } c true
  line : ∀ st c, st.state = q → isNl c = true →
    dispatch fx rec src w st c false = { st with state := qe, stop := lineStop src st c false }.brk
  fin : ∀ st c b, st.state = qe → isNl c = true → dispatch fx rec src w st c b = fin st c b
  more : ∀ st c, st.state = qe → isNl c = false →
    dispatch fx rec src w st c false = (st.goto q).brk

theorem copied_para : Copied fx rec src w .paragraph .paragraphEnd (paragraphEnd src w) where
  scan := by simp
  last := by intro st c h hc; simp [dispatch, h, paragraph, ends]
  line := by intro st c h hc; simp [dispatch, h, paragraph, ends, hc]
  fin := by intro st c b h hc; simp [dispatch, h]
  more := by intro st c h hc; simp [dispatch, h, paragraphEnd, ends, hc]

theorem copied_html : Copied fx rec src w .html .htmlEnd (htmlEnd src) where
  scan := by simp
  last := by intro st c h hc; simp [dispatch, h, html, ends]
  line := by intro st c h hc; simp [dispatch, h, html, ends, hc]
  fin := by intro st c b h hc; simp [dispatch, h]
  more := by intro st c h hc; simp [dispatch, h, htmlEnd, ends, hc]

theorem intercalate_two (e l x : Str) (ls : List Str) :
    List.intercalate e (l :: x :: ls) = l ++ e ++ List.intercalate e (x :: ls) := by
  simp [List.intercalate, List.intersperse]

theorem intercalate_one (e l : Str) : List.intercalate e [l] = l := by
  simp [List.intercalate]

/-- `T` has been read, the lines `ls` follow. -/
theorem leads_copied {q qe : BState} {fin : BSt → Byte → Bool → Run (BSt ⊕ BSt)}
    (hk : Copied fx rec src w q qe fin) (he : LineEnding e) (hu : Uses e src) {t s : Str}
    (ht : Ended e t s) {o : Out} : ∀ (ls : List Str) (T : Str) (st : BSt),
    (∀ x ∈ ls, OneLine x ∧ x ≠ []) → At src st (e ++ (textLines e ls ++ t)) → st.state = q →
    1 ≤ st.current → st.lines = [] → st.lines2 = .live [] → Ok e st →
    Span src st.start T st.current →
    (∀ st' c b, isNl c = true → st'.lines = [] → st'.lines2 = .live [] → Ok e st' →
      st'.lineEnding = e → out st' = out st →
      Span src st'.start (List.intercalate e (T :: ls)) st'.stop →
      ∃ st'', fin st' c b = .ok (.inl st'') ∧ st''.current = st'.current + 1 ∧ out st'' = o ∧
        st''.state = .startLine ∧ st''.lines = [] ∧ st''.lines2 = .live [] ∧ Ok e st'') →
    Rest fx rec src w e s o P → Leads fx rec src w st P
  | [], T, st, _, ha, hq, h1, hl, hl2, ho, hs, hf, hr => by
    have ha : At src st (e ++ t) := by simpa [textLines] using ha
    cases ht with
    | last =>
      obtain ⟨st'', h2, h3, h4, h5, h6, h7, h8⟩ := hf
        { nl e st with state := qe, stop := lineStop src (nl e st) (lastOf e) true } (lastOf e) true
        (isNl_lastOf he) hl hl2 (ok_nl he) rfl rfl (by
          rw [lineStop_nl he h1 true rfl rfl, intercalate_one]
          exact hs)
      have h3' : st''.current = st.current + e.length := by
        rw [h3]; exact nl_current he
      refine leads_nl he hu ho ha (st' := st'') ?_ h3' ?_
      · rw [← h2]
        exact hk.last (nl e st) (lastOf e) hq (isNl_lastOf he)
      · exact hr st'' ⟨ha.skip h3', h5, h6, h7, h8⟩ h4
    | blank =>
      have hstep : dispatch fx rec src w (nl e st) (lastOf e) (e ++ s).isEmpty =
          .ok (.inl { nl e st with
            state := qe, stop := lineStop src (nl e st) (lastOf e) false
            current := (nl e st).current + 1 }) := by
        rw [show (e ++ s).isEmpty = false by simp [ending_ne he]]
        exact hk.line (nl e st) (lastOf e) hq (isNl_lastOf he)
      refine leads_nl he hu ho ha hstep (nl_current he) ?_
      have ha2 := ha.skip (st' := { nl e st with
            state := qe, stop := lineStop src (nl e st) (lastOf e) false
            current := (nl e st).current + 1 }) (nl_current he)
      obtain ⟨st'', h2, h3, h4, h5, h6, h7, h8⟩ := hf
        (nl e { nl e st with
            state := qe, stop := lineStop src (nl e st) (lastOf e) false
            current := (nl e st).current + 1 }) (lastOf e) s.isEmpty
        (isNl_lastOf he) hl hl2 (ok_nl he) rfl rfl (by
          have : (nl e { nl e st with
            state := qe, stop := lineStop src (nl e st) (lastOf e) false
            current := (nl e st).current + 1 }).stop = st.current := lineStop_nl (src := src) he h1 false rfl rfl
          rw [this, intercalate_one]
          exact hs)
      have h3' : st''.current = (nl e st).current + 1 + e.length := by
        rw [h3]; exact nl_current he
      refine leads_nl he hu ?_ ha2 (st' := st'') ?_ h3' ?_
      · exact ok_nl (st := st) he
      · rw [← h2]
        exact hk.fin _ (lastOf e) _ rfl (isNl_lastOf he)
      · exact hr st'' ⟨ha2.skip h3', h5, h6, h7, h8⟩ h4
  | (x :: ls), T, st, hls, ha, hq, h1, hl, hl2, ho, hs, hf, hr => by
    have hx := hls x (by simp)
    obtain ⟨y, r, rfl⟩ : ∃ y r, x = y :: r := List.exists_cons_of_ne_nil hx.2
    have hy := oneLine_isNl hx.1
    have ha : At src st (e ++ (y :: (r ++ (e ++ (textLines e ls ++ t))))) := by
      simpa [textLines] using ha
    have hstep : dispatch fx rec src w (nl e st) (lastOf e)
        (y :: (r ++ (e ++ (textLines e ls ++ t)))).isEmpty =
          .ok (.inl { nl e st with
            state := qe, stop := lineStop src (nl e st) (lastOf e) false
            current := (nl e st).current + 1 }) :=
      hk.line (nl e st) (lastOf e) hq (isNl_lastOf he)
    refine leads_nl he hu ho ha hstep (nl_current he) ?_
    have ha2 := ha.skip (st' := { nl e st with
            state := qe, stop := lineStop src (nl e st) (lastOf e) false
            current := (nl e st).current + 1 }) (nl_current he)
    have hne : r ++ (e ++ (textLines e ls ++ t)) ≠ [] := by simp [ending_ne he]
    refine leads_char (st' := { nl e st with
            state := q, stop := lineStop src (nl e st) (lastOf e) false
            current := (nl e st).current + 1 + 1 }) ha2 (hy y (by simp)) hne ?_ rfl ?_
    · rw [hk.more _ y rfl (hy y (by simp))]; rfl
    have ha3 := ha2.next (st' := { nl e st with
            state := q, stop := lineStop src (nl e st) (lastOf e) false
            current := (nl e st).current + 1 + 1 }) rfl
    refine leads_scan hk.scan (l := r) (fun z hz => hx.1 z (by simp [hz])) (by simp [ending_ne he])
      ha3 ?_
    have hsp : Span src st.start (T ++ e ++ y :: r) (st.current + (e ++ y :: r).length) := by
      rw [List.append_assoc]
      exact hs.append (st := st) (s := e ++ y :: r) (t := e ++ (textLines e ls ++ t))
        (by simpa using ha) rfl
    have hcur : (nl e st).current + 1 + 1 + r.length = st.current + (e ++ y :: r).length := by
      have := nl_current (st := st) he
      simp
      omega
    refine leads_copied hk he hu ht ls (T ++ e ++ y :: r) _ (fun z hz => hls z (by simp [hz]))
      (ha3.skip rfl) rfl (by simp; omega) hl hl2 (ok_nl (st := st) he) ?_ ?_ hr
    · simp only
      rw [hcur]
      exact hsp
    · intro st' c b g1 g2 g3 g4 g5 g6 g7
      refine hf st' c b g1 g2 g3 g4 g5 g6 ?_
      rw [intercalate_two]
      cases ls with
      | nil => rw [intercalate_one] at g7 ⊢; exact g7
      | cons z ls =>
        rw [intercalate_two] at g7 ⊢
        simpa using g7

/-! ### The first line of a paragraph -/

/-- What the beginning of a line leaves alone. -/
structure Loc (st st' : BSt) : Prop where
  lines : st'.lines = st.lines
  lines2 : st'.lines2 = st.lines2
  realEnd : st'.realEnd = st.realEnd
  ending : st'.lineEnding = st.lineEnding
  found : st'.lineEndingFound = st.lineEndingFound
  out : out st' = out st

theorem Loc.ok (h : Loc st st') (ho : Ok e st) : Ok e st' :=
  ⟨by rw [h.found, h.ending]; exact ho.1, by rw [h.realEnd]; exact ho.2⟩

/-- The `#` of a header. -/
theorem leads_hashes {s : Str} (hs : s ≠ []) : ∀ (k : Nat) (st : BSt),
    At src st (List.replicate k c!"#" ++ s) → st.state = .header →
    Leads fx rec src w { st with current := st.current + k, headerLevel := st.headerLevel + k } P →
    Leads fx rec src w st P
  | 0, _, _, _, h => h
  | k + 1, st, ha, hq, h => by
    refine leads_char (c := c!"#") (s := List.replicate k c!"#" ++ s)
      (st' := { st with current := st.current + 1, headerLevel := st.headerLevel + 1 }) ha rfl
      (by simp [hs]) ?_ rfl ?_
    · simp [dispatch, hq, header, BSt.brk]
    · refine leads_hashes hs k _ (At.next (c := c!"#") ha rfl) hq ?_
      rw [show st.current + (k + 1) = st.current + 1 + k by omega,
        show st.headerLevel + (k + 1) = st.headerLevel + 1 + k by omega] at h
      exact h

theorem oneLine_right {a b : Str} (h : OneLine (a ++ b)) : OneLine b :=
  fun c hc => h c (List.mem_append_right _ hc)

theorem oneLine_left {a b : Str} (h : OneLine (a ++ b)) : OneLine a :=
  fun c hc => h c (List.mem_append_left _ hc)

theorem oneLine_replicate {k : Nat} {d : Byte} (h : isNl d = false) : OneLine (List.replicate k d) := by
  intro c hc
  rw [List.eq_of_mem_replicate hc]
  simp only [isNl, Bool.or_eq_false_iff, beq_eq_false_iff_ne] at h
  exact h

theorem mem_digits : ∀ c : Byte, c ∈ b!"0123456789" ↔ isDig c = true := by
  have : ∀ n : Fin 256, UInt8.ofFin n ∈ b!"0123456789" ↔ isDig (UInt8.ofFin n) = true := by
    decide +kernel
  exact fun c => this c.toFin

theorem blank_iff (c : Byte) : Blank c ↔ isSp c = true := by
  simp [Blank, isSp]

theorem not_blank (h : ¬ Blank c) : isSp c = false := by
  cases hc : isSp c with
  | false => rfl
  | true => exact absurd ((blank_iff c).2 hc) h

theorem mem_marks {d : Byte} (h : d ∈ b!"*+-") : d = c!"*" ∨ d = c!"+" ∨ d = c!"-" := by
  simpa using h

theorem marks_isNl {d : Byte} (h : d ∈ b!"*+-") : isNl d = false := by
  rcases mem_marks h with rfl | rfl | rfl <;> rfl

/-- The first character of an element. -/
theorem leads_first {s : Str} (ha : At src st (c :: s)) (hc : isNl c = false) (hs : s ≠ [])
    (hq : st.state = .startLine) {st' : BSt}
    (hd : startLine w st c false = .ok (.inl st')) (hcur : st'.current = st.current + 1)
    (h : Leads fx rec src w st' P) : Leads fx rec src w st P :=
  leads_char ha hc hs (by rw [← hd]; simp [dispatch, hq]) hcur h

theorem startLine_mark {d : Byte} (h : d ∈ b!"*+-") :
    startLine w st d false = .ok (.inl { st with
      start := st.current, start2 := st.current, state := .ulOrHrOrEm, d := d
      current := st.current + 1 }) := by
  rcases mem_marks h with rfl | rfl | rfl <;> simp [startLine, ends, isNl, BSt.brk]

theorem startLine_digit (h : isDig c = true) :
    startLine w st c false = .ok (.inl { st with
      start := st.current, start2 := st.current, state := .ol, current := st.current + 1 }) := by
  have hall : ∀ n : Fin 256, isDig (UInt8.ofFin n) = true → isNl (UInt8.ofFin n) = false ∧
      UInt8.ofFin n ≠ c!"." ∧ UInt8.ofFin n ≠ c!"#" ∧ UInt8.ofFin n ≠ c!"*" ∧ UInt8.ofFin n ≠ c!"+" ∧
      UInt8.ofFin n ≠ c!"-" := by decide +kernel
  obtain ⟨h1, h2, h3, h4, h5, h6⟩ := hall c.toFin h
  have h1 : isNl c = false := h1
  have h2 : c ≠ c!"." := h2
  have h3 : c ≠ c!"#" := h3
  have h4 : c ≠ c!"*" := h4
  have h5 : c ≠ c!"+" := h5
  have h6 : c ≠ c!"-" := h6
  unfold startLine
  rw [if_neg (by simp [ends, h1]), if_neg (by simp [h2]), if_neg h3, if_neg (by simp [h4, h5, h6]),
    if_pos h]
  rfl

theorem startLine_blank (h : isSp c = true) :
    startLine w st c false = .ok (.inl { st with
      start := st.current, start2 := st.current, state := .code, current := st.current + 1 }) := by
  rw [← blank_iff] at h
  rcases h with rfl | rfl <;> simp [startLine, ends, isNl, isSp, isDig, BSt.brk]

theorem isDig_isNl : ∀ c : Byte, isDig c = true → isNl c = false := by
  have : ∀ n : Fin 256, isDig (UInt8.ofFin n) = true → isNl (UInt8.ofFin n) = false := by decide +kernel
  exact fun c => this c.toFin

theorem para_first {l s : Str} (hp : ParaStart w.excerpt l) (hl : OneLine l) (hs : s ≠ [])
    (ha : At src st (l ++ s)) (hq : st.state = .startLine)
    (h : ∀ st', st'.state = .paragraph → st'.current = st.current + l.length →
      st'.start = st.current → Loc st st' → Leads fx rec src w st' P) : Leads fx rec src w st P := by
  have loc : ∀ {cur start start2 d hlev ee q}, Loc st { st with
      current := cur, start := start, start2 := start2, d := d, headerLevel := hlev, eend := ee
      state := q } := ⟨rfl, rfl, rfl, rfl, rfl, rfl⟩
  -- after the first character, in the state of paragraphs
  have plain : ∀ {c : Byte} {r : Str}, OneLine (c :: r) → At src st (c :: r ++ s) →
      (startLine w st c false = .ok (.inl { st with
        start := st.current, state := .paragraph, current := st.current + 1 })) →
      (∀ st', st'.state = .paragraph → st'.current = st.current + (c :: r).length →
        st'.start = st.current → Loc st st' → Leads fx rec src w st' P) → Leads fx rec src w st P := by
    intro c r hl ha hd h
    refine leads_first (c := c) (s := r ++ s) ha (oneLine_isNl hl c (by simp)) (by simp [hs]) hq hd rfl ?_
    refine leads_scan (s := s) (l := r) (by simp) (oneLine_right (a := [c]) hl) hs
      (At.next (c := c) ha rfl) ?_
    refine h _ rfl ?_ rfl loc
    simp
    omega
  cases hp with
  | @char c r hc =>
    refine plain hl ha ?_ h
    have hn := oneLine_isNl hl c (by simp)
    have hdig : isDig c = false := by
      cases hd : isDig c with
      | false => rfl
      | true =>
        have := (mem_digits c).2 hd
        simp only [List.mem_cons, List.not_mem_nil, or_false, not_or] at hc this
        simp [hc] at this
    simp only [List.mem_cons, List.not_mem_nil, or_false, not_or] at hc
    have hsp : isSp c = false := by simp [isSp, hc]
    unfold startLine
    rw [if_neg (by simp [ends_char hn]), if_neg (by simp [hc]), if_neg (by simp [hc]),
      if_neg (by simp [hc]), if_neg (by simp [hdig]), if_neg (by simp [hsp]), if_neg (by simp [hc]),
      if_neg (by simp [hc])]
    rfl
  | inner htop =>
    refine plain hl ha ?_ h
    simp [startLine, ends, isNl, isDig, isSp, htop, BSt.brk, BSt.goto]
  | @dots k x r hk hx =>
    obtain ⟨k, rfl⟩ : ∃ m, k = m + 1 := ⟨k - 1, by omega⟩
    cases htop : w.excerpt with
    | false =>
      refine plain (c := c!".") (r := List.replicate k c!"." ++ x :: r) hl ha ?_ h
      simp [startLine, ends, isNl, isDig, isSp, htop, BSt.brk, BSt.goto]
    | true =>
      have hn := oneLine_isNl hl
      have ha0 : At src st (c!"." :: (List.replicate k c!"." ++ (x :: (r ++ s)))) := by
        simpa [List.replicate_succ] using ha
      refine leads_first (st' := { st with
        start := st.current, eend := st.rv.length, state := .excerpt, current := st.current + 1 })
        ha0 rfl (by simp) hq ?_ rfl ?_
      · simp [startLine, ends, isNl, htop, BSt.brk]
      refine leads_keep (List.replicate k c!".") _ (oneLine_replicate rfl)
        (s := x :: (r ++ s)) (by simp) ?_ (ha0.next rfl) ?_
      · intro c hc cur _
        rw [List.eq_of_mem_replicate hc]
        simp [dispatch, excerpt, htop]
      have ha1 := At.skip (s := c!"." :: List.replicate k c!".") (t := x :: (r ++ s))
        (st' := { st with
          start := st.current, eend := st.rv.length, state := .excerpt
          current := st.current + 1 + (List.replicate k c!".").length }) ha0 (by simp; omega)
      have hnx : isNl x = false := hn x (by simp)
      refine leads_char (st' := { st with
          start := st.current, eend := 0, state := .paragraph
          current := st.current + 1 + (List.replicate k c!".").length + 1 }) ha1 hnx (by simp [hs]) ?_ rfl ?_
      · simp [dispatch, excerpt, hx, hnx, BSt.brk]
      refine leads_scan (s := s) (l := r) (by simp) ?_ hs (ha1.next rfl) ?_
      · exact fun c hc => hl c (by simp [hc])
      · refine h _ rfl ?_ rfl loc
        simp
        omega
  | @hashes k x r hk hx hb =>
    obtain ⟨k, rfl⟩ : ∃ m, k = m + 1 := ⟨k - 1, by omega⟩
    have hn := oneLine_isNl hl
    have ha0 : At src st (c!"#" :: (List.replicate k c!"#" ++ (x :: (r ++ s)))) := by
      simpa [List.replicate_succ] using ha
    refine leads_first (st' := { st with
      start := st.current, headerLevel := 1, state := .header, current := st.current + 1 })
      ha0 rfl (by simp) hq (by simp [startLine, ends, isNl, BSt.brk]) rfl ?_
    refine leads_hashes (by simp) k _ (ha0.next rfl) rfl ?_
    have ha1 := At.skip (s := c!"#" :: List.replicate k c!"#") (t := x :: (r ++ s))
        (st' := { st with
          start := st.current, headerLevel := 1 + k, state := .header
          current := st.current + 1 + k }) ha0 (by simp; omega)
    refine leads_char (st' := { st with
          start := st.current, headerLevel := 1 + k, state := .paragraph
          current := st.current + 1 + k + 1 }) ha1 (hn x (by simp)) (by simp [hs]) ?_ rfl ?_
    · simp [dispatch, header, hx, not_blank hb, BSt.brk, BSt.goto]
    refine leads_scan (s := s) (l := r) (by simp) ?_ hs (ha1.next rfl) ?_
    · exact fun c hc => hl c (by simp [hc])
    · refine h _ rfl ?_ rfl loc
      simp
      omega
  | @italic x r hx hb =>
    have hn := oneLine_isNl hl
    refine leads_first (c := c!"*") (s := x :: (r ++ s)) ha rfl (by simp) hq
      (startLine_mark (by decide)) rfl ?_
    have ha1 := At.next (c := c!"*") (s := x :: (r ++ s)) (st' := { st with
      start := st.current, start2 := st.current, state := .ulOrHrOrEm, d := c!"*"
      current := st.current + 1 }) ha rfl
    refine leads_char (st' := { st with
      start := st.current, start2 := st.current, state := .paragraph, d := c!"*"
      current := st.current + 1 + 1 }) ha1 (hn x (by simp)) (by simp [hs]) ?_ rfl ?_
    · simp [dispatch, ulOrHrOrEm, hx, not_blank hb, BSt.brk, BSt.goto]
    refine leads_scan (s := s) (l := r) (by simp) ?_ hs (ha1.next rfl) ?_
    · exact fun c hc => hl c (by simp [hc])
    · refine h _ rfl ?_ rfl loc
      simp
      omega
  | @marks d x k r hd hk hx =>
    have hn := oneLine_isNl hl
    have hnx := hn x (by simp)
    have hnd := marks_isNl hd
    obtain ⟨k, rfl⟩ : ∃ m, k = m + 2 := ⟨k - 2, by omega⟩
    have ha0 : At src st (d :: d :: (List.replicate k d ++ (x :: (r ++ s)))) := by
      simpa [List.replicate_succ] using ha
    refine leads_first ha0 hnd (by simp) hq (startLine_mark hd) rfl ?_
    have ha1 := At.next (st' := { st with
      start := st.current, start2 := st.current, state := .ulOrHrOrEm, d := d
      current := st.current + 1 }) ha0 rfl
    refine leads_char (st' := { st with
      start := st.current, start2 := st.current, state := .hrOrEm, d := d
      current := st.current + 1 + 1 }) ha1 hnd (by simp) ?_ rfl ?_
    · simp [dispatch, ulOrHrOrEm, BSt.brk, BSt.goto]
    have ha2 := ha1.next (st' := { st with
      start := st.current, start2 := st.current, state := .hrOrEm, d := d
      current := st.current + 1 + 1 }) rfl
    have hlr : OneLine r := fun c hc => hl c (by simp [hc])
    cases k with
    | zero =>
      refine leads_char (st' := { st with
        start := st.current, start2 := st.current, state := .paragraph, d := d
        current := st.current + 1 + 1 + 1 }) ha2 hnx (by simp [hs]) ?_ rfl ?_
      · simp [dispatch, hrOrEm, hx, BSt.brk, BSt.goto]
      refine leads_scan (s := s) (l := r) (by simp) hlr hs (ha2.next rfl) ?_
      refine h _ rfl ?_ rfl loc
      simp
      omega
    | succ k =>
      have ha2' : At src { st with
        start := st.current, start2 := st.current, state := .hrOrEm, d := d
        current := st.current + 1 + 1 } (d :: (List.replicate k d ++ (x :: (r ++ s)))) := by
        simpa [List.replicate_succ] using ha2
      refine leads_char (st' := { st with
        start := st.current, start2 := st.current, state := .hr, d := d
        current := st.current + 1 + 1 + 1 }) ha2' hnd (by simp) ?_ rfl ?_
      · simp [dispatch, hrOrEm, BSt.brk, BSt.goto]
      refine leads_keep (List.replicate k d) _ (oneLine_replicate hnd) (s := x :: (r ++ s)) (by simp) ?_
        (ha2'.next rfl) ?_
      · intro c hc cur _
        rw [List.eq_of_mem_replicate hc]
        simp [dispatch, hr]
      rw [List.length_replicate]
      have ha3 := At.skip (s := d :: List.replicate k d) (t := x :: (r ++ s)) (st' := { st with
        start := st.current, start2 := st.current, state := .hr, d := d
        current := st.current + 1 + 1 + 1 + k }) ha2' (by simp; omega)
      refine leads_char (st' := { st with
        start := st.current, start2 := st.current, state := .paragraph, d := d
        current := st.current + 1 + 1 + 1 + k + 1 }) ha3 hnx (by simp [hs]) ?_ rfl ?_
      · simp [dispatch, hr, hx, ends_char hnx, BSt.brk, BSt.goto]
      refine leads_scan (s := s) (l := r) (by simp) hlr hs (ha3.next rfl) ?_
      refine h _ rfl ?_ rfl loc
      simp
      omega
  | @number ds x r hd hx =>
    have hn := oneLine_isNl hl
    obtain ⟨hne, hdig⟩ := hd
    obtain ⟨d, ds, rfl⟩ := List.exists_cons_of_ne_nil hne
    have hdig' : ∀ c ∈ d :: ds, isDig c = true := fun c hc => (mem_digits c).1 (hdig c hc)
    have hxd : isDig x = false := by
      cases hxx : isDig x with
      | false => rfl
      | true =>
        have := (mem_digits x).2 hxx
        simp only [List.mem_cons, List.not_mem_nil, or_false, not_or] at hx this
        simp [hx] at this
    have hxp : x ≠ c!"." := by
      simp only [List.mem_cons, List.not_mem_nil, or_false, not_or] at hx
      exact hx.2.2.2.2.2.2.2.2.2.2
    have ha0 : At src st (d :: (ds ++ (x :: (r ++ s)))) := by simpa using ha
    refine leads_first ha0 (hn d (by simp)) (by simp) hq (startLine_digit (hdig' d (by simp))) rfl ?_
    refine leads_keep ds _ (fun c hc => hl c (by simp [hc])) (s := x :: (r ++ s)) (by simp) ?_
      (ha0.next rfl) ?_
    · intro c hc cur _
      simp [dispatch, ol, hdig' c (by simp [hc])]
    have ha1 := At.skip (s := d :: ds) (t := x :: (r ++ s)) (st' := { st with
      start := st.current, start2 := st.current, state := .ol
      current := st.current + 1 + ds.length }) ha0 (by simp; omega)
    refine leads_char (st' := { st with
      start := st.current, start2 := st.current, state := .paragraph
      current := st.current + 1 + ds.length + 1 }) ha1 (hn x (by simp)) (by simp [hs]) ?_ rfl ?_
    · simp [dispatch, ol, hxd, hxp, BSt.brk, BSt.goto]
    refine leads_scan (s := s) (l := r) (by simp) ?_ hs (ha1.next rfl) ?_
    · exact fun c hc => hl c (by simp [hc])
    · refine h _ rfl ?_ rfl loc
      simp
      omega

/-! ### Paragraphs and HTML blocks -/

theorem leads_para {l t s h : Str} {ls : List Str} (he : LineEnding e) (hu : Uses e src)
    (hp : ParaStart w.excerpt l) (hls : ∀ x ∈ l :: ls, OneLine x ∧ x ≠ [])
    (hi : parseInline (List.intercalate e (l :: ls)) = .ok h) (ht : Ended e t s)
    (hb : Between e src (textLines e (l :: ls) ++ t) st)
    (hr : Rest fx rec src w e s (absorb w e (out st) (.para (l :: ls) h)) P) :
    Leads fx rec src w st P := by
  have ha : At src st (l ++ (e ++ (textLines e ls ++ t))) := by
    simpa [textLines] using hb.pos
  refine para_first hp (hls l (by simp)).1 (by simp [ending_ne he]) ha hb.state ?_
  intro st' h1 h2 h3 h4
  have hlen := List.length_pos_iff.2 (hls l (by simp)).2
  refine leads_copied copied_para he hu ht ls l st' (fun x hx => hls x (by simp [hx]))
    (ha.skip h2) h1 (by omega) (h4.lines.trans hb.lines) (h4.lines2.trans hb.lines2)
    (h4.ok hb.ok) (by rw [h3, h2]; exact ha.span) ?_ hr
  intro st2 c b g1 g2 g3 g4 g5 g6 g7
  rw [h4.out] at g6
  have ho := g6
  unfold out at g6
  injection g6 with o1 o2 o3 o4 o5
  refine ⟨{ st2 with
      description := if w.description = true ∧ st2.description = none then
        some (fixDescription (List.intercalate e (l :: ls))) else st2.description
      rv := st2.rv ++ b!"<p>" ++ h ++ b!"</p>" ++ st2.lineEnding
      state := .startLine
      start := st2.current
      current := st2.current + 1 }, ?_, rfl, ?_, rfl, g2, g3, g4⟩
  · unfold paragraphEnd
    rw [if_pos (by simp [ends, g1]), g7.dup]
    simp only [Run.bind_ok]
    rw [hi]
    rfl
  simp [out, absorb, Piece.html, o1, o2, o3, o4, o5, g5]
  congr

theorem leads_html {l t s : Str} {ls : List Str} (he : LineEnding e) (hu : Uses e src)
    (hls : ∀ x ∈ (c!"<" :: l) :: ls, OneLine x ∧ x ≠ []) (ht : Ended e t s)
    (hb : Between e src (textLines e ((c!"<" :: l) :: ls) ++ t) st)
    (hr : Rest fx rec src w e s
      (absorb w e (out st) (.block (List.intercalate e ((c!"<" :: l) :: ls) ++ e))) P) :
    Leads fx rec src w st P := by
  have ha : At src st (c!"<" :: (l ++ (e ++ (textLines e ls ++ t)))) := by
    simpa [textLines] using hb.pos
  have h1 := (hls (c!"<" :: l) (by simp)).1
  refine leads_first ha rfl (by simp [ending_ne he]) hb.state (st' := { st with
    start := st.current, state := .html, current := st.current + 1 })
    (by simp [startLine, ends, isNl, isDig, isSp, BSt.brk, BSt.goto]) rfl ?_
  have ha1 := ha.next (st' := { st with
    start := st.current, state := .html, current := st.current + 1 }) rfl
  refine leads_scan (by simp) (fun c hc => h1 c (by simp [hc])) (by simp [ending_ne he]) ha1 ?_
  refine leads_copied copied_html he hu ht ls (c!"<" :: l) _ (fun x hx => hls x (by simp [hx]))
    (ha1.skip rfl) rfl (by simp; omega) hb.lines hb.lines2 hb.ok ?_ ?_ hr
  · have := At.span (s := c!"<" :: l) (t := e ++ (textLines e ls ++ t)) ha
    rw [show st.current + (c!"<" :: l).length = st.current + 1 + l.length by simp; omega] at this
    exact this
  intro st2 c b g1 g2 g3 g4 g5 g6 g7
  have g6 : out st2 = out st := g6
  unfold out at g6
  injection g6 with o1 o2 o3 o4 o5
  refine ⟨{ st2 with
      rv := st2.rv ++ List.intercalate e ((c!"<" :: l) :: ls) ++ st2.lineEnding
      state := .startLine
      start := st2.current
      current := st2.current + 1 }, ?_, rfl, ?_, rfl, g2, g3, g4⟩
  · unfold htmlEnd
    rw [if_pos (by simp [ends, g1]), g7.dup]
    rfl
  simp [out, absorb, o1, o2, o3, o4, o5, g5]

end Blogc.BlockDoc
