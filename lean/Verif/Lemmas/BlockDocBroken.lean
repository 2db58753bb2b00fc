import Verif.Lemmas.BlockDocLines

/-!
# The block parser on code blocks and blockquotes that break off
-/

namespace Blogc.BlockDoc

open Blogc Blogc.Content Blogc.Spec

variable {fx : Bool} {rec : Str → Str → Run Str} {src : Str} {w : Want} {st st' : BSt}
  {P : BSt → Prop} {e : Str} {c : Byte}

/-- The line `x` has been read up to its end, the lines `ls` follow, and then the line `y`, up to
the end of which everything is read. -/
theorem leads_through {q qe : BState} {fin : BSt → Byte → Bool → Run (BSt ⊕ BSt)}
    {K : Option Str → Nat → Prop} {G : Acc → Str → Acc → Prop}
    (hk : Collected fx rec src w e q qe fin K G) (he : LineEnding e) (hu : Uses e src) {t y : Str}
    (hy : OneLine y ∧ y ≠ []) {z : Acc} :
    ∀ (ls : List Str) (x T : Str) (a a1 : Acc) (st : BSt),
    (∀ x ∈ ls, OneLine x ∧ x ≠ []) → At src st (e ++ (textLines e (ls ++ [y]) ++ t)) →
    st.state = q → 1 ≤ st.current → K st.pre st.prefixLen → st.lines = a.1 → st.lines2 = .live a.2 →
    Ok e st → Span src st.start2 x st.current → Span src st.start T st.current →
    G a x a1 → Steps G a1 ls z →
    (∀ st' : BSt, At src st' (e ++ t) → st'.state = q → 1 ≤ st'.current → K st'.pre st'.prefixLen →
      st'.lines = z.1 → st'.lines2 = .live z.2 → Ok e st' → Span src st'.start2 y st'.current →
      Span src st'.start (List.intercalate e (T :: ls ++ [y])) st'.current → out st' = out st →
      Leads fx rec src w st' P) →
    Leads fx rec src w st P := by
  intro ls
  induction ls with
  | nil =>
    intro x T a a1 st hls ha hq h1 hK hl hl2 ho hs hT hg hz hf
    obtain ⟨y, r, rfl⟩ : ∃ y' r, y = y' :: r := List.exists_cons_of_ne_nil hy.2
    have hy' := oneLine_isNl hy.1
    have ha : At src st (e ++ (y :: (r ++ (e ++ t)))) := by simpa [textLines] using ha
    have : a1 = z := by cases hz; rfl
    subst this
    have hstep : dispatch fx rec src w (nl e st) (lastOf e) (y :: (r ++ (e ++ t))).isEmpty =
          .ok (.inl { nl e st with
            state := qe, stop := lineStop src (nl e st) (lastOf e) false, lines := a1.1
            lines2 := .live a1.2
            current := (nl e st).current + 1 }) :=
      hk.line (nl e st) (lastOf e) false x a a1 hq (isNl_lastOf he) hK
        (by rw [lineStop_nl he h1 false rfl rfl]; exact hs.dup) rfl hl hl2 hg
    refine leads_nl he hu ho ha hstep (nl_current he) ?_
    have ha2 := ha.skip (st' := { nl e st with
            state := qe, stop := lineStop src (nl e st) (lastOf e) false, lines := a1.1
            lines2 := .live a1.2
            current := (nl e st).current + 1 }) (nl_current he)
    refine leads_char (st' := { nl e st with
            state := q, stop := lineStop src (nl e st) (lastOf e) false, lines := a1.1
            lines2 := .live a1.2
            start2 := (nl e st).current + 1
            current := (nl e st).current + 1 + 1 }) ha2 (hy' y (by simp)) (by simp [ending_ne he]) ?_
            rfl ?_
    · rw [hk.more _ y rfl (hy' y (by simp))]; rfl
    have ha3 := ha2.next (st' := { nl e st with
            state := q, stop := lineStop src (nl e st) (lastOf e) false, lines := a1.1
            lines2 := .live a1.2
            start2 := (nl e st).current + 1
            current := (nl e st).current + 1 + 1 }) rfl
    refine leads_scan hk.scan (l := r) (fun z hz => hy.1 z (by simp [hz])) (by simp [ending_ne he])
      ha3 ?_
    have hsp : Span src st.start (T ++ e ++ y :: r) (st.current + (e ++ y :: r).length) := by
      rw [List.append_assoc]
      exact hT.append (st := st) (s := e ++ y :: r) (t := e ++ t) (by simpa using ha) rfl
    have hcur : (nl e st).current + 1 + 1 + r.length = st.current + (e ++ y :: r).length := by
      have := nl_current (st := st) he
      simp
      omega
    refine hf _ (ha3.skip rfl) rfl (by simp; omega) hK rfl rfl (ok_nl (st := st) he) ?_ ?_ rfl
    · have := At.span (s := y :: r) (t := e ++ t) ha2
      rw [List.length_cons, Nat.add_comm r.length 1, ← Nat.add_assoc] at this
      exact this
    · show Span src st.start (List.intercalate e [T, y :: r]) _
      rw [intercalate_two, intercalate_one]
      simp only
      rw [hcur]
      exact hsp
  | cons b ls ih =>
    intro x T a a1 st hls ha hq h1 hK hl hl2 ho hs hT hg hz hf
    have hx := hls b (by simp)
    obtain ⟨b, r, rfl⟩ : ∃ b' r, b = b' :: r := List.exists_cons_of_ne_nil hx.2
    have hb := oneLine_isNl hx.1
    have ha : At src st (e ++ (b :: (r ++ (e ++ (textLines e (ls ++ [y]) ++ t))))) := by
      simpa [textLines] using ha
    obtain ⟨a2, hg2, hz2⟩ : ∃ a2, G a1 (b :: r) a2 ∧ Steps G a2 ls z := by
      cases hz with
      | cons g1 g2 => exact ⟨_, g1, g2⟩
    have hstep : dispatch fx rec src w (nl e st) (lastOf e)
        (b :: (r ++ (e ++ (textLines e (ls ++ [y]) ++ t)))).isEmpty =
          .ok (.inl { nl e st with
            state := qe, stop := lineStop src (nl e st) (lastOf e) false, lines := a1.1
            lines2 := .live a1.2
            current := (nl e st).current + 1 }) :=
      hk.line (nl e st) (lastOf e) false x a a1 hq (isNl_lastOf he) hK
        (by rw [lineStop_nl he h1 false rfl rfl]; exact hs.dup) rfl hl hl2 hg
    refine leads_nl he hu ho ha hstep (nl_current he) ?_
    have ha2 := ha.skip (st' := { nl e st with
            state := qe, stop := lineStop src (nl e st) (lastOf e) false, lines := a1.1
            lines2 := .live a1.2
            current := (nl e st).current + 1 }) (nl_current he)
    refine leads_char (st' := { nl e st with
            state := q, stop := lineStop src (nl e st) (lastOf e) false, lines := a1.1
            lines2 := .live a1.2
            start2 := (nl e st).current + 1
            current := (nl e st).current + 1 + 1 }) ha2 (hb b (by simp)) (by simp [ending_ne he]) ?_
            rfl ?_
    · rw [hk.more _ b rfl (hb b (by simp))]; rfl
    have ha3 := ha2.next (st' := { nl e st with
            state := q, stop := lineStop src (nl e st) (lastOf e) false, lines := a1.1
            lines2 := .live a1.2
            start2 := (nl e st).current + 1
            current := (nl e st).current + 1 + 1 }) rfl
    refine leads_scan hk.scan (l := r) (fun z hz => hx.1 z (by simp [hz])) (by simp [ending_ne he])
      ha3 ?_
    have hsp : Span src st.start (T ++ e ++ b :: r) (st.current + (e ++ b :: r).length) := by
      rw [List.append_assoc]
      exact hT.append (st := st) (s := e ++ b :: r) (t := e ++ (textLines e (ls ++ [y]) ++ t))
        (by simpa using ha) rfl
    have hcur : (nl e st).current + 1 + 1 + r.length = st.current + (e ++ b :: r).length := by
      have := nl_current (st := st) he
      simp
      omega
    refine ih (b :: r) (T ++ e ++ b :: r) a1 a2 _ (fun z hz => hls z (by simp [hz]))
      (ha3.skip rfl) rfl (by simp; omega) hK rfl rfl (ok_nl (st := st) he) ?_ ?_ hg2 hz2 ?_
    · have := At.span (s := b :: r) (t := e ++ (textLines e (ls ++ [y]) ++ t)) ha2
      rw [List.length_cons, Nat.add_comm r.length 1, ← Nat.add_assoc] at this
      exact this
    · simp only
      rw [hcur]
      exact hsp
    · intro st' g1 g2 g3 g4 g5 g6 g7 g8 g9 g10
      refine hf st' g1 g2 g3 g4 g5 g6 g7 g8 ?_ g10
      have : List.intercalate e ((T ++ e ++ b :: r) :: ls ++ [y]) =
          List.intercalate e (T :: (b :: r) :: ls ++ [y]) := by
        cases ls with
        | nil => simp [intercalate_two, intercalate_one]
        | cons z ls => simp [intercalate_two]
      rw [← this]
      exact g9

theorem intercalate_append (e : Str) (a b : List Str) (ha : a ≠ []) (hb : b ≠ []) :
    List.intercalate e (a ++ b) = List.intercalate e a ++ e ++ List.intercalate e b := by
  induction a with
  | nil => exact absurd rfl ha
  | cons u us ih =>
    cases us with
    | nil =>
      obtain ⟨v, vs, rfl⟩ := List.exists_cons_of_ne_nil hb
      simp [intercalate_two, intercalate_one]
    | cons v vs =>
      have := ih (by simp)
      simp only [List.cons_append] at this ⊢
      rw [intercalate_two, intercalate_two, this]
      simp

theorem intercalate_glue (e T x : Str) (ms : List Str) :
    List.intercalate e ((T ++ e ++ x) :: ms) = T ++ e ++ List.intercalate e (x :: ms) := by
  cases ms with
  | nil => rw [intercalate_one, intercalate_one]
  | cons v vs => simp [intercalate_two]

theorem startsWith_iff {y p : Str} : startsWith y p = true ↔ p <+: y := by
  unfold startsWith
  split
  · simp only [Bool.false_eq_true, false_iff]
    intro h
    have := h.length_le
    omega
  · rw [List.prefix_iff_eq_take, beq_iff_eq]
    exact eq_comm

/-- A line of a code block or of a blockquote without the prefix. -/
theorem breaks {q : BState} {p y : Str} (hq : q = .blockquoteStart ∨ q = .codeStart)
    (hs : st.state = q) (hp : st.pre = some p) (hc : isNl c = true)
    (hd : dup src st.start2 (lineStop src st c false) = .ok y) (hy : ¬ p <+: y) :
    dispatch fx rec src w st c false =
      BSt.brk { st with stop := lineStop src st c false, state := .paragraph, pre := none, lines := [] } := by
  have hy' : startsWith y p = false := by
    cases h : startsWith y p with
    | false => rfl
    | true => exact absurd (startsWith_iff.1 h) hy
  rcases hq with rfl | rfl
  · simp only [dispatch, hs]
    unfold blockquoteStart
    rw [if_pos (by simp [ends, hc]), hp]
    simp only
    rw [hd]
    simp [hy']
  · simp only [dispatch, hs]
    unfold codeStart
    rw [if_pos (by simp [ends, hc]), hp]
    simp only
    rw [hd]
    simp [hy']

/-- From the end of the first line of a code block or a blockquote that breaks off. -/
theorem leads_break {q : BState} {p l y m h t s : Str} {ls ms : List Str} {x : Str}
    (hq : q = .blockquoteStart ∨ q = .codeStart) (he : LineEnding e)
    (hu : Uses e src) (hx : x = p ++ l)
    (hls : ∀ x ∈ ls.map (p ++ ·) ++ y :: m :: ms, OneLine x ∧ x ≠ []) (hy : ¬ p <+: y)
    (hi : parseInline (List.intercalate e (x :: (ls.map (p ++ ·) ++ y :: m :: ms))) = .ok h)
    (ht : Ended e t s)
    (ha : At src st (e ++ (textLines e (ls.map (p ++ ·) ++ y :: m :: ms) ++ t)))
    (hst : st.state = q) (h1 : 1 ≤ st.current) (hpre : st.pre = some p) (hl : st.lines = [])
    (hl2 : st.lines2 = .live []) (ho : Ok e st) (hs2 : Span src st.start2 x st.current)
    (hs : Span src st.start x st.current)
    (hr : Rest fx rec src w e s
      (absorb w e (out st) (.para (x :: (ls.map (p ++ ·) ++ y :: m :: ms)) h)) P) :
    Leads fx rec src w st P := by
  have hyl := hls y (by simp)
  have hml := hls m (by simp)
  have hthrough : ∀ {qe fin} (hk : Collected fx rec src w e q qe fin (fun pre _ => pre = some p)
      (Prefixed p)), Leads fx rec src w st P := by
    intro qe fin hk
    refine leads_through (t := textLines e (m :: ms) ++ t) hk he hu hyl (ls.map (p ++ ·)) x x
      ([], []) ([l], []) st
      (fun x hx => hls x (by rw [List.mem_append]; exact .inl hx)) (by simpa [textLines] using ha) hst h1 hpre hl
      hl2 ho hs2 hs ⟨l, hx, rfl⟩ (steps_prefixed p ls [l] []) ?_
    intro st1 b1 b2 b3 b4 b5 b6 b7 b8 b9 b10
    obtain ⟨m, r, rfl⟩ : ∃ m' r, m = m' :: r := List.exists_cons_of_ne_nil hml.2
    have hm := oneLine_isNl hml.1
    have ha1 : At src st1 (e ++ (m :: (r ++ (e ++ (textLines e ms ++ t))))) := by
      simpa [textLines] using b1
    have hstep : dispatch fx rec src w (nl e st1) (lastOf e)
        (m :: (r ++ (e ++ (textLines e ms ++ t)))).isEmpty =
          .ok (.inl { nl e st1 with
            stop := lineStop src (nl e st1) (lastOf e) false, state := .paragraph, pre := none
            lines := [], current := (nl e st1).current + 1 }) :=
      breaks (st := nl e st1) hq b2 b4 (isNl_lastOf he)
        (by rw [lineStop_nl he b3 false rfl rfl]; exact b8.dup) hy
    refine leads_nl he hu b7 ha1 hstep (nl_current he) ?_
    have ha2 := ha1.skip (st' := { nl e st1 with
            stop := lineStop src (nl e st1) (lastOf e) false, state := .paragraph, pre := none
            lines := [], current := (nl e st1).current + 1 }) (nl_current he)
    refine leads_scan (l := m :: r) (s := e ++ (textLines e ms ++ t)) (by simp) hml.1
      (by simp [ending_ne he]) (by simpa using ha2) ?_
    have ha3 := At.skip (s := m :: r) (t := e ++ (textLines e ms ++ t)) (st' := { nl e st1 with
            stop := lineStop src (nl e st1) (lastOf e) false, state := .paragraph, pre := none
            lines := [], current := (nl e st1).current + 1 + (m :: r).length })
            (by simpa using ha2) rfl
    have hcur : (nl e st1).current + 1 + (m :: r).length = st1.current + (e ++ m :: r).length := by
      have := nl_current (st := st1) he
      simp at this ⊢
      omega
    have hsp := b9.append (st := st1) (s := e ++ m :: r) (t := e ++ (textLines e ms ++ t))
        (by simpa using ha1) rfl
    rw [← hcur, ← List.append_assoc] at hsp
    refine leads_copied copied_para he hu ht ms _ _ (fun x hx => hls x (by simp [hx])) ha3 rfl
      (by simp; omega) rfl b6 (ok_nl (st := st1) he) hsp ?_ hr
    have htext : List.intercalate e ((List.intercalate e (x :: ls.map (p ++ ·) ++ [y]) ++ e ++ m :: r) :: ms)
        = List.intercalate e (x :: (ls.map (p ++ ·) ++ y :: (m :: r) :: ms)) := by
      have e1 : x :: (ls.map (p ++ ·) ++ y :: (m :: r) :: ms) =
          (x :: ls.map (p ++ ·) ++ [y]) ++ (m :: r) :: ms := by simp
      rw [e1]
      exact (intercalate_glue e _ (m :: r) ms).trans
        (intercalate_append e _ _ (by simp) (by simp)).symm
    intro st2 c b g1 g2 g3 g4 g5 g6 g7
    rw [htext] at g7
    have g6 : out st2 = out st := g6.trans b10
    unfold out at g6
    injection g6 with o1 o2 o3 o4 o5
    refine ⟨{ st2 with
        description := if w.description = true ∧ st2.description = none then
          some (fixDescription (List.intercalate e (x :: (ls.map (p ++ ·) ++ y :: (m :: r) :: ms))))
          else st2.description
        rv := st2.rv ++ b!"<p>" ++ h ++ b!"</p>" ++ st2.lineEnding
        state := .startLine
        start := st2.current
        current := st2.current + 1 }, ?_, rfl, ?_, rfl, g2, g3, g4⟩
    · unfold paragraphEnd
      rw [if_pos (by simp [ends, g1]), g7.dup]
      simp only [Run.bind_ok]
      rw [hi]
      rfl
    simp [out, absorb, Piece.html, o1, o2, o3, o4, o5, g5]
    congr
  rcases hq with rfl | rfl
  · exact hthrough (collected_quote p)
  · exact hthrough (collected_code p)

/-- A code block or a blockquote that breaks off. -/
theorem leads_broken {p l y m h t s : Str} {ls ms : List Str} (he : LineEnding e) (hu : Uses e src)
    (hp : CodePrefix p ∨ QuotePrefix p) (hin : Indented l) (hy : ¬ p <+: y)
    (hls : ∀ x ∈ (l :: ls).map (p ++ ·) ++ y :: m :: ms, OneLine x ∧ x ≠ [])
    (hi : parseInline (List.intercalate e ((l :: ls).map (p ++ ·) ++ y :: m :: ms)) = .ok h)
    (ht : Ended e t s)
    (hb : Between e src (textLines e ((l :: ls).map (p ++ ·) ++ y :: m :: ms) ++ t) st)
    (hr : Rest fx rec src w e s
      (absorb w e (out st) (.para ((l :: ls).map (p ++ ·) ++ y :: m :: ms) h)) P) :
    Leads fx rec src w st P := by
  obtain ⟨x, r, rfl, hx⟩ := hin
  have h1 := (hls (p ++ x :: r) (by simp)).1
  have hx1 : isNl x = false := oneLine_isNl h1 x (by simp)
  have hr1 : OneLine r := fun c hc => h1 c (by simp [hc])
  obtain ⟨p0, ws, rfl, hws, q0, q, hq, hst0⟩ : ∃ p0 ws, p = p0 :: ws ∧ Blanks ws ∧
      ∃ q0 q : BState, (q0 = .blockquote ∧ q = .blockquoteStart ∨ q0 = .code ∧ q = .codeStart) ∧
      startLine w st p0 false = .ok (.inl { st with
        start := st.current, start2 := st.current, state := q0, current := st.current + 1 }) := by
    rcases hp with ⟨hp0, hp⟩ | ⟨ws, rfl, hws⟩
    · obtain ⟨p0, ws, rfl⟩ := List.exists_cons_of_ne_nil hp0
      exact ⟨p0, ws, rfl, fun c hc => hp c (by simp [hc]), _, _, .inr ⟨rfl, rfl⟩,
        startLine_blank ((blank_iff p0).1 (hp p0 (by simp)))⟩
    · exact ⟨_, ws, rfl, hws, _, _, .inl ⟨rfl, rfl⟩, startLine_quote⟩
  have hp0 : isNl p0 = false := oneLine_isNl h1 p0 (by simp)
  generalize hrest : ls.map (p0 :: ws ++ ·) ++ y :: m :: ms = rest at *
  have ha : At src st (p0 :: (ws ++ (x :: (r ++ (e ++ (textLines e rest ++ t)))))) := by
    have := hb.pos
    rw [List.map_cons, List.cons_append, hrest] at this
    simpa [textLines] using this
  refine leads_first ha hp0 (by simp) hb.state hst0 rfl ?_
  have ha1 := ha.next (st' := { st with
    start := st.current, start2 := st.current, state := q0, current := st.current + 1 }) rfl
  refine leads_prefix (q := q) hq hws hx hx1 (by simp [ending_ne he]) ha1 (p := p0 :: ws) ?_ ?_
  · have := At.span (s := p0 :: ws) ha
    rw [show st.current + (p0 :: ws).length = st.current + 1 + ws.length by simp; omega] at this
    exact this
  have ha2 := At.skip (s := ws ++ [x]) (st' := { st with
    start := st.current, start2 := st.current, pre := some (p0 :: ws), state := q
    current := st.current + 1 + ws.length + 1 })
    (t := r ++ (e ++ (textLines e rest ++ t))) (by simpa using ha1)
    (by simp [Nat.add_assoc])
  have hspan : Span src st.current (p0 :: ws ++ x :: r) (st.current + 1 + ws.length + 1 + r.length) := by
    have := At.span (s := p0 :: ws ++ x :: r) (t := e ++ (textLines e rest ++ t)) (st := st)
      (by simpa using ha)
    rw [show st.current + (p0 :: ws ++ x :: r).length = st.current + 1 + ws.length + 1 + r.length by
      simp; omega] at this
    exact this
  have hq' : q = .blockquoteStart ∨ q = .codeStart := hq.imp And.right And.right
  refine leads_scan (by rcases hq' with rfl | rfl <;> simp) hr1 (by simp [ending_ne he]) ha2 ?_
  subst hrest
  exact leads_break (p := p0 :: ws) (l := x :: r) (x := p0 :: ws ++ x :: r) (y := y) (m := m) (ms := ms)
    (ls := ls) (h := h) (t := t) (s := s) hq' he hu rfl
    (fun z hz => hls z (List.mem_cons_of_mem _ hz)) hy hi ht (ha2.skip rfl) rfl (by simp; omega) rfl
    hb.lines hb.lines2 hb.ok hspan hspan hr

end Blogc.BlockDoc
