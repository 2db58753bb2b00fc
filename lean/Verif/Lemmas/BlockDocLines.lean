import Verif.Lemmas.BlockDoc

/-!
# The block parser on documented blockquotes, code blocks and lists
-/

namespace Blogc.BlockDoc

open Blogc Blogc.Content Blogc.Spec

variable {fx : Bool} {rec : Str → Str → Run Str} {src : Str} {w : Want} {st st' : BSt}
  {P : BSt → Prop} {e : Str} {c : Byte}

/-- The lists of lines collected so far. -/
abbrev Acc := List Str × List Str

/-- The elements whose lines are collected. `K` is what is known about the prefix, `G` the effect of
a line. -/
structure Collected (fx : Bool) (rec : Str → Str → Run Str) (src : Str) (w : Want) (e : Str)
    (q qe : BState) (fin : BSt → Byte → Bool → Run (BSt ⊕ BSt)) (K : Option Str → Nat → Prop)
    (G : Acc → Str → Acc → Prop) : Prop where
  scan : q ∈ [BState.paragraph, .html, .blockquoteStart, .codeStart, .ulStart, .olStart, .headerTitle]
  line : ∀ (st : BSt) c b x a a', st.state = q → isNl c = true → K st.pre st.prefixLen →
    dup src st.start2 (lineStop src st c b) = .ok x → st.lineEnding = e → st.lines = a.1 →
    st.lines2 = .live a.2 → G a x a' →
    dispatch fx rec src w st c b =
      if b then fin { st with
        stop := lineStop src st c b, lines := a'.1, lines2 := .live a'.2, state := qe } c b
      else BSt.brk { st with
        stop := lineStop src st c b, lines := a'.1, lines2 := .live a'.2, state := qe }
  fin : ∀ st c b, st.state = qe → isNl c = true → dispatch fx rec src w st c b = fin st c b
  more : ∀ st c, st.state = qe → isNl c = false →
    dispatch fx rec src w st c false = BSt.brk { st with start2 := st.current, state := q }

inductive Steps (G : Acc → Str → Acc → Prop) : Acc → List Str → Acc → Prop where
  | nil (a : Acc) : Steps G a [] a
  | cons {a a' a'' : Acc} {x : Str} {ls : List Str} : G a x a' → Steps G a' ls a'' →
      Steps G a (x :: ls) a''

theorem Steps.append {G : Acc → Str → Acc → Prop} {a a' a'' : Acc} {xs ys : List Str}
    (h1 : Steps G a xs a') (h2 : Steps G a' ys a'') : Steps G a (xs ++ ys) a'' := by
  induction h1 with
  | nil => exact h2
  | cons hg _ ih => exact .cons hg (ih h2)

/-- The line `x` has been read up to its end, the lines `ls` follow. -/
theorem leads_collected {q qe : BState} {fin : BSt → Byte → Bool → Run (BSt ⊕ BSt)}
    {K : Option Str → Nat → Prop} {G : Acc → Str → Acc → Prop}
    (hk : Collected fx rec src w e q qe fin K G) (he : LineEnding e) (hu : Uses e src) {t s : Str}
    (ht : Ended e t s) {o : Out} {z : Acc} : ∀ (ls : List Str) (x : Str) (a a1 : Acc) (st : BSt),
    (∀ x ∈ ls, OneLine x ∧ x ≠ []) → At src st (e ++ (textLines e ls ++ t)) → st.state = q →
    1 ≤ st.current → K st.pre st.prefixLen → st.lines = a.1 → st.lines2 = .live a.2 → Ok e st →
    Span src st.start2 x st.current → G a x a1 → Steps G a1 ls z →
    (∀ (st' : BSt) c b, isNl c = true → st'.lines = z.1 → st'.lines2 = .live z.2 → Ok e st' →
      st'.lineEnding = e → out st' = out st →
      ∃ st'', fin st' c b = .ok (.inl st'') ∧ st''.current = st'.current + 1 ∧ out st'' = o ∧
        st''.state = .startLine ∧ st''.lines = [] ∧ st''.lines2 = .live [] ∧ Ok e st'') →
    Rest fx rec src w e s o P → Leads fx rec src w st P
  | [], x, a, _, st, _, ha, hq, h1, hK, hl, hl2, ho, hs, hg, hz, hf, hr => by
    have ha : At src st (e ++ t) := by simpa [textLines] using ha
    cases hz
    have hline : ∀ b, dispatch fx rec src w (nl e st) (lastOf e) b = _ := fun b =>
      hk.line (nl e st) (lastOf e) b x a z hq (isNl_lastOf he) hK
        (by rw [lineStop_nl he h1 b rfl rfl]; exact hs.dup) rfl hl hl2 hg
    cases ht with
    | last =>
      obtain ⟨st'', h2, h3, h4, h5, h6, h7, h8⟩ := hf
        { nl e st with
          state := qe, stop := lineStop src (nl e st) (lastOf e) true, lines := z.1
          lines2 := .live z.2 } (lastOf e) true
        (isNl_lastOf he) rfl rfl (ok_nl (st := st) he) rfl rfl
      have h3' : st''.current = st.current + e.length := by
        rw [h3]; exact nl_current he
      refine leads_nl he hu ho ha (st' := st'') ?_ h3' ?_
      · rw [← h2]
        exact hline true
      · exact hr st'' ⟨ha.skip h3', h5, h6, h7, h8⟩ h4
    | blank =>
      have hstep : dispatch fx rec src w (nl e st) (lastOf e) (e ++ s).isEmpty =
          .ok (.inl { nl e st with
            state := qe, stop := lineStop src (nl e st) (lastOf e) false, lines := z.1
            lines2 := .live z.2
            current := (nl e st).current + 1 }) := by
        rw [show (e ++ s).isEmpty = false by simp [ending_ne he]]
        exact hline false
      refine leads_nl he hu ho ha hstep (nl_current he) ?_
      have ha2 := ha.skip (st' := { nl e st with
            state := qe, stop := lineStop src (nl e st) (lastOf e) false, lines := z.1
            lines2 := .live z.2
            current := (nl e st).current + 1 }) (nl_current he)
      obtain ⟨st'', h2, h3, h4, h5, h6, h7, h8⟩ := hf
        (nl e { nl e st with
            state := qe, stop := lineStop src (nl e st) (lastOf e) false, lines := z.1
            lines2 := .live z.2
            current := (nl e st).current + 1 }) (lastOf e) s.isEmpty
        (isNl_lastOf he) rfl rfl (ok_nl he) rfl rfl
      have h3' : st''.current = (nl e st).current + 1 + e.length := by
        rw [h3]; exact nl_current he
      refine leads_nl he hu ?_ ha2 (st' := st'') ?_ h3' ?_
      · exact ok_nl (st := st) he
      · rw [← h2]
        exact hk.fin _ (lastOf e) _ rfl (isNl_lastOf he)
      · exact hr st'' ⟨ha2.skip h3', h5, h6, h7, h8⟩ h4
  | (y :: ls), x, a, a1, st, hls, ha, hq, h1, hK, hl, hl2, ho, hs, hg, hz, hf, hr => by
    have hx := hls y (by simp)
    obtain ⟨y, r, rfl⟩ : ∃ y' r, y = y' :: r := List.exists_cons_of_ne_nil hx.2
    have hy := oneLine_isNl hx.1
    have ha : At src st (e ++ (y :: (r ++ (e ++ (textLines e ls ++ t))))) := by
      simpa [textLines] using ha
    obtain ⟨a2, hg2, hz2⟩ : ∃ a2, G a1 (y :: r) a2 ∧ Steps G a2 ls z := by
      cases hz with
      | cons g1 g2 => exact ⟨_, g1, g2⟩
    have hstep : dispatch fx rec src w (nl e st) (lastOf e)
        (y :: (r ++ (e ++ (textLines e ls ++ t)))).isEmpty =
          .ok (.inl { nl e st with
            state := qe, stop := lineStop src (nl e st) (lastOf e) false, lines := a1.1
            lines2 := .live a1.2
            current := (nl e st).current + 1 }) :=
      hk.line (nl e st) (lastOf e) false x a a1 hq (isNl_lastOf he) hK
        (by rw [lineStop_nl he h1 false rfl rfl]; exact hs.dup) rfl hl hl2 hg
    refine leads_nl he hu ho ha hstep (nl_current he) ?_
    have ha2 := ha.skip (st' := { nl e st with
            state := qe, stop := lineStop src (nl e st) (lastOf e) false, lines := a1.1
            lines2 := .live a1.2
            current := (nl e st).current + 1 }) (nl_current he)
    have hne : r ++ (e ++ (textLines e ls ++ t)) ≠ [] := by simp [ending_ne he]
    refine leads_char (st' := { nl e st with
            state := q, stop := lineStop src (nl e st) (lastOf e) false, lines := a1.1
            lines2 := .live a1.2
            start2 := (nl e st).current + 1
            current := (nl e st).current + 1 + 1 }) ha2 (hy y (by simp)) hne ?_ rfl ?_
    · rw [hk.more _ y rfl (hy y (by simp))]; rfl
    have ha3 := ha2.next (st' := { nl e st with
            state := q, stop := lineStop src (nl e st) (lastOf e) false, lines := a1.1
            lines2 := .live a1.2
            start2 := (nl e st).current + 1
            current := (nl e st).current + 1 + 1 }) rfl
    refine leads_scan hk.scan (l := r) (fun z hz => hx.1 z (by simp [hz])) (by simp [ending_ne he])
      ha3 ?_
    refine leads_collected hk he hu ht ls (y :: r) a1 a2 _ (fun z hz => hls z (by simp [hz]))
      (ha3.skip rfl) rfl (by simp; omega) hK rfl rfl (ok_nl (st := st) he) ?_ hg2 hz2 hf hr
    have := At.span (s := y :: r) (t := e ++ (textLines e ls ++ t)) ha2
    rw [List.length_cons, Nat.add_comm r.length 1, ← Nat.add_assoc] at this
    exact this

/-! ### Blockquotes and code blocks -/

theorem startsWith_append (p y : Str) : startsWith (p ++ y) p = true := by
  unfold startsWith
  rw [if_neg (by simp)]
  simp

/-- Lines with a prefix. -/
def Prefixed (p : Str) (a : Acc) (x : Str) (a' : Acc) : Prop :=
  ∃ y, x = p ++ y ∧ a' = (a.1 ++ [y], a.2)

theorem steps_prefixed (p : Str) : ∀ (ls done l2 : List Str),
    Steps (Prefixed p) (done, l2) (ls.map (p ++ ·)) (done ++ ls, l2)
  | [], done, l2 => by simpa using Steps.nil _
  | x :: ls, done, l2 => by
    have := steps_prefixed p ls (done ++ [x]) l2
    rw [List.append_assoc] at this
    exact .cons ⟨x, rfl, rfl⟩ this

theorem collected_quote (p : Str) : Collected fx rec src w e .blockquoteStart .blockquoteEnd
    (blockquoteEnd rec) (fun pre _ => pre = some p) (Prefixed p) where
  scan := by simp
  line := by
    intro st c b x a a' hq hc hK hd hle hl hl2 hg
    obtain ⟨y, rfl, rfl⟩ := hg
    simp only [dispatch, hq]
    unfold blockquoteStart
    rw [if_pos (by simp [ends, hc]), hK]
    simp only
    rw [hd]
    simp only [Run.bind_ok]
    rw [if_pos (startsWith_append p y), List.drop_left, hl, ← hl2]
  fin := by intro st c b h hc; simp [dispatch, h]
  more := by intro st c h hc; simp [dispatch, h, blockquoteEnd, ends, hc]

theorem collected_code (p : Str) : Collected fx rec src w e .codeStart .codeEnd
    codeEnd (fun pre _ => pre = some p) (Prefixed p) where
  scan := by simp
  line := by
    intro st c b x a a' hq hc hK hd hle hl hl2 hg
    obtain ⟨y, rfl, rfl⟩ := hg
    simp only [dispatch, hq]
    unfold codeStart
    rw [if_pos (by simp [ends, hc]), hK]
    simp only
    rw [hd]
    simp only [Run.bind_ok]
    rw [if_pos (startsWith_append p y), List.drop_left, hl, ← hl2]
  fin := by intro st c b h hc; simp [dispatch, h]
  more := by intro st c h hc; simp [dispatch, h, codeEnd, ends, hc]

theorem oneLine_blanks {ws : Str} (h : Blanks ws) : OneLine ws := by
  intro c hc
  rcases h c hc with rfl | rfl <;> decide

/-- White space, and the first character after it, at which the prefix is taken. -/
theorem leads_prefix {q : BState} {ws s : Str} {x : Byte}
    (hq : st.state = .blockquote ∧ q = .blockquoteStart ∨ st.state = .code ∧ q = .codeStart)
    (hws : Blanks ws) (hx : ¬ Blank x) (hn : isNl x = false) (hs : s ≠ [])
    (ha : At src st (ws ++ (x :: s))) {p : Str} (hp : Span src st.start p (st.current + ws.length))
    (h : Leads fx rec src w { st with
      pre := some p, state := q, current := st.current + ws.length + 1 } P) :
    Leads fx rec src w st P := by
  refine leads_keep ws st (oneLine_blanks hws) (by simp) ?_ ha ?_
  · intro c hc cur _
    have := (blank_iff c).1 (hws c hc)
    rcases hq with ⟨hq, _⟩ | ⟨hq, _⟩ <;> simp [dispatch, hq, takePrefix, this]
  · refine leads_char (ha.skip rfl) hn hs (st' := { st with
      pre := some p, state := q, current := st.current + ws.length + 1 }) ?_ rfl h
    rcases hq with ⟨hq, rfl⟩ | ⟨hq, rfl⟩ <;>
      simp [dispatch, hq, takePrefix, not_blank hx, hp.dup, BSt.brk]

theorem startLine_quote : startLine w st c!">" false = .ok (.inl { st with
    start := st.current, start2 := st.current, state := .blockquote, current := st.current + 1 }) := by
  simp [startLine, ends, isNl, isDig, isSp, BSt.brk]

theorem join_eq (e : Str) : ∀ ls : List Str, join e ls = List.intercalate e ls
  | [] => rfl
  | [l] => by rw [intercalate_one]; rfl
  | l :: x :: ls => by rw [intercalate_two, join, join_eq e (x :: ls)]

theorem leads_quote {ws l t s h : Str} {ls : List Str} (he : LineEnding e) (hu : Uses e src)
    (hws : Blanks ws) (hi : Indented l) (hls : ∀ x ∈ l :: ls, OneLine x)
    (hrec : rec (textLines e (l :: ls)) e = .ok h) (ht : Ended e t s)
    (hb : Between e src (textLines e ((l :: ls).map (c!">" :: ws ++ ·)) ++ t) st)
    (hr : Rest fx rec src w e s
      (absorb w e (out st) (.block (b!"<blockquote>" ++ h ++ b!"</blockquote>" ++ e))) P) :
    Leads fx rec src w st P := by
  obtain ⟨x, r, rfl, hx⟩ := hi
  have h1 := hls (x :: r) (by simp)
  have ha : At src st (c!">" :: (ws ++ (x :: (r ++
      (e ++ (textLines e (ls.map (c!">" :: ws ++ ·)) ++ t)))))) := by
    simpa [textLines] using hb.pos
  refine leads_first ha rfl (by simp) hb.state startLine_quote rfl ?_
  have ha1 := ha.next (st' := { st with
    start := st.current, start2 := st.current, state := .blockquote, current := st.current + 1 }) rfl
  refine leads_prefix (.inl ⟨rfl, rfl⟩) hws hx (oneLine_isNl h1 x (by simp)) (by simp [ending_ne he]) ha1
    (p := c!">" :: ws) ?_ ?_
  · have := At.span (s := c!">" :: ws) ha
    rw [show st.current + (c!">" :: ws).length = st.current + 1 + ws.length by simp; omega] at this
    exact this
  have ha2 := At.skip (s := ws ++ [x]) (st' := { st with
    start := st.current, start2 := st.current, pre := some (c!">" :: ws), state := .blockquoteStart
    current := st.current + 1 + ws.length + 1 })
    (t := r ++ (e ++ (textLines e (ls.map (c!">" :: ws ++ ·)) ++ t))) (by simpa using ha1)
    (by simp [Nat.add_assoc])
  refine leads_scan (by simp) (fun c hc => h1 c (by simp [hc])) (by simp [ending_ne he]) ha2 ?_
  refine leads_collected (collected_quote (c!">" :: ws)) he hu ht (ls.map (c!">" :: ws ++ ·))
    (c!">" :: ws ++ x :: r) ([], []) ([x :: r], []) _ ?_ (ha2.skip rfl) rfl (by simp; omega) rfl
    hb.lines hb.lines2 hb.ok ?_ ⟨x :: r, rfl, rfl⟩ (steps_prefixed _ ls [x :: r] []) ?_ hr
  · intro y hy
    obtain ⟨z, hz, rfl⟩ := List.mem_map.1 hy
    refine ⟨?_, by simp⟩
    intro c hc
    rcases List.mem_append.1 hc with hc | hc
    · rcases List.mem_cons.1 hc with rfl | hc
      · decide
      · exact oneLine_blanks hws c hc
    · exact hls z (by simp [hz]) c hc
  · have := At.span (s := c!">" :: ws ++ x :: r)
      (t := e ++ (textLines e (ls.map (c!">" :: ws ++ ·)) ++ t)) (st := st) (by simpa using ha)
    rw [show st.current + (c!">" :: ws ++ x :: r).length = st.current + 1 + ws.length + 1 + r.length by
      simp; omega] at this
    exact this
  intro st2 c b g1 g2 g3 g4 g5 g6
  have g6 : out st2 = out st := g6
  unfold out at g6
  injection g6 with o1 o2 o3 o4 o5
  refine ⟨{ st2 with
      rv := st2.rv ++ b!"<blockquote>" ++ h ++ b!"</blockquote>" ++ st2.lineEnding
      lines := [], pre := none, state := .startLine, start2 := st2.current
      current := st2.current + 1 }, ?_, rfl, ?_, rfl, rfl, g3, g4⟩
  · unfold blockquoteEnd
    rw [if_pos (by simp [ends, g1]), g2, g5]
    have : rec ((([x :: r] : List Str) ++ ls).flatMap (· ++ e)) e = .ok h := hrec
    rw [this]
    simp only [Run.bind_ok, BSt.brk, g5]
  · simp [out, absorb, o1, o2, o3, o4, o5, g5]

theorem leads_code {p l t s : Str} {ls : List Str} (he : LineEnding e) (hu : Uses e src)
    (hp0 : p ≠ []) (hp : Blanks p) (hi : Indented l) (hls : ∀ x ∈ l :: ls, OneLine x)
    (ht : Ended e t s)
    (hb : Between e src (textLines e ((l :: ls).map (p ++ ·)) ++ t) st)
    (hr : Rest fx rec src w e s
      (absorb w e (out st) (.block (b!"<pre><code>" ++ List.intercalate e ((l :: ls).map shownAll) ++
          b!"</code></pre>" ++ e))) P) :
    Leads fx rec src w st P := by
  obtain ⟨x, r, rfl, hx⟩ := hi
  obtain ⟨b0, ws, rfl⟩ := List.exists_cons_of_ne_nil hp0
  have hws : Blanks ws := fun c hc => hp c (by simp [hc])
  have hb0 := hp b0 (by simp)
  have h1 := hls (x :: r) (by simp)
  have ha : At src st (b0 :: (ws ++ (x :: (r ++
      (e ++ (textLines e (ls.map (b0 :: ws ++ ·)) ++ t)))))) := by
    simpa [textLines] using hb.pos
  refine leads_first ha (oneLine_isNl (oneLine_blanks hp) b0 (by simp)) (by simp) hb.state
    (startLine_blank ((blank_iff b0).1 hb0)) rfl ?_
  have ha1 := ha.next (st' := { st with
    start := st.current, start2 := st.current, state := .code, current := st.current + 1 }) rfl
  refine leads_prefix (.inr ⟨rfl, rfl⟩) hws hx (oneLine_isNl h1 x (by simp)) (by simp [ending_ne he]) ha1
    (p := b0 :: ws) ?_ ?_
  · have := At.span (s := b0 :: ws) ha
    rw [show st.current + (b0 :: ws).length = st.current + 1 + ws.length by simp; omega] at this
    exact this
  have ha2 := At.skip (s := ws ++ [x]) (st' := { st with
    start := st.current, start2 := st.current, pre := some (b0 :: ws), state := .codeStart
    current := st.current + 1 + ws.length + 1 })
    (t := r ++ (e ++ (textLines e (ls.map (b0 :: ws ++ ·)) ++ t))) (by simpa using ha1)
    (by simp [Nat.add_assoc])
  refine leads_scan (by simp) (fun c hc => h1 c (by simp [hc])) (by simp [ending_ne he]) ha2 ?_
  refine leads_collected (collected_code (b0 :: ws)) he hu ht (ls.map (b0 :: ws ++ ·))
    (b0 :: ws ++ x :: r) ([], []) ([x :: r], []) _ ?_ (ha2.skip rfl) rfl (by simp; omega) rfl
    hb.lines hb.lines2 hb.ok ?_ ⟨x :: r, rfl, rfl⟩ (steps_prefixed _ ls [x :: r] []) ?_ hr
  · intro y hy
    obtain ⟨z, hz, rfl⟩ := List.mem_map.1 hy
    refine ⟨?_, by simp⟩
    intro c hc
    rcases List.mem_append.1 hc with hc | hc
    · exact oneLine_blanks hp c hc
    · exact hls z (by simp [hz]) c hc
  · have := At.span (s := b0 :: ws ++ x :: r)
      (t := e ++ (textLines e (ls.map (b0 :: ws ++ ·)) ++ t)) (st := st) (by simpa using ha)
    rw [show st.current + (b0 :: ws ++ x :: r).length = st.current + 1 + ws.length + 1 + r.length by
      simp; omega] at this
    exact this
  intro st2 c b g1 g2 g3 g4 g5 g6
  have g6 : out st2 = out st := g6
  unfold out at g6
  injection g6 with o1 o2 o3 o4 o5
  refine ⟨{ st2 with
      rv := st2.rv ++ b!"<pre><code>" ++ join st2.lineEnding (st2.lines.map htmlentities) ++
        b!"</code></pre>" ++ st2.lineEnding
      lines := [], pre := none, state := .startLine, start2 := st2.current
      current := st2.current + 1 }, ?_, rfl, ?_, rfl, rfl, g3, g4⟩
  · unfold codeEnd
    rw [if_pos (by simp [ends, g1])]
    rfl
  · simp only [out, absorb, o1, o2, o3, o4, o5, g5, g2]
    rw [join_eq, show shownAll = htmlentities from funext InlineDoc.shownAll_eq]
    simp

/-! ### Lists -/

/-- Lines of a list whose items satisfy `it`, with `n` characters before the text. -/
inductive Listed (e : Str) (it : Str → Bool) (n : Nat) : Acc → Str → Acc → Prop where
  | first {x : Str} (ls : List Str) : it x = true → Listed e it n (ls, []) x (ls, [x.drop n])
  | item {x h : Str} (ls l2 : List Str) : it x = true → l2 ≠ [] → parseInline (join e l2) = .ok h →
      Listed e it n (ls, l2) x (ls ++ [h], [x.drop n])
  | more {x : Str} (ls l2 : List Str) : it x = false →
      startsWith x (List.replicate n c!" ") = true → Listed e it n (ls, l2) x (ls, l2 ++ [x.drop n])

theorem flushItem_none (h : st.lines2 = .live []) : flushItem st = .ok st := by
  simp [flushItem, h, Lines2.get]

theorem flushItem_some {l2 : List Str} {h : Str} (h2 : st.lines2 = .live l2) (hne : l2 ≠ [])
    (hp : parseInline (join st.lineEnding l2) = .ok h) :
    flushItem st = .ok { st with lines2 := .live [], lines := st.lines ++ [h] } := by
  simp [flushItem, h2, Lines2.get, hne, hp]

theorem addLine_live {l2 : List Str} (l : Str) (h2 : st.lines2 = .live l2) :
    addLine st l = .ok { st with lines2 := .live (l2 ++ [l]) } := by
  simp [addLine, h2, Lines2.get]

theorem collected_ul (p : Str) : Collected fx rec src w e .ulStart .ulEnd
    (listEnd b!"ul" .ulStart) (fun pre _ => pre = some p)
    (Listed e (fun x => startsWith x p) p.length) where
  scan := by simp
  line := by
    intro st c b x a a' hq hc hK hd hle hl hl2 hg
    simp only [dispatch, hq]
    unfold ulStart
    rw [if_pos (by simp [ends, hc]), hK]
    simp only
    rw [hd]
    simp only [Run.bind_ok]
    cases hg with
    | first ls hi =>
      rw [if_pos hi, flushItem_none (by exact hl2)]
      simp only [Run.bind_ok]
      rw [addLine_live (l2 := []) _ (by exact hl2)]
      simp only at hl
      cases b <;> simp only [Run.bind_ok, BSt.goto, ← hl] <;> rfl
    | item ls l2 hi hne hp =>
      rw [if_pos hi, flushItem_some (by exact hl2) hne (by rw [← hle] at hp; exact hp)]
      simp only [Run.bind_ok]
      rw [addLine_live (l2 := []) _ rfl]
      simp only at hl
      cases b <;> simp only [Run.bind_ok, BSt.goto, hl] <;> rfl
    | more ls l2 hi hsp =>
      rw [if_neg (by simp [hi]), if_pos hsp, addLine_live _ (by exact hl2)]
      simp only at hl
      cases b <;> simp only [Run.bind_ok, BSt.goto, ← hl] <;> rfl
  fin := by intro st c b h hc; simp [dispatch, h]
  more := by intro st c h hc; simp [dispatch, h, listEnd, ends, hc]

theorem collected_ol (n : Nat) : Collected fx rec src w e .olStart .olEnd
    (listEnd b!"ol" .olStart) (fun _ m => m = n)
    (Listed e (fun x => isOrderedItem x n) n) where
  scan := by simp
  line := by
    intro st c b x a a' hq hc hK hd hle hl hl2 hg
    simp only [dispatch, hq]
    unfold olStart
    rw [if_pos (by simp [ends, hc])]
    simp only
    rw [hd]
    simp only [Run.bind_ok]
    rw [hK]
    cases hg with
    | first ls hi =>
      rw [if_pos hi, flushItem_none (by exact hl2)]
      simp only [Run.bind_ok]
      rw [addLine_live (l2 := []) _ (by exact hl2)]
      simp only at hl
      cases b <;> simp only [Run.bind_ok, BSt.goto, ← hl, hK] <;> rfl
    | item ls l2 hi hne hp =>
      rw [if_pos hi, flushItem_some (by exact hl2) hne (by rw [← hle] at hp; exact hp)]
      simp only [Run.bind_ok]
      rw [addLine_live (l2 := []) _ rfl]
      simp only at hl
      cases b <;> simp only [Run.bind_ok, BSt.goto, hl, hK] <;> rfl
    | more ls l2 hi hsp =>
      rw [if_neg (by simp [hi]), if_pos hsp, addLine_live _ (by exact hl2)]
      simp only at hl
      cases b <;> simp only [Run.bind_ok, BSt.goto, ← hl, hK] <;> rfl
  fin := by intro st c b h hc; simp [dispatch, h]
  more := by intro st c h hc; simp [dispatch, h, listEnd, ends, hc]

/-- The lines of an item, after its first. -/
theorem steps_more {it : Str → Bool} {n : Nat}
    (hit : ∀ y, it (List.replicate n c!" " ++ y) = false) (ls : List Str) : ∀ (ms l2 : List Str),
    Steps (Listed e it n) (ls, l2) (ms.map (List.replicate n c!" " ++ ·)) (ls, l2 ++ ms)
  | [], l2 => by simpa using Steps.nil _
  | m :: ms, l2 => by
    have h1 := steps_more hit ls ms (l2 ++ [m])
    rw [List.append_assoc] at h1
    refine .cons ?_ h1
    have := Listed.more (e := e) ls l2 (hit m) (startsWith_append _ m)
    rw [show (List.replicate n c!" " ++ m).drop n = m by simp] at this
    exact this

/-- The items after the first. -/
theorem steps_items {it : Str → Bool} {n : Nat}
    (hit : ∀ y, it (List.replicate n c!" " ++ y) = false) : ∀ (is : List Item) (ls l2 : List Str) (h : Str),
    (∀ i ∈ is, it (i.marker ++ i.line) = true ∧ i.marker.length = n ∧
      parseInline (List.intercalate e (i.line :: i.more)) = .ok i.html) →
    l2 ≠ [] → parseInline (join e l2) = .ok h →
    ∃ ls' l2' h', Steps (Listed e it n) (ls, l2) (is.flatMap Item.source) (ls', l2') ∧ l2' ≠ [] ∧
      parseInline (join e l2') = .ok h' ∧ ls' ++ [h'] = ls ++ h :: is.map Item.html
  | [], ls, l2, h, _, hne, hp => ⟨ls, l2, h, by simpa using Steps.nil _, hne, hp, by simp⟩
  | i :: is, ls, l2, h, hi, hne, hp => by
    obtain ⟨h1, h2, h3⟩ := hi i (by simp)
    have hd : (i.marker ++ i.line).drop n = i.line := by rw [← h2]; simp
    have s1 : Listed e it n (ls, l2) (i.marker ++ i.line) (ls ++ [h], [i.line]) := by
      have := Listed.item (n := n) ls l2 h1 hne hp
      rwa [hd] at this
    have s2 := steps_more (e := e) hit (ls ++ [h]) i.more [i.line]
    obtain ⟨ls', l2', h', g1, g2, g3, g4⟩ := steps_items hit is (ls ++ [h]) (i.line :: i.more) i.html
      (fun j hj => hi j (by simp [hj])) (by simp) (by rw [join_eq]; exact h3)
    refine ⟨ls', l2', h', ?_, g2, g3, by rw [g4]; simp⟩
    rw [List.flatMap_cons, Item.source, h2]
    exact .cons s1 (s2.append g1)

theorem listEnd_fin {tag : Str} {again : BState} {ls l2 : List Str} {h : Str} {b : Bool}
    (hc : isNl c = true) (h1 : st.lines = ls) (h2 : st.lines2 = .live l2) (hne : l2 ≠ [])
    (hle : st.lineEnding = e) (hp : parseInline (join e l2) = .ok h) (ho : Ok e st) {is : List Item}
    (hh : ls ++ [h] = is.map Item.html) :
    ∃ st'', listEnd tag again st c b = .ok (.inl st'') ∧ st''.current = st.current + 1 ∧
      out st'' = absorb w e (out st) (.block (listHtml e tag is)) ∧ st''.state = .startLine ∧
      st''.lines = [] ∧ st''.lines2 = .live [] ∧ Ok e st'' := by
  refine ⟨{ st with
      rv := st.rv ++ b!"<" ++ tag ++ b!">" ++ st.lineEnding ++
        (st.lines ++ [h]).flatMap (fun l => b!"<li>" ++ l ++ b!"</li>" ++ st.lineEnding) ++
        b!"</" ++ tag ++ b!">" ++ st.lineEnding
      lines := [], lines2 := .live [], pre := none, state := .startLine, start2 := st.current
      current := st.current + 1 }, ?_, rfl, ?_, rfl, rfl, rfl, ho⟩
  · unfold listEnd
    rw [if_pos (by simp [ends, hc]), flushItem_some h2 hne (by rw [hle]; exact hp)]
    rfl
  · simp only [out, absorb, listHtml, hle, h1, hh]
    simp [List.flatMap_map]

theorem mem_source {i : Item} (hm : OneLine i.marker) (hm0 : i.marker ≠ [])
    (hl : ∀ l ∈ i.line :: i.more, OneLine l) : ∀ x ∈ i.source, OneLine x ∧ x ≠ [] := by
  intro x hx
  rw [Item.source] at hx
  rcases List.mem_cons.1 hx with rfl | hx
  · refine ⟨?_, by simp [hm0]⟩
    intro c hc
    rcases List.mem_append.1 hc with hc | hc
    · exact hm c hc
    · exact hl i.line (by simp) c hc
  · obtain ⟨y, hy, rfl⟩ := List.mem_map.1 hx
    refine ⟨?_, by simp [hm0]⟩
    intro c hc
    rcases List.mem_append.1 hc with hc | hc
    · exact oneLine_replicate (k := i.marker.length) (d := c!" ") rfl c hc
    · exact hl y (by simp [hy]) c hc

end Blogc.BlockDoc
