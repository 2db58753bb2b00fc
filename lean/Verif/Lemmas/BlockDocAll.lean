import Verif.Lemmas.BlockDocLines
import Verif.Lemmas.BlockDocBroken

/-!
# The block parser on documented texts
-/

namespace Blogc.BlockDoc

open Blogc Blogc.Content Blogc.Spec

variable {fx : Bool} {rec : Str → Str → Run Str} {src : Str} {w : Want} {st st' : BSt}
  {P : BSt → Prop} {e : Str} {c : Byte}

/-! ### Lists -/

/-- A list from the end of its first line on. -/
theorem leads_list {q qe : BState} {tag : Str} {K : Option Str → Nat → Prop} {it : Str → Bool}
    {n : Nat} {i : Item} {is : List Item} {t s : Str}
    (hk : Collected fx rec src w e q qe (listEnd tag q) K (Listed e it n))
    (he : LineEnding e) (hu : Uses e src) (hit : ∀ y, it (List.replicate n c!" " ++ y) = false)
    (hi : ∀ x ∈ i :: is, it (x.marker ++ x.line) = true ∧ x.marker.length = n ∧ OneLine x.marker ∧
      x.marker ≠ [] ∧ (∀ l ∈ x.line :: x.more, OneLine l) ∧
      parseInline (List.intercalate e (x.line :: x.more)) = .ok x.html)
    (ht : Ended e t s)
    (ha : At src st (e ++ (textLines e (i.more.map (List.replicate n c!" " ++ ·) ++
      is.flatMap Item.source) ++ t)))
    (hq : st.state = q) (h1 : 1 ≤ st.current) (hK : K st.pre st.prefixLen) (hl : st.lines = [])
    (hl2 : st.lines2 = .live []) (ho : Ok e st)
    (hs : Span src st.start2 (i.marker ++ i.line) st.current)
    (hr : Rest fx rec src w e s (absorb w e (out st) (.block (listHtml e tag (i :: is)))) P) :
    Leads fx rec src w st P := by
  obtain ⟨i1, i2, i3, i4, i5, i6⟩ := hi i (by simp)
  have s1 : Listed e it n ([], []) (i.marker ++ i.line) ([], [i.line]) := by
    have := Listed.first (e := e) (n := n) [] i1
    rwa [show (i.marker ++ i.line).drop n = i.line by rw [← i2]; simp] at this
  have s2 := steps_more (e := e) hit [] i.more [i.line]
  obtain ⟨ls', l2', h', g1, g2, g3, g4⟩ := steps_items (e := e) hit is [] (i.line :: i.more) i.html
    (fun j hj => by
      obtain ⟨j1, j2, _, _, _, j6⟩ := hi j (by simp [hj])
      exact ⟨j1, j2, j6⟩) (by simp) (by rw [join_eq]; exact i6)
  refine leads_collected hk he hu ht _ (i.marker ++ i.line) ([], []) ([], [i.line]) st ?_ ha hq h1 hK
    hl hl2 ho hs s1 (s2.append g1) ?_ hr
  · intro x hx
    rcases List.mem_append.1 hx with hx | hx
    · exact mem_source i3 i4 i5 x (by rw [Item.source, i2]; exact List.mem_cons_of_mem _ hx)
    · obtain ⟨j, hj, hx⟩ := List.mem_flatMap.1 hx
      obtain ⟨_, _, j3, j4, j5, _⟩ := hi j (by simp [hj])
      exact mem_source j3 j4 j5 x hx
  · intro st2 c b k1 k2 k3 k4 k5 k6
    obtain ⟨st'', f1, f2, f3, f4⟩ := listEnd_fin (w := w) (tag := tag) (again := q) (b := b)
      (is := i :: is) k1 k2 k3 g2 k5 g3 k4 (by simpa using g4)
    exact ⟨st'', f1, f2, by rw [f3, k6], f4⟩

theorem listHtml_lines (i : Item) (is : List Item) (t : Str) :
    textLines e ((i :: is).flatMap Item.source) ++ t =
      i.marker ++ (i.line ++ (e ++ (textLines e (i.more.map (List.replicate i.marker.length c!" " ++ ·) ++
        is.flatMap Item.source) ++ t))) := by
  simp [textLines, Item.source]

theorem leads_ul {d : Byte} {ws t s : Str} {i : Item} {is : List Item} (he : LineEnding e)
    (hu : Uses e src) (hd : d ∈ b!"*+-") (hws0 : ws ≠ []) (hws : Blanks ws) (hi : Indented i.line)
    (his : ∀ x ∈ i :: is, x.marker = d :: ws ∧ (∀ l ∈ x.line :: x.more, OneLine l) ∧
      parseInline (List.intercalate e (x.line :: x.more)) = .ok x.html)
    (ht : Ended e t s)
    (hb : Between e src (textLines e ((i :: is).flatMap Item.source) ++ t) st)
    (hr : Rest fx rec src w e s (absorb w e (out st) (.block (listHtml e b!"ul" (i :: is)))) P) :
    Leads fx rec src w st P := by
  obtain ⟨x, r, hxr, hx⟩ := hi
  obtain ⟨i1, i2, i3⟩ := his i (by simp)
  have hl := i2 i.line (by simp)
  rw [hxr] at hl
  have hnx := oneLine_isNl hl x (by simp)
  have hd' : d ≠ c!" " ∧ d ≠ c!"\t" := by rcases mem_marks hd with rfl | rfl | rfl <;> decide
  have ha := hb.pos
  rw [listHtml_lines, i1, hxr] at ha
  have ha : At src st (d :: (ws ++ (x :: (r ++ (e ++ (textLines e (i.more.map
      (List.replicate (d :: ws).length c!" " ++ ·) ++ is.flatMap Item.source) ++ t)))))) := by
    simpa using ha
  refine leads_first ha (marks_isNl hd) (by simp) hb.state (startLine_mark hd) rfl ?_
  have ha1 := ha.next (st' := { st with
    start := st.current, start2 := st.current, state := .ulOrHrOrEm, d := d
    current := st.current + 1 }) rfl
  refine leads_keep ws _ (oneLine_blanks hws) (by simp) ?_ ha1 ?_
  · intro c hc cur _
    have hbc := hws c hc
    have hsp := (blank_iff c).1 hbc
    have hne : c ≠ d := by
      rcases hbc with rfl | rfl
      · exact Ne.symm hd'.1
      · exact Ne.symm hd'.2
    simp [dispatch, ulOrHrOrEm, hne, hsp, takePrefix]
  have ha2 := ha1.skip (st' := { st with
    start := st.current, start2 := st.current, state := .ulOrHrOrEm, d := d
    current := st.current + 1 + ws.length }) rfl
  have hlen := List.length_pos_iff.2 hws0
  refine leads_char (st' := { st with
    start := st.current, start2 := st.current, state := .ulStart, d := d, pre := some (d :: ws)
    current := st.current + 1 + ws.length + 1 }) ha2 hnx (by simp [ending_ne he]) ?_ rfl ?_
  · have hsp := At.span (s := d :: ws) ha
    rw [show st.current + (d :: ws).length = st.current + 1 + ws.length by simp; omega] at hsp
    have hc : ¬ st.current + 1 + ws.length = st.current + 1 := by omega
    have hdd := hsp.dup
    simp [dispatch, ulOrHrOrEm, takePrefix, not_blank hx, BSt.brk, hws0, hdd]
  have ha3 := ha2.next (st' := { st with
    start := st.current, start2 := st.current, state := .ulStart, d := d, pre := some (d :: ws)
    current := st.current + 1 + ws.length + 1 }) rfl
  refine leads_scan (by simp) (fun c hc => hl c (by simp [hc])) (by simp [ending_ne he]) ha3 ?_
  refine leads_list (collected_ul (d :: ws)) he hu (i := i) (is := is) ?_ ?_ ht (ha3.skip rfl) rfl
    (by simp; omega) rfl hb.lines hb.lines2 hb.ok ?_ hr
  · intro y
    unfold startsWith
    rw [if_neg (by simp)]
    rw [show (List.replicate (d :: ws).length c!" " ++ y).take (d :: ws).length =
      List.replicate (d :: ws).length c!" " by simp]
    simp only [List.length_cons, List.replicate_succ, beq_eq_false_iff_ne]
    intro h
    exact hd'.1 (List.cons.inj h).1.symm
  · intro y hy
    obtain ⟨y1, y2, y3⟩ := his y hy
    refine ⟨by rw [y1]; exact startsWith_append _ _, by rw [y1], ?_, by rw [y1]; simp, y2, y3⟩
    rw [y1]
    intro c hc
    rcases List.mem_cons.1 hc with rfl | hc
    · have := marks_isNl hd
      simp only [isNl, Bool.or_eq_false_iff, beq_eq_false_iff_ne] at this
      exact this
    · exact oneLine_blanks hws c hc
  · have := At.span (s := d :: ws ++ x :: r) (st := st) (src := src)
      (t := e ++ (textLines e (i.more.map
      (List.replicate (d :: ws).length c!" " ++ ·) ++ is.flatMap Item.source) ++ t)) (by simpa using ha)
    rw [i1, hxr]
    rw [show st.current + (d :: ws ++ x :: r).length = st.current + 1 + ws.length + 1 + r.length by
      simp; omega] at this
    exact this

theorem skipBlanks_spec : ∀ (ws : Str) (l : Str) (i n : Nat), Blanks ws → i + ws.length = n →
    skipBlanks n (ws ++ l) i = n
  | [], l, i, n, _, h => by
    simp only [List.length_nil, Nat.add_zero] at h
    subst h
    cases l with
    | nil => rfl
    | cons c l => simp [skipBlanks]
  | c :: ws, l, i, n, hw, h => by
    simp only [List.length_cons] at h
    rw [List.cons_append, skipBlanks, if_pos ⟨by omega, (blank_iff c).1 (hw c (by simp))⟩]
    exact skipBlanks_spec ws l (i + 1) n (fun x hx => hw x (by simp [hx])) (by omega)

theorem ordered_item {ds ws l : Str} (hd : Number ds) (hw : Blanks ws) (hl : l ≠ [])
    (hn : NulFree l) : isOrderedItem (ds ++ b!"." ++ ws ++ l) (ds ++ b!"." ++ ws).length = true := by
  obtain ⟨d0, hd⟩ := hd
  have hlen := List.length_pos_iff.2 d0
  have htw : (ds ++ b!"." ++ ws ++ l).takeWhile isDig = ds := by
    rw [List.append_assoc, List.append_assoc, List.takeWhile_append_of_pos
      (fun c hc => (mem_digits c).1 (hd c hc))]
    simp [isDig]
  obtain ⟨x, r, rfl⟩ := List.exists_cons_of_ne_nil hl
  unfold isOrderedItem
  rw [if_neg (by simp; omega), htw]
  simp only
  rw [if_neg (by omega), if_neg (by simp)]
  have h1 : (ds ++ b!"." ++ ws ++ x :: r).drop (ds.length + 1) = ws ++ x :: r := by
    rw [show ds.length + 1 = (ds ++ b!".").length by simp, List.append_assoc (ds ++ b!".")]
    exact List.drop_left
  rw [h1, skipBlanks_spec ws (x :: r) (ds.length + 1) _ hw (by simp; omega)]
  rw [if_neg ?_]
  · simp
  · rw [List.getD_eq_getElem?_getD, List.getElem?_append_right (Nat.le_refl _)]
    simpa using hn x (by simp)

theorem ordered_more (n : Nat) (hn : 1 ≤ n) (y : Str) :
    isOrderedItem (List.replicate n c!" " ++ y) n = false := by
  obtain ⟨n, rfl⟩ : ∃ m, n = m + 1 := ⟨n - 1, by omega⟩
  unfold isOrderedItem
  split
  · rfl
  · rw [List.replicate_succ, List.cons_append, List.takeWhile_cons_of_neg (by decide)]
    rfl

theorem leads_ol {t s : Str} {i : Item} {is : List Item} (he : LineEnding e)
    (hu : Uses e src) (hi : Indented i.line)
    (his : ∀ x ∈ i :: is, (∃ ds ws, x.marker = ds ++ b!"." ++ ws ∧ Number ds ∧ Blanks ws) ∧
      x.marker.length = i.marker.length ∧ x.line ≠ [] ∧ NulFree x.line ∧
      (∀ l ∈ x.line :: x.more, OneLine l) ∧
      parseInline (List.intercalate e (x.line :: x.more)) = .ok x.html)
    (ht : Ended e t s)
    (hb : Between e src (textLines e ((i :: is).flatMap Item.source) ++ t) st)
    (hr : Rest fx rec src w e s (absorb w e (out st) (.block (listHtml e b!"ol" (i :: is)))) P) :
    Leads fx rec src w st P := by
  obtain ⟨x, r, hxr, hx⟩ := hi
  obtain ⟨⟨ds, ws, i1, hds, hws⟩, _, _, _, i2, i3⟩ := his i (by simp)
  have hl := i2 i.line (by simp)
  rw [hxr] at hl
  have hnx := oneLine_isNl hl x (by simp)
  obtain ⟨d, ds, rfl⟩ := List.exists_cons_of_ne_nil hds.1
  have hdig : ∀ c ∈ d :: ds, isDig c = true := fun c hc => (mem_digits c).1 (hds.2 c hc)
  have hdl : ∀ {ds : Str}, Number ds → OneLine ds := by
    intro ds hds c hc
    have := isDig_isNl c ((mem_digits c).1 (hds.2 c hc))
    simp only [isNl, Bool.or_eq_false_iff, beq_eq_false_iff_ne] at this
    exact this
  have ha := hb.pos
  rw [listHtml_lines, hxr] at ha
  generalize hrest : e ++ (textLines e (i.more.map
      (List.replicate i.marker.length c!" " ++ ·) ++ is.flatMap Item.source) ++ t) = rest at ha
  have hne : rest ≠ [] := by rw [← hrest]; simp [ending_ne he]
  have ha : At src st (d :: (ds ++ (c!"." :: (ws ++ (x :: (r ++ rest)))))) := by
    rw [i1] at ha
    simpa using ha
  refine leads_first ha (isDig_isNl d (hdig d (by simp))) (by simp) hb.state
    (startLine_digit (hdig d (by simp))) rfl ?_
  have ha1 := ha.next (st' := { st with
    start := st.current, start2 := st.current, state := .ol, current := st.current + 1 }) rfl
  refine leads_keep ds _ (fun c hc => hdl hds c (by simp [hc])) (by simp) ?_ ha1 ?_
  · intro c hc cur _
    simp [dispatch, ol, hdig c (by simp [hc])]
  have ha2 := ha1.skip (st' := { st with
    start := st.current, start2 := st.current, state := .ol
    current := st.current + 1 + ds.length }) rfl
  refine leads_char (st' := { st with
    start := st.current, start2 := st.current, state := .olSpace
    current := st.current + 1 + ds.length + 1 }) ha2 rfl (by simp) ?_ rfl ?_
  · simp [dispatch, ol, isDig, BSt.brk, BSt.goto]
  have ha3 := ha2.next (st' := { st with
    start := st.current, start2 := st.current, state := .olSpace
    current := st.current + 1 + ds.length + 1 }) rfl
  refine leads_keep ws _ (oneLine_blanks hws) (by simp) ?_ ha3 ?_
  · intro c hc cur _
    simp [dispatch, olSpace, (blank_iff c).1 (hws c hc)]
  have ha4 := ha3.skip (st' := { st with
    start := st.current, start2 := st.current, state := .olSpace
    current := st.current + 1 + ds.length + 1 + ws.length }) rfl
  have hml : i.marker.length = 1 + ds.length + 1 + ws.length := by rw [i1]; simp; omega
  refine leads_char (st' := { st with
    start := st.current, start2 := st.current, state := .olStart, prefixLen := i.marker.length
    current := st.current + 1 + ds.length + 1 + ws.length + 1 }) ha4 hnx (by simp [hne]) ?_ rfl ?_
  · simp only [dispatch, olSpace, not_blank hx, hnx]
    rw [hml, show st.current + 1 + ds.length + 1 + ws.length - st.current =
      1 + ds.length + 1 + ws.length by omega]
    simp [BSt.brk]
  have ha5 := ha4.next (st' := { st with
    start := st.current, start2 := st.current, state := .olStart, prefixLen := i.marker.length
    current := st.current + 1 + ds.length + 1 + ws.length + 1 }) rfl
  refine leads_scan (by simp) (fun c hc => hl c (by simp [hc])) hne ha5 ?_
  have ha6 := ha5.skip (st' := { st with
    start := st.current, start2 := st.current, state := .olStart, prefixLen := i.marker.length
    current := st.current + 1 + ds.length + 1 + ws.length + 1 + r.length }) rfl
  rw [← hrest] at ha6
  refine leads_list (collected_ol i.marker.length) he hu (i := i) (is := is)
    (ordered_more _ (by omega)) ?_ ht ha6 rfl (by simp; omega) rfl hb.lines hb.lines2 hb.ok ?_ hr
  · intro y hy
    obtain ⟨⟨ds', ws', y1, yd, yw⟩, y2, y3, y4, y5, y6⟩ := his y hy
    refine ⟨?_, y2, ?_, ?_, y5, y6⟩
    · rw [← y2, y1]
      exact ordered_item yd yw y3 y4
    · rw [y1]
      intro c hc
      simp only [List.mem_append] at hc
      rcases hc with (hc | hc) | hc
      · exact hdl yd c hc
      · revert c; decide
      · exact oneLine_blanks yw c hc
    · rw [y1]; simp
  · have := At.span (s := i.marker ++ i.line) (st := st) (src := src) (t := rest)
      (by rw [i1, hxr]; simpa using ha)
    rw [show st.current + (i.marker ++ i.line).length =
      st.current + 1 + ds.length + 1 + ws.length + 1 + r.length by
      rw [List.length_append, hml, hxr]; simp; omega] at this
    exact this

/-! ### Elements of one line -/

theorem slug_eq (t : Str) : Spec.slug t = slugify t := by
  unfold Spec.slug slugify
  congr 1
  funext c
  have : ∀ n : Fin 256,
    (if UInt8.ofFin n ∈ b!"abcdefghijklmnopqrstuvwxyz0123456789" then UInt8.ofFin n
    else if UInt8.ofFin n ∈ b!"ABCDEFGHIJKLMNOPQRSTUVWXYZ" then UInt8.ofFin n + 32
    else c!"-") = slugByte (UInt8.ofFin n) := by decide +kernel
  exact this c.toFin

theorem leads_header {k : Nat} {ws title h s : Str} (he : LineEnding e) (hu : Uses e src)
    (hk : 1 ≤ k) (hws0 : ws ≠ []) (hws : Blanks ws) (hi : Indented title) (hl : OneLine title)
    (hp : parseInline title = .ok h)
    (hb : Between e src (List.replicate k c!"#" ++ ws ++ title ++ e ++ s) st)
    (hr : Rest fx rec src w e s (absorb w e (out st) (.header k title h)) P) :
    Leads fx rec src w st P := by
  obtain ⟨x, r, rfl, hx⟩ := hi
  obtain ⟨k, rfl⟩ : ∃ m, k = m + 1 := ⟨k - 1, by omega⟩
  obtain ⟨b0, ws, rfl⟩ := List.exists_cons_of_ne_nil hws0
  have hb0 := hws b0 (by simp)
  have hws' : Blanks ws := fun c hc => hws c (by simp [hc])
  have hnx := oneLine_isNl hl x (by simp)
  have ha : At src st (c!"#" :: (List.replicate k c!"#" ++ (b0 :: (ws ++ (x :: (r ++ (e ++ s))))))) := by
    simpa [List.replicate_succ] using hb.pos
  refine leads_first (st' := { st with
      start := st.current, headerLevel := 1, state := .header, current := st.current + 1 })
      ha rfl (by simp) hb.state (by simp [startLine, ends, isNl, BSt.brk]) rfl ?_
  have ha1 := ha.next (st' := { st with
      start := st.current, headerLevel := 1, state := .header, current := st.current + 1 }) rfl
  refine leads_hashes (by simp) k _ ha1 rfl ?_
  have ha2 := ha1.skip (st' := { st with
      start := st.current, headerLevel := 1 + k, state := .header
      current := st.current + 1 + k }) (by simp)
  refine leads_char (st' := { st with
      start := st.current, headerLevel := 1 + k, state := .headerTitleStart
      current := st.current + 1 + k + 1 }) ha2 (oneLine_isNl (oneLine_blanks hws) b0 (by simp))
      (by simp) ?_ rfl ?_
  · have hsp := (blank_iff b0).1 hb0
    have : b0 ≠ c!"#" := by rcases hb0 with rfl | rfl <;> decide
    simp [dispatch, header, hsp, this, BSt.brk, BSt.goto]
  have ha3 := ha2.next (st' := { st with
      start := st.current, headerLevel := 1 + k, state := .headerTitleStart
      current := st.current + 1 + k + 1 }) rfl
  refine leads_keep ws _ (oneLine_blanks hws') (by simp) ?_ ha3 ?_
  · intro c hc cur _
    simp [dispatch, headerTitleStart, (blank_iff c).1 (hws' c hc)]
  have ha4 := ha3.skip (st' := { st with
      start := st.current, headerLevel := 1 + k, state := .headerTitleStart
      current := st.current + 1 + k + 1 + ws.length }) rfl
  have hspan := At.span (s := x :: r) (t := e ++ s) ha4
  refine leads_char (st' := { st with
      start := st.current + 1 + k + 1 + ws.length, headerLevel := 1 + k, state := .headerTitle
      current := st.current + 1 + k + 1 + ws.length + 1 }) ha4 hnx (by simp [ending_ne he]) ?_ rfl ?_
  · simp [dispatch, headerTitleStart, not_blank hx, hnx, BSt.brk]
  have ha5 := ha4.next (st' := { st with
      start := st.current + 1 + k + 1 + ws.length, headerLevel := 1 + k, state := .headerTitle
      current := st.current + 1 + k + 1 + ws.length + 1 }) rfl
  refine leads_scan (by simp) (fun c hc => hl c (by simp [hc])) (by simp [ending_ne he]) ha5 ?_
  have ha6 := ha5.skip (st' := { st with
      start := st.current + 1 + k + 1 + ws.length, headerLevel := 1 + k, state := .headerTitle
      current := st.current + 1 + k + 1 + ws.length + 1 + r.length }) rfl
  generalize hst : ({ st with
      start := st.current + 1 + k + 1 + ws.length, headerLevel := 1 + k, state := .headerTitle
      current := st.current + 1 + k + 1 + ws.length + 1 + r.length } : BSt) = st1 at ha6
  have e1 : st1.headerLevel = k + 1 := by rw [← hst]; exact Nat.add_comm 1 k
  have e2 : st1.rv = st.rv := by rw [← hst]
  have e3 : st1.firstHeader = st.firstHeader := by rw [← hst]
  have e4 : st1.headers = st.headers := by rw [← hst]
  have hspan1 : Span src st1.start (x :: r) st1.current := by
    have : st1.current = st1.start + (x :: r).length := by rw [← hst]; simp; omega
    rw [this, show st1.start = st.current + 1 + k + 1 + ws.length by rw [← hst]]
    exact hspan
  have e5 : out st1 = out st := by rw [← hst]; rfl
  have hcond : 1 ≤ st1.current := by rw [← hst]; simp; omega
  have hq : st1.state = .headerTitle := by rw [← hst]
  have hok : Ok e st1 := by rw [← hst]; exact hb.ok
  have hstop := lineStop_nl (src := src) he hcond s.isEmpty (st' := nl e st1) rfl rfl
  have hll : st1.lines = [] := by rw [← hst]; exact hb.lines
  have hll2 : st1.lines2 = .live [] := by rw [← hst]; exact hb.lines2
  refine leads_nl he hu hok ha6 (st' := { nl e st1 with
      stop := st1.current
      firstHeader := if w.firstHeader = true ∧ st1.firstHeader = none then some (htmlentities (x :: r))
        else st1.firstHeader
      headers := if w.headers then Toctree.append st1.headers st1.headerLevel (some (slugify (x :: r)))
        (some h) else st1.headers
      rv := st1.rv ++ b!"<h" ++ decNat st1.headerLevel ++ b!" id=\"" ++ slugify (x :: r) ++ b!"\">" ++ h ++
        b!"</h" ++ decNat st1.headerLevel ++ b!">" ++ e
      state := .startLine
      start := (nl e st1).current
      current := (nl e st1).current + 1 }) ?_ (nl_current he) ?_
  · have : (nl e st1).state = .headerTitle := hq
    simp only [dispatch, this]
    unfold headerTitle
    rw [if_pos (ends_last he _), hstop]
    simp only
    have hs' : dup src (nl e st1).start st1.current = .ok (x :: r) := hspan1.dup
    rw [hs']
    simp only [Run.bind_ok]
    rw [hp]
    rfl
  · refine hr _ ⟨ha6.skip (nl_current he), rfl, hll, hll2, ok_nl (st := st1) he⟩ ?_
    rw [← e5]
    simp only [out, absorb, nl, Piece.html, slug_eq, e1]
    simp
    congr

theorem leads_rule {d : Byte} {k : Nat} {s : Str} (he : LineEnding e) (hu : Uses e src)
    (hd : d ∈ b!"*+-") (hk : 3 ≤ k) (hb : Between e src (List.replicate k d ++ e ++ s) st)
    (hr : Rest fx rec src w e s (absorb w e (out st) (.block (b!"<hr />" ++ e))) P) :
    Leads fx rec src w st P := by
  have hnd := marks_isNl hd
  obtain ⟨k, rfl⟩ : ∃ m, k = m + 3 := ⟨k - 3, by omega⟩
  have ha : At src st (d :: d :: d :: (List.replicate k d ++ (e ++ s))) := by
    simpa [List.replicate_succ] using hb.pos
  refine leads_first ha hnd (by simp) hb.state (startLine_mark hd) rfl ?_
  have ha1 := ha.next (st' := { st with
    start := st.current, start2 := st.current, state := .ulOrHrOrEm, d := d
    current := st.current + 1 }) rfl
  refine leads_char (st' := { st with
      start := st.current, start2 := st.current, state := .hrOrEm, d := d
      current := st.current + 1 + 1 }) ha1 hnd (by simp) ?_ rfl ?_
  · simp [dispatch, ulOrHrOrEm, BSt.brk, BSt.goto]
  have ha2 := ha1.next (st' := { st with
      start := st.current, start2 := st.current, state := .hrOrEm, d := d
      current := st.current + 1 + 1 }) rfl
  refine leads_char (st' := { st with
      start := st.current, start2 := st.current, state := .hr, d := d
      current := st.current + 1 + 1 + 1 }) ha2 hnd (by simp [ending_ne he]) ?_ rfl ?_
  · simp [dispatch, hrOrEm, BSt.brk, BSt.goto]
  have ha3 := ha2.next (st' := { st with
      start := st.current, start2 := st.current, state := .hr, d := d
      current := st.current + 1 + 1 + 1 }) rfl
  refine leads_keep (List.replicate k d) _ (oneLine_replicate hnd) (by simp [ending_ne he]) ?_ ha3 ?_
  · intro c hc cur _
    rw [List.eq_of_mem_replicate hc]
    simp [dispatch, Content.hr]
  have ha4 := ha3.skip (st' := { st with
      start := st.current, start2 := st.current, state := .hr, d := d
      current := st.current + 1 + 1 + 1 + (List.replicate k d).length }) rfl
  generalize hst : ({ st with
      start := st.current, start2 := st.current, state := .hr, d := d
      current := st.current + 1 + 1 + 1 + (List.replicate k d).length } : BSt) = st1 at ha4
  have hq : st1.state = .hr := by rw [← hst]
  have hsd : st1.d = d := by rw [← hst]
  have hok : Ok e st1 := by rw [← hst]; exact hb.ok
  have e5 : out st1 = out st := by rw [← hst]; rfl
  have hll : st1.lines = [] := by rw [← hst]; exact hb.lines
  have hll2 : st1.lines2 = .live [] := by rw [← hst]; exact hb.lines2
  refine leads_nl he hu hok ha4 (st' := { nl e st1 with
      rv := st1.rv ++ b!"<hr />" ++ e, state := .startLine, start := (nl e st1).current, d := 0
      current := (nl e st1).current + 1 }) ?_ (nl_current he) ?_
  · have h1 : (nl e st1).state = .hr := hq
    have h2 : lastOf e ≠ d := by
      intro hh
      have := isNl_lastOf he
      rw [hh, hnd] at this
      exact absurd this (by decide)
    simp only [dispatch, h1]
    unfold Content.hr
    rw [if_neg (fun hh => h2 (hh.1.trans hsd)), if_pos (ends_last he _)]
    rfl
  · refine hr _ ⟨ha4.skip (nl_current he), rfl, hll, hll2, ok_nl (st := st1) he⟩ ?_
    rw [← e5]
    simp [out, absorb, nl]

theorem leads_blank {s : Str} (he : LineEnding e) (hu : Uses e src)
    (hb : Between e src (e ++ s) st) (hr : Rest fx rec src w e s (out st) P) :
    Leads fx rec src w st P := by
  refine leads_nl he hu hb.ok hb.pos (st' := { nl e st with current := (nl e st).current + 1 }) ?_
    (nl_current he) ?_
  · have h1 : (nl e st).state = .startLine := hb.state
    simp only [dispatch, h1]
    unfold startLine
    rw [if_pos (ends_last he _), ← h1]
    rfl
  · exact hr _ ⟨hb.pos.skip (nl_current he), hb.state, hb.lines, hb.lines2, ok_nl (st := st) he⟩ rfl

theorem leads_mark {k : Nat} {s : Str} (he : LineEnding e) (hu : Uses e src) (hw : w.excerpt = true)
    (hk : 1 ≤ k) (hb : Between e src (List.replicate k c!"." ++ e ++ e ++ s) st)
    (hr : Rest fx rec src w e s (absorb w e (out st) .mark) P) : Leads fx rec src w st P := by
  obtain ⟨k, rfl⟩ : ∃ m, k = m + 1 := ⟨k - 1, by omega⟩
  have ha : At src st (c!"." :: (List.replicate k c!"." ++ (e ++ (e ++ s)))) := by
    simpa [List.replicate_succ] using hb.pos
  refine leads_first (st' := { st with
    start := st.current, eend := st.rv.length, state := .excerpt, current := st.current + 1 })
    ha rfl (by simp [ending_ne he]) hb.state (by simp [startLine, ends, isNl, hw, BSt.brk]) rfl ?_
  have ha1 := ha.next (st' := { st with
    start := st.current, eend := st.rv.length, state := .excerpt, current := st.current + 1 }) rfl
  refine leads_keep (List.replicate k c!".") _ (oneLine_replicate rfl) (by simp [ending_ne he]) ?_ ha1 ?_
  · intro c hc cur _
    rw [List.eq_of_mem_replicate hc]
    simp [dispatch, excerpt, hw]
  have ha2 := ha1.skip (st' := { st with
    start := st.current, eend := st.rv.length, state := .excerpt
    current := st.current + 1 + (List.replicate k c!".").length }) rfl
  generalize hst : ({ st with
    start := st.current, eend := st.rv.length, state := .excerpt
    current := st.current + 1 + (List.replicate k c!".").length } : BSt) = st1 at ha2
  have hq : st1.state = .excerpt := by rw [← hst]
  have hok : Ok e st1 := by rw [← hst]; exact hb.ok
  have e5 : out st1 = out st := by rw [← hst]; rfl
  have e6 : st1.eend = st1.rv.length := by rw [← hst]
  have hll : st1.lines = [] := by rw [← hst]; exact hb.lines
  have hll2 : st1.lines2 = .live [] := by rw [← hst]; exact hb.lines2
  have hdot : lastOf e ≠ c!"." := by
    rcases he with rfl | rfl | rfl | rfl <;> decide
  refine leads_nl he hu hok ha2 (st' := { nl e st1 with
      state := .excerptEnd, current := (nl e st1).current + 1 }) ?_ (nl_current he) ?_
  · have h1 : (nl e st1).state = .excerpt := hq
    simp [dispatch, h1, excerpt, hdot, hw, isNl_lastOf he, BSt.goto, BSt.brk]
  have ha3 := ha2.skip (st' := { nl e st1 with
      state := .excerptEnd, current := (nl e st1).current + 1 }) (nl_current he)
  refine leads_nl he hu (ok_nl (st := st1) he) ha3 (st' := { nl e { nl e st1 with
      state := .excerptEnd, current := (nl e st1).current + 1 } with
      state := .startLine, endExcerpt := st1.eend
      current := (nl e { nl e st1 with
        state := .excerptEnd, current := (nl e st1).current + 1 }).current + 1 }) ?_ (nl_current he) ?_
  · simp [dispatch, nl, excerptEnd, hw, isNl_lastOf he, BSt.brk]
  · refine hr _ ⟨ha3.skip (nl_current he), rfl, hll, hll2, ok_nl he⟩ ?_
    rw [← e5]
    simp [out, absorb, nl, e6]

/-! ### All together -/

theorem nulFree_ending (he : LineEnding e) : NulFree e := by
  rcases he with rfl | rfl | rfl | rfl <;> decide

theorem mem_intercalate : ∀ {ls : List Str} {c : Byte}, c ∈ List.intercalate e ls →
    c ∈ e ∨ ∃ l ∈ ls, c ∈ l
  | [], c, h => by simp [List.intercalate] at h
  | [l], c, h => by rw [intercalate_one] at h; exact .inr ⟨l, by simp, h⟩
  | l :: x :: ls, c, h => by
    rw [intercalate_two, List.mem_append, List.mem_append] at h
    rcases h with (h | h) | h
    · exact .inr ⟨l, by simp, h⟩
    · exact .inl h
    · rcases mem_intercalate h with h | ⟨y, hy, hc⟩
      · exact .inl h
      · exact .inr ⟨y, List.mem_cons_of_mem _ hy, hc⟩

theorem nulFree_intercalate (he : LineEnding e) {ls : List Str} (h : ∀ l ∈ ls, NulFree l) :
    NulFree (List.intercalate e ls) := by
  intro c hc
  rcases mem_intercalate hc with hc | ⟨l, hl, hc⟩
  · exact nulFree_ending he c hc
  · exact h l hl c hc

theorem mem_textLines {ls : List Str} {c : Byte} (h : c ∈ textLines e ls) :
    (∃ l ∈ ls, c ∈ l) ∨ c ∈ e := by
  obtain ⟨l, hl, hc⟩ := List.mem_flatMap.1 h
  rcases List.mem_append.1 hc with hc | hc
  · exact .inl ⟨l, hl, hc⟩
  · exact .inr hc

theorem nulFree_lines {ls : List Str} {t : Str} (h : NulFree (textLines e ls ++ t)) :
    ∀ l ∈ ls, NulFree l := by
  intro l hl c hc
  exact h c (List.mem_append_left _ (List.mem_flatMap.2 ⟨l, hl, List.mem_append_left _ hc⟩))

theorem ended_mem {t s : Str} (h : Ended e t s) : ∀ c ∈ s, c ∈ t := by
  cases h with
  | last => intro c hc; exact hc
  | blank => intro c hc; exact List.mem_append_right _ hc

theorem length_prefixed (p : Str) : ∀ ls : List Str,
    (textLines e (ls.map (p ++ ·))).length = (textLines e ls).length + ls.length * p.length
  | [] => by simp [textLines]
  | l :: ls => by
    have := length_prefixed p ls
    simp only [textLines, List.map_cons, List.flatMap_cons, List.length_append, List.length_cons] at this ⊢
    rw [this, Nat.succ_mul]
    omega

theorem rv_foldl (w : Want) (e : Str) : ∀ (ps : List Piece) (o : Out),
    (ps.foldl (absorb w e) o).rv = o.rv ++ docHtml e ps
  | [], o => by simp [docHtml]
  | p :: ps, o => by
    rw [List.foldl_cons, rv_foldl w e ps]
    cases p <;> simp [absorb, docHtml, Piece.html]

/-- The nested call, line 940. -/
def nested (fx : Bool) (d : Nat) (s e : Str) : Run Str := do
  let r ← parseBlocks fx d s ⟨false, false, false, false⟩ (some e)
  pure r.rv

theorem leads_doc {top : Bool} {s : Str} {ps : List Piece} (hd : Doc e top s ps) (he : LineEnding e) :
    ∀ (fx : Bool) (d : Nat) (src : Str) (w : Want) (st : BSt), NulFree s → w.excerpt = top →
    src.length ≤ d → Uses e src → Between e src s st →
    Leads fx (nested fx d) src w st (fun r => out r = ps.foldl (absorb w e) (out st) ∧
      (r.lineEndingFound = true → r.lineEnding = e)) := by
  induction hd with
  | nil => intro fx d src w st _ _ _ _ hb; exact leads_end hb.pos ⟨rfl, hb.ok.1⟩
  | blank _ ih =>
    intro fx d src w st hn hw hd hu hb
    refine leads_blank he hu hb ?_
    intro st' hb' ho
    rw [← ho]
    exact ih fx d src w st' (fun c hc => hn c (List.mem_append_right _ hc)) hw hd hu hb'
  | @block top ls p t s ps hbl ht _ ih =>
    intro fx d src w st hn hw hd hu hb
    have hlines := nulFree_lines hn
    have hr : Rest fx (nested fx d) src w e s (absorb w e (out st) p)
        (fun r => out r = (p :: ps).foldl (absorb w e) (out st) ∧
          (r.lineEndingFound = true → r.lineEnding = e)) := by
      intro st' hb' ho
      rw [List.foldl_cons, ← ho]
      exact ih fx d src w st'
        (fun c hc => hn c (List.mem_append_right _ (ended_mem ht c hc))) hw hd hu hb'
    subst hw
    -- the lines of the items
    have items : ∀ {is : List Item}, (∀ l ∈ is.flatMap Item.source, NulFree l) → ∀ x ∈ is,
        ∀ l ∈ x.line :: x.more, NulFree l := by
      intro is h x hx l hl c hc
      rcases List.mem_cons.1 hl with rfl | hl
      · exact h (x.marker ++ x.line) (List.mem_flatMap.2 ⟨x, hx, by simp [Item.source]⟩) c
          (List.mem_append_right _ hc)
      · exact h (List.replicate x.marker.length c!" " ++ l) (List.mem_flatMap.2 ⟨x, hx, by
          rw [Item.source]
          exact List.mem_cons_of_mem _ (List.mem_map.2 ⟨l, hl, rfl⟩)⟩) c (List.mem_append_right _ hc)
    cases hbl with
    | para hp hls hi =>
      exact leads_para he hu hp hls
        (C73.documented_partial _ _ hi (nulFree_intercalate he hlines)) ht hb hr
    | html hls => exact leads_html he hu hls ht hb hr
    | code hp0 hp hi hls => exact leads_code he hu hp0 hp hi hls ht hb hr
    | unordered hd' hws0 hws hi his =>
      refine leads_ul he hu hd' hws0 hws hi ?_ ht hb hr
      intro x hx
      obtain ⟨h1, h2, h3⟩ := his x hx
      exact ⟨h1, h2, C73.documented_partial _ _ h3 (nulFree_intercalate he (items hlines x hx))⟩
    | ordered hi his =>
      refine leads_ol he hu hi ?_ ht hb hr
      intro x hx
      obtain ⟨h1, h2, h3, h4, h5⟩ := his x hx
      exact ⟨h1, h2, h3, items hlines x hx x.line (by simp), h4,
        C73.documented_partial _ _ h5 (nulFree_intercalate he (items hlines x hx))⟩
    | broken hp hi hy hls hin =>
      exact leads_broken he hu hp hi hy hls
        (C73.documented_partial _ _ hin (nulFree_intercalate he hlines)) ht hb hr
  | @quote top ws l ls qs ps t s hws hi hls _ ht _ ihq ih =>
    intro fx d src w st hn hw hd hu hb
    have hlines : ∀ x ∈ l :: ls, NulFree x := by
      intro x hx c hc
      exact nulFree_lines hn _ (List.mem_map.2 ⟨x, hx, rfl⟩) c (List.mem_append_right _ hc)
    have hlen : (textLines e (l :: ls)).length < src.length := by
      obtain ⟨pre, h1, _⟩ := hb.pos
      rw [h1, List.length_append, List.length_append, length_prefixed]
      have : 0 < (l :: ls).length * (c!">" :: ws).length := Nat.mul_pos (by simp) (by simp)
      omega
    have hrec : nested fx d (textLines e (l :: ls)) e = .ok (docHtml e qs) := by
      obtain ⟨d, rfl⟩ : ∃ m, d = m + 1 := ⟨d - 1, by omega⟩
      have hn' : NulFree (textLines e (l :: ls)) := by
        intro c hc
        rcases mem_textLines hc with ⟨x, hx, hc⟩ | hc
        · exact hlines x hx c hc
        · exact nulFree_ending he c hc
      obtain ⟨r, ⟨hr1, -⟩, hr2⟩ := ihq fx d (textLines e (l :: ls)) ⟨false, false, false, false⟩
        (BSt.init (some e)) hn' rfl (by omega) (by
          intro c hc hnl
          rcases mem_textLines hc with ⟨x, hx, hc⟩ | hc
          · rw [oneLine_isNl (hls x hx) c hc] at hnl
            exact absurd hnl (by decide)
          · exact hc) ⟨⟨[], rfl, rfl⟩, rfl, rfl, rfl, fun _ => rfl, fun _ => rfl⟩
      have hr2 := hr2 ((textLines e (l :: ls)).length + 1)
      have h0 : (BSt.init (some e)).current = 0 := rfl
      rw [h0, show (textLines e (l :: ls)).length + 1 + ((textLines e (l :: ls)).length - 0) + 1 =
        2 * (textLines e (l :: ls)).length + 2 by omega] at hr2
      unfold nested
      rw [parseBlocks]
      have : runL (blockStep fx (fun s e => do
          let r ← parseBlocks fx d s ⟨false, false, false, false⟩ (some e)
          pure r.rv) (textLines e (l :: ls)) ⟨false, false, false, false⟩)
          (2 * (textLines e (l :: ls)).length + 2) (BSt.init (some e)) = .ok r := hr2
      rw [this]
      have hrv : (out r).rv = docHtml e qs := by rw [hr1, rv_foldl]; rfl
      exact congrArg Run.ok hrv
    refine leads_quote he hu hws hi hls hrec ht hb ?_
    intro st' hb' ho
    rw [List.foldl_cons, ← ho]
    exact ih fx d src w st'
      (fun c hc => hn c (List.mem_append_right _ (ended_mem ht c hc))) hw hd hu hb'
  | @header top k ws title h s ps hk hws0 hws hi hl hin _ ih =>
    intro fx d src w st hn hw hd hu hb
    have hnt : NulFree title := fun c hc => hn c (by simp [hc])
    refine leads_header he hu hk hws0 hws hi hl (C73.documented_partial _ _ hin hnt) hb ?_
    intro st' hb' ho
    rw [List.foldl_cons, ← ho]
    exact ih fx d src w st' (fun c hc => hn c (List.mem_append_right _ hc)) hw hd hu hb'
  | @rule top m k s ps hm hk _ ih =>
    intro fx d src w st hn hw hd hu hb
    refine leads_rule he hu hm hk hb ?_
    intro st' hb' ho
    rw [List.foldl_cons, ← ho]
    exact ih fx d src w st' (fun c hc => hn c (List.mem_append_right _ hc)) hw hd hu hb'
  | @mark k s ps hk _ ih =>
    intro fx d src w st hn hw hd hu hb
    refine leads_mark he hu hw (by omega) hb ?_
    intro st' hb' ho
    rw [List.foldl_cons, ← ho]
    exact ih fx d src w st' (fun c hc => hn c (List.mem_append_right _ hc)) hw hd hu hb'

/-! ### Newline characters of a document -/

theorem uses_append {a b : Str} (ha : Uses e a) (hb : Uses e b) : Uses e (a ++ b) := by
  intro c hc
  rcases List.mem_append.1 hc with hc | hc
  · exact ha c hc
  · exact hb c hc

theorem uses_oneLine {l : Str} (h : OneLine l) : Uses e l := by
  intro c hc hn
  rw [oneLine_isNl h c hc] at hn
  exact absurd hn (by decide)

theorem uses_self : Uses e e := fun _ hc _ => hc

theorem uses_lines {ls : List Str} (h : ∀ l ∈ ls, OneLine l) : Uses e (textLines e ls) := by
  intro c hc hn
  rcases mem_textLines hc with ⟨l, hl, hc⟩ | hc
  · exact uses_oneLine (h l hl) c hc hn
  · exact hc

theorem uses_ended {t s : Str} (h : Ended e t s) (hs : Uses e s) : Uses e t := by
  cases h with
  | last => exact hs
  | blank => exact uses_append uses_self hs

theorem block_oneLine {top : Bool} {ls : List Str} {p : Piece} (h : Block e top ls p) :
    ∀ l ∈ ls, OneLine l := by
  cases h with
  | para _ hls _ => exact fun x hx => (hls x hx).1
  | html hls => exact fun x hx => (hls x hx).1
  | code _ hp _ hls =>
    intro x hx
    obtain ⟨y, hy, rfl⟩ := List.mem_map.1 hx
    intro c hc
    rcases List.mem_append.1 hc with hc | hc
    · exact oneLine_blanks hp c hc
    · exact hls y hy c hc
  | @unordered d ws i is hd _ hws _ his =>
    intro x hx
    obtain ⟨j, hj, hx⟩ := List.mem_flatMap.1 hx
    obtain ⟨j1, j2⟩ := his j hj
    refine (mem_source ?_ (by rw [j1]; simp) j2.1 x hx).1
    rw [j1]
    intro c hc
    rcases List.mem_cons.1 hc with rfl | hc
    · have := marks_isNl hd
      simp only [isNl, Bool.or_eq_false_iff, beq_eq_false_iff_ne] at this
      exact this
    · exact oneLine_blanks hws c hc
  | ordered _ his =>
    intro x hx
    obtain ⟨j, hj, hx⟩ := List.mem_flatMap.1 hx
    obtain ⟨⟨ds, ws, j1, jd, jw⟩, _, _, j2⟩ := his j hj
    refine (mem_source ?_ (by rw [j1]; simp) j2.1 x hx).1
    rw [j1]
    intro c hc
    simp only [List.mem_append] at hc
    rcases hc with (hc | hc) | hc
    · have := isDig_isNl c ((mem_digits c).1 (jd.2 c hc))
      simp only [isNl, Bool.or_eq_false_iff, beq_eq_false_iff_ne] at this
      exact this
    · revert c; decide
    · exact oneLine_blanks jw c hc
  | broken _ _ _ hls _ => exact fun x hx => (hls x hx).1

theorem uses_doc {top : Bool} {s : Str} {ps : List Piece} (hd : Doc e top s ps) : Uses e s := by
  induction hd with
  | nil => intro c hc; simp at hc
  | blank _ ih => exact uses_append uses_self ih
  | block hb ht _ ih => exact uses_append (uses_lines (block_oneLine hb)) (uses_ended ht ih)
  | quote hws _ hls _ ht _ _ ih =>
    refine uses_append (uses_lines ?_) (uses_ended ht ih)
    intro x hx
    obtain ⟨y, hy, rfl⟩ := List.mem_map.1 hx
    intro c hc
    rcases List.mem_append.1 hc with hc | hc
    · rcases List.mem_cons.1 hc with rfl | hc
      · decide
      · exact oneLine_blanks hws c hc
    · exact hls y hy c hc
  | header _ _ hws _ hl _ _ ih =>
    exact uses_append (uses_append (uses_append (uses_append (uses_oneLine (oneLine_replicate rfl))
      (uses_oneLine (oneLine_blanks hws))) (uses_oneLine hl)) uses_self) ih
  | rule hm _ _ ih =>
    exact uses_append (uses_append (uses_oneLine (oneLine_replicate (marks_isNl hm))) uses_self) ih
  | mark _ _ ih =>
    exact uses_append (uses_append (uses_append (uses_oneLine (oneLine_replicate rfl)) uses_self)
      uses_self) ih

/-- The parser on a whole document. -/
theorem parse_doc {top : Bool} {s : Str} {ps : List Piece} (hd : Doc e top s ps) (he : LineEnding e)
    (hn : NulFree s) (fx : Bool) (d : Nat) (w : Want) (hw : w.excerpt = top) (hlen : s.length < d) :
    ∃ r, parseBlocks fx d s w none = .ok r ∧
      out r = ps.foldl (absorb w e) ⟨[], 0, none, none, []⟩ ∧ (r.lineEndingFound = true → r.lineEnding = e) := by
  obtain ⟨d, rfl⟩ : ∃ m, d = m + 1 := ⟨d - 1, by omega⟩
  obtain ⟨r, hr1, hr2⟩ := leads_doc hd he fx d s w (BSt.init none) hn hw (by omega) (uses_doc hd)
    ⟨⟨[], rfl, rfl⟩, rfl, rfl, rfl, by simp [BSt.init], fun _ => rfl⟩
  refine ⟨r, ?_, hr1⟩
  have hr2 := hr2 (s.length + 1)
  have h0 : (BSt.init none).current = 0 := rfl
  rw [h0, show s.length + 1 + (s.length - 0) + 1 = 2 * s.length + 2 by omega] at hr2
  rw [parseBlocks]
  exact hr2

end Blogc.BlockDoc
