import Verif.Lemmas.MistakesRead

/-!
# How each mistake is found
-/

namespace Blogc.Template

open Blogc Blogc.Doc Blogc.Tokens Blogc.Spec.Mistakes

theorem runAt_fail {src rest : Str} {cur : Nat} {st : St} {c : Byte} {e : Err} (h : src.drop cur = c :: rest)
    (hs : step src cur st c = fail e) : runAt src cur st = .ok (.error (report st cur e)) := by
  simp only [runAt]
  rw [h, loop, hs]
  rfl

/-- Errors whose report needs only the position. -/
def plain (e : Err) : Bool :=
  match e with
  | .operator | .openString | .ifsNotClosedInBlock | .foreachNotClosedInBlock | .ifsNotClosed | .blockNotClosed
  | .foreachNotClosed => false
  | _ => true

theorem report_plain {e : Err} (h : plain e = true) (p : Place) (st : St) (cur : Nat) :
    report st cur e = reportOf p cur e := by
  cases e <;> first | rfl | cases h

theorem at2 {src s u x : Str} {q : Nat} (h : src.drop q = s ++ (u ++ x)) : src.drop (q + s.length + u.length) = x := by
  have := at_drop (u := s ++ u) (x := x) (by rw [h]; simp)
  simpa [Nat.add_assoc] using this

section
variable {src rest s : Str} {q stop : Nat} {br : Br} {ast : List Node} {ls : Bool} {p : Place}

/-- A byte that is wrong after `u`. -/
theorem fail_at {u : Str} {c : Byte} {st b : St} {e : Err} (h : src.drop q = s ++ (u ++ [c]) ++ rest)
    (hr : runAt src (q + s.length) b = runAt src (q + s.length + u.length) st)
    (hs : step src (q + s.length + u.length) st c = fail e) (he : plain e = true) :
    runAt src (q + s.length) b = .ok (.error (reportOf p (q + s.length + u.length) e)) := by
  rw [hr, runAt_fail (at2 (x := c :: rest) (by rw [h]; simp)) hs, report_plain he p]

/-- From the text before a statement to its first word. -/
theorem to_opening {l : Bool} {a : Str} (h : src.drop q = s ++ (opening l a ++ rest)) (hn : NulFree s) (ha : Blank a) :
    runAt src (q + s.length) (between q stop br ast ls) =
      runAt src (q + s.length + (opening l a).length)
        { between q (q + s.length) br (astAt l s ls ast) (flushed s ls) with
          state := if l = false ∧ a = [] then .blockStartCleaner else .blockStart } := by
  have h0 : src.drop q = s ++ c!"{" :: c!"%" :: (dash l ++ a ++ rest) := by rw [h]; simp [opening]
  have h1 : src.drop (q + s.length + 2) = dash l ++ a ++ rest := at_drop1 (at_drop1 (at_drop h0))
  rw [open_item (stop := stop) (br := br) (ast := ast) (ls := ls) (Or.inl ⟨rfl, rfl⟩) h0 hn]
  rw [show q + s.length + (opening l a).length = q + s.length + 2 + (dash l ++ a).length by simp [opening]; omega]
  generalize q + s.length + 2 = m at *
  cases l with
  | true =>
    have hd : src.drop m = c!"-" :: (a ++ rest) := by rw [h1]; simp [dash]
    rw [runAt_step hd (st' := { between q (q + s.length) br (astAt true s ls ast) (flushed s ls) with state := .blockStart }) (by
      simp only [step, blockStartCleaner, if_true]; rfl)]
    rw [runAt_stay (at_drop1 hd) fun c hc n => space_stays (ha c hc) (Or.inl rfl) n]
    rw [show m + 1 + a.length = m + (dash true ++ a).length by simp [dash]; omega]
    simp
  | false =>
    cases a with
    | nil => rfl
    | cons c a =>
      have hd : src.drop m = (c :: a) ++ rest := by rw [h1]; simp [dash]
      have hcs : isSpace c = true := ha c (by simp)
      refine (runAt_enter hd (by simp) (fun c' r e => ?_) (fun c' r e d hd n => ?_)).trans
        (b := runAt src (m + (c :: a).length)
          { between q (q + s.length) br (astAt false s ls ast) (flushed s ls) with state := .blockStart }) ?_
      · injection e with e1 e2
        subst e1
        simp only [step, blockStartCleaner, blockStart]
        rw [if_neg (space_not_dash hcs), if_pos hcs]
        rfl
      · injection e with e1 e2
        subst e2
        exact space_stays (ha d (by simp [hd])) (Or.inl rfl) n
      · simp [dash]

/-- From the text before a statement to the end of its first word. -/
theorem to_word {l : Bool} {a w : Str} (h : src.drop q = s ++ (opening l a ++ w ++ rest)) (hn : NulFree s) (ha : Blank a)
    (hne : w ≠ []) (hw : ∀ c ∈ w, isLower c = true) :
    runAt src (q + s.length) (between q stop br ast ls) =
      runAt src (q + s.length + (opening l a ++ w).length)
        (atWord (q + s.length + (opening l a).length) (q + s.length) br (astAt l s ls ast) (flushed s ls)) := by
  have h0 : src.drop q = s ++ c!"{" :: c!"%" :: (dash l ++ a ++ w ++ rest) := by rw [h]; simp [opening]
  have h1 : src.drop (q + s.length + 2) = dash l ++ a ++ w ++ rest := at_drop1 (at_drop1 (at_drop h0))
  rw [open_item (stop := stop) (br := br) (ast := ast) (ls := ls) (Or.inl ⟨rfl, rfl⟩) h0 hn, lead rfl h1 ha hne hw]
  rw [show q + s.length + (opening l a ++ w).length = q + s.length + 2 + (dash l ++ a).length + w.length by
    simp [opening]; omega]
  rw [show q + s.length + (opening l a).length = q + s.length + 2 + (dash l ++ a).length by simp [opening]; omega]
  rfl

/-- From the text before a statement over its first word and the white space after it. -/
theorem to_gap {l : Bool} {a w g : Str} {k : NodeType} {S : State} (h : src.drop q = s ++ (opening l a ++ w ++ g ++ rest))
    (hn : NulFree s) (ha : Blank a) (hne : w ≠ []) (hw : ∀ c ∈ w, isLower c = true) (hk : keyword w = some k) (hg : Gap g)
    (hs : ∀ q1 q2 stop ast ls, ∃ st1, statementOf q1 (atWord q2 stop br ast ls) k = go st1 ∧ st1.state = S ∧ st1.type = k)
    (hS : S = .blockBlockTypeStart ∨ S = .ifStart ∨ S = .foreachStart ∨ S = .blockEndCleaner) :
    ∃ st : St, runAt src (q + s.length) (between q stop br ast ls) =
      runAt src (q + s.length + (opening l a ++ w ++ g).length) st ∧ st.state = S ∧ st.type = k := by
  have h1 : src.drop (q + s.length + (opening l a).length) = w ++ g ++ rest := at2 (by rw [h]; simp)
  obtain ⟨st1, e1, e2, e3⟩ := hs (q + s.length + (opening l a).length + w.length) (q + s.length + (opening l a).length)
    (q + s.length) (astAt l s ls ast) (flushed s ls)
  refine ⟨st1, ?_, e2, e3⟩
  rw [to_word (l := l) (a := a) (w := w) (rest := g ++ rest) (by rw [h]; simp) hn ha hne hw]
  have := word h1 hk hne (lower_nulFree fun c hc => Or.inl (hw c hc)) hg e1 (by rw [e2]; exact hS)
  rw [show q + s.length + (opening l a ++ w).length = q + s.length + (opening l a).length + w.length by simp; omega, this,
    show q + s.length + (opening l a ++ w ++ g).length = q + s.length + (opening l a).length + w.length + g.length by
      simp; omega]

theorem to_block {l : Bool} {a g : Str} (h : src.drop q = s ++ (opening l a ++ b!"block" ++ g ++ rest))
    (hn : NulFree s) (ha : Blank a) (hg : Gap g) (hb : br.blockOpen = false) :
    ∃ st : St, runAt src (q + s.length) (between q stop br ast ls) =
      runAt src (q + s.length + (opening l a ++ b!"block" ++ g).length) st ∧ st.state = .blockBlockTypeStart ∧
        st.type = .block := by
  refine to_gap h hn ha (by decide) (by decide) (k := .block) rfl hg (fun q1 q2 st a l => ?_) (Or.inl rfl)
  refine ⟨_, by simp only [statementOf]; rw [if_pos (by exact hb)], rfl, rfl⟩

theorem to_cond {l : Bool} {a g w : Str} (h : src.drop q = s ++ (opening l a ++ w ++ g ++ rest))
    (hn : NulFree s) (ha : Blank a) (hg : Gap g) (hw : w ∈ conditionals) :
    ∃ st : St, runAt src (q + s.length) (between q stop br ast ls) =
      runAt src (q + s.length + (opening l a ++ w ++ g).length) st ∧ st.state = .ifStart ∧ keyword w = some st.type := by
  have hw' : w ≠ [] ∧ (∀ c ∈ w, isLower c = true) ∧ ∃ k, keyword w = some k ∧ ∀ q1 q2 stop ast ls,
      ∃ st1, statementOf q1 (atWord q2 stop br ast ls) k = go st1 ∧ st1.state = .ifStart ∧ st1.type = k := by
    simp only [conditionals, List.mem_cons, List.not_mem_nil, or_false] at hw
    rcases hw with rfl | rfl | rfl <;>
      exact ⟨by decide, by decide, _, rfl, fun _ _ _ _ _ => ⟨_, rfl, rfl, rfl⟩⟩
  obtain ⟨h1, h2, k, h3, h4⟩ := hw'
  obtain ⟨st, g1, g2, g3⟩ := to_gap (stop := stop) (ast := ast) (ls := ls) h hn ha h1 h2 h3 hg h4 (Or.inr (Or.inl rfl))
  exact ⟨st, g1, g2, g3 ▸ h3⟩

theorem to_foreach {l : Bool} {a g : Str} (h : src.drop q = s ++ (opening l a ++ b!"foreach" ++ g ++ rest))
    (hn : NulFree s) (ha : Blank a) (hg : Gap g) (hb : br.foreachOpen = false) :
    ∃ st : St, runAt src (q + s.length) (between q stop br ast ls) =
      runAt src (q + s.length + (opening l a ++ b!"foreach" ++ g).length) st ∧ st.state = .foreachStart ∧
        st.type = .foreach := by
  refine to_gap h hn ha (by decide) (by decide) (k := .foreach) rfl hg (fun q1 q2 st a l => ?_) (Or.inr (Or.inr (Or.inl rfl)))
  refine ⟨_, by simp only [statementOf]; rw [if_pos (by exact hb)], rfl, rfl⟩

/-- Over a whole comparison up to its right-hand side. -/
theorem to_operand {l : Bool} {a g n b op d : Str}
    (h : src.drop q = s ++ (opening l a ++ b!"if" ++ g ++ n ++ b ++ op ++ d ++ rest)) (hn : NulFree s) (ha : Blank a)
    (hg : Gap g) (hnm : IsName n) (hb : Gap b) (hop : op ≠ []) (hsp : ∀ x ∈ op, ¬ Space x) (hd : Gap d) :
    ∃ st : St, runAt src (q + s.length) (between q stop br ast ls) =
      runAt src (q + s.length + (opening l a ++ b!"if" ++ g ++ n ++ b ++ op ++ d).length) st ∧
        st.state = .ifOperandStart ∧ st.opStart = q + s.length + (opening l a ++ b!"if" ++ g ++ n ++ b).length ∧
        st.opEnd = st.opStart + op.length := by
  obtain ⟨st, e1, e2, e3⟩ := to_cond (stop := stop) (br := br) (ast := ast) (ls := ls) (l := l) (a := a) (g := g) (w := b!"if")
    (rest := n ++ b ++ (op ++ d ++ rest)) (by rw [h]; simp) hn ha hg (by decide)
  have ht : st.type = .if_ := by
    have : keyword b!"if" = some .if_ := rfl
    rw [this] at e3; injection e3 with e3; exact e3.symm
  have h1 : src.drop (q + s.length + (opening l a ++ b!"if" ++ g).length) = n ++ b ++ (op ++ d ++ rest) :=
    at2 (by rw [h]; simp)
  have h2 : src.drop (q + s.length + (opening l a ++ b!"if" ++ g).length + n.length + b.length) = op ++ d ++ rest := by
    have := at_drop h1
    simpa [Nat.add_assoc] using this
  have e4 := e1.trans ((name_word h1 hnm hb e2 (Or.inl ⟨rfl, rfl⟩)).trans
    (operator_word (by simp [ht]) h2 hop (fun c hc => not_space (hsp c hc)) hd))
  rw [show q + s.length + (opening l a ++ b!"if" ++ g ++ n ++ b ++ op ++ d).length =
    q + s.length + (opening l a ++ b!"if" ++ g).length + n.length + b.length + op.length + d.length by simp; omega]
  exact ⟨_, e4, rfl, by simp; omega, rfl⟩

/-- Over the words of a statement. -/
theorem to_end {l : Bool} {a : Str} {t : Stmt} {p' : Place} (h : src.drop q = s ++ (opening l a ++ t.print ++ rest))
    (hn : NulFree s) (ha : Blank a) (ht : t.Ok) (hag : Agrees p br) (hf : follow p t = some p') :
    ∃ st : St, runAt src (q + s.length) (between q stop br ast ls) =
      runAt src (q + s.length + (opening l a ++ t.print).length) st ∧ st.state = .blockEndCleaner := by
  obtain ⟨br', hb, _⟩ := hag.next hf
  have h1 : src.drop (q + s.length + (opening l a).length) = kwOf t ++ tailOf t ++ rest :=
    at2 (by rw [h, print_split]; simp)
  obtain ⟨E, e1, e2, _⟩ := stmt_tail (stop := q + s.length) (ast := astAt l s ls ast) (ls := flushed s ls) h1 ht (by omega) hb
  refine ⟨E, ?_, e2⟩
  rw [to_word (l := l) (a := a) (w := kwOf t) (rest := tailOf t ++ rest) (by rw [h, print_split]; simp) hn ha (kw_ne t) (kw_lower t)]
  rw [show q + s.length + (opening l a ++ kwOf t).length = q + s.length + (opening l a).length + (kwOf t).length by
    simp; omega, e1, print_split]
  exact congrArg (fun m => runAt src m _) (by simp; omega)

/-- After the words of a statement, with or without a marker. -/
theorem to_dash {l r : Bool} {a : Str} {t : Stmt} {p' : Place} (h : src.drop q = s ++ (opening l a ++ t.print ++ dash r ++ rest))
    (hn : NulFree s) (ha : Blank a) (ht : t.Ok) (hag : Agrees p br) (hf : follow p t = some p') :
    ∃ st : St, runAt src (q + s.length) (between q stop br ast ls) =
      runAt src (q + s.length + (opening l a ++ t.print ++ dash r).length) st ∧
        st.state = if r then .blockEnd else .blockEndCleaner := by
  obtain ⟨st, e1, e2⟩ := to_end (l := l) (a := a) (t := t) (stop := stop) (ast := ast) (ls := ls) (rest := dash r ++ rest) (by rw [h]; simp) hn ha ht hag hf
  cases r with
  | false => exact ⟨st, by rw [e1]; simp [dash], e2⟩
  | true =>
    have h1 : src.drop (q + s.length + (opening l a ++ t.print).length) = c!"-" :: rest :=
      at2 (by rw [h]; simp [dash])
    refine ⟨{ st with lstripNext := true, state := .blockEnd }, ?_, rfl⟩
    rw [e1, runAt_step h1 (st' := { st with lstripNext := true, state := .blockEnd }) (by
      simp only [step, e2, blockEndCleaner]
      rw [if_neg (by decide), if_pos trivial])]
    exact congrArg (fun m => runAt src m _) (by simp [dash]; omega)

/-- A variable reference, up to its name. -/
theorem to_var {a : Str} (h : src.drop q = s ++ (b!"{{" ++ a ++ rest)) (hn : NulFree s) (ha : Blank a) :
    ∃ st : St, runAt src (q + s.length) (between q stop br ast ls) = runAt src (q + s.length + (b!"{{" ++ a).length) st ∧
      st.state = .variableStart := by
  have h0 : src.drop q = s ++ c!"{" :: c!"{" :: (a ++ rest) := by rw [h]; simp
  have h1 : src.drop (q + s.length + 2) = a ++ rest := at_drop1 (at_drop1 (at_drop h0))
  rw [show q + s.length + (b!"{{" ++ a).length = q + s.length + 2 + a.length by simp; omega]
  exact ⟨_, (open_item (stop := stop) (br := br) (ast := ast) (ls := ls) (Or.inr ⟨rfl, rfl⟩) h0 hn).trans
    (runAt_stay h1 fun c hc m => space_stays (ha c hc) (by simp) m), rfl⟩

theorem to_varName {a n : Str} (h : src.drop q = s ++ (b!"{{" ++ a ++ n ++ rest)) (hn : NulFree s) (ha : Blank a)
    (hnm : IsName n) :
    ∃ st : St, runAt src (q + s.length) (between q stop br ast ls) =
      runAt src (q + s.length + (b!"{{" ++ a ++ n).length) st ∧ st.state = .variable := by
  obtain ⟨st, e1, e2⟩ := to_var (a := a) (stop := stop) (br := br) (ast := ast) (ls := ls) (rest := n ++ rest) (by rw [h]; simp) hn ha
  have h1 : src.drop (q + s.length + (b!"{{" ++ a).length) = n ++ rest := at2 (by rw [h]; simp)
  rw [show q + s.length + (b!"{{" ++ a ++ n).length = q + s.length + (b!"{{" ++ a).length + n.length by simp; omega]
  refine ⟨{ st with state := .variable, type := .variable, start := q + s.length + (b!"{{" ++ a).length },
    e1.trans (runAt_enter h1 hnm.ne_nil (fun c r e => ?_) (fun c r e x hx m => ?_)), rfl⟩
  · have hc := (name_head hnm e).1
    simp only [step, e2, variableStart]
    rw [if_neg (by simp [upper_not_space hc]), if_pos hc]
  · have hx := (name_head hnm e).2 x hx
    simp only [step, variable_]
    rw [if_pos hx]

/-- The name of a variable and the white space after it. -/
theorem to_varEnd {a n b : Str} (h : src.drop q = s ++ (b!"{{" ++ a ++ n ++ b ++ rest)) (hn : NulFree s) (ha : Blank a)
    (hnm : IsName n) (hb : Gap b) :
    ∃ st : St, runAt src (q + s.length) (between q stop br ast ls) =
      runAt src (q + s.length + (b!"{{" ++ a ++ n ++ b).length) st ∧ st.state = .variableEnd := by
  obtain ⟨st, e1, e2⟩ := to_varName (a := a) (n := n) (stop := stop) (br := br) (ast := ast) (ls := ls) (rest := b ++ rest)
    (by rw [h]; simp) hn ha hnm
  have h1 : src.drop (q + s.length + (b!"{{" ++ a ++ n).length) = b ++ rest := at2 (by rw [h]; simp)
  rw [show q + s.length + (b!"{{" ++ a ++ n ++ b).length = q + s.length + (b!"{{" ++ a ++ n).length + b.length by
    simp; omega]
  refine ⟨{ st with stop := q + s.length + (b!"{{" ++ a ++ n).length, state := .variableEnd },
    e1.trans (runAt_enter h1 hb.2 (fun c r e => ?_) (fun c r e x hx m => ?_)), rfl⟩
  · have hc := (gap_head hb e).1
    simp only [step, e2, variable_]
    rw [if_neg (by simp [space_not_name hc]), if_pos hc]
  · exact space_stays ((gap_head hb e).2 x hx) (by simp) m

end

end Blogc.Template
