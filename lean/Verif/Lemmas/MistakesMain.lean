import Verif.Lemmas.MistakesFail

/-!
# Every mistake is found
-/

namespace Blogc.Template

open Blogc Blogc.Doc Blogc.Tokens Blogc.Spec.Mistakes

theorem block_some {p : Place} (h : p.inBlock = true) : ∃ k, p.block = some k := by
  cases hb : p.block with
  | some k => exact ⟨k, rfl⟩
  | none =>
    simp only [Place.block, List.findSome?_eq_none_iff] at hb
    simp only [Place.inBlock, List.any_eq_true] at h
    obtain ⟨x, hx, hc⟩ := h
    have := hb x hx
    cases x with
    | block k => cases this
    | cond e => cases hc
    | loop => cases hc

theorem keyword_none {w : Str} (h : w ∉ keywords) : keyword w = none := by
  simp only [keywords, List.mem_cons, List.not_mem_nil, or_false, not_or] at h
  obtain ⟨h1, h2, h3, h4, h5, h6, h7, h8, h9⟩ := h
  rw [keyword, if_neg h1, if_neg h2, if_neg h3, if_neg h4, if_neg h5, if_neg h6, if_neg h7, if_neg h8, if_neg h9]

theorem operator_none {w : Str} (h : w ∉ operators) : operator w = .none := by
  simp only [operators, List.mem_cons, List.not_mem_nil, or_false, not_or] at h
  rw [operator]
  repeat' (first | rw [if_neg (by simp_all)] | rfl)

theorem word_lower {w : Str} (h : Word w) : ∀ c ∈ w, isLower c = true := fun c hc => lower_iff.mp (h.2 c hc)

section
variable {src rest s : Str} {q stop : Nat} {br : Br} {ast : List Node} {ls : Bool} {p : Place}

/-- A word that is not a statement, or not one that can stand here. -/
theorem word_fails {l : Bool} {a w : Str} {c : Byte} {e : Err} (h : src.drop q = s ++ (opening l a ++ w ++ [c]) ++ rest)
    (hn : NulFree s) (ha : Blank a) (hne : w ≠ []) (hw : ∀ c ∈ w, isLower c = true) (hc : isSpace c = true)
    (hs : ∀ q1 q2 stop ast' ls, blockName ast' = blockName ast →
      ∃ st, statement q1 (atWord q2 stop br ast' ls) w = fail e ∧
        report (atWord q2 stop br ast' ls) q1 e = st ∧ st = reportOf p q1 e) :
    runAt src (q + s.length) (between q stop br ast ls) =
      .ok (.error (reportOf p (q + s.length + (opening l a ++ w).length) e)) := by
  have h1 : src.drop (q + s.length + (opening l a).length) = w ++ c :: rest := at2 (by rw [h]; simp)
  have h2 : src.drop (q + s.length + (opening l a).length + w.length) = c :: rest := at_drop h1
  rw [to_word (l := l) (a := a) (w := w) (rest := [c] ++ rest) (by rw [h]; simp) hn ha hne hw,
    show q + s.length + (opening l a ++ w).length = q + s.length + (opening l a).length + w.length by simp; omega]
  obtain ⟨_, e1, rfl, e3⟩ := hs (q + s.length + (opening l a).length + w.length) (q + s.length + (opening l a).length)
    (q + s.length) (astAt l s ls ast) (flushed s ls) (blockName_astAt l s ls ast)
  rw [runAt_fail (e := e) h2, e3]
  simp only [step, atWord, blockType]
  rw [if_neg (by simp [space_not_lower hc]), if_pos hc, dup_at h1 hne (lower_nulFree fun c hc => Or.inl (hw c hc))]
  exact e1

/-- Statements that cannot stand at a place. -/
theorem misplaced_fails {w : Str} {e : Err} (hm : Misplaced p w e) (hag : Agrees p br) (hnm : Named p ast) :
    w ≠ [] ∧ (∀ c ∈ w, isLower c = true) ∧ ∀ q1 q2 stop ast' ls, blockName ast' = blockName ast →
      ∃ st, statement q1 (atWord q2 stop br ast' ls) w = fail e ∧
        report (atWord q2 stop br ast' ls) q1 e = st ∧ st = reportOf p q1 e := by
  have hin := hag.inner_ifs
  have noIf : p.inner.any Opened.isCond = false → ¬ br.ifOpen := fun h h' => by rw [hag.ifOpen, h] at h'; cases h'
  cases hm with
  | nestedBlock h =>
    refine ⟨by decide, by decide, fun q1 q2 stop ast' ls _ => ⟨_, ?_, rfl, report_plain rfl p _ _⟩⟩
    rw [statement, show keyword b!"block" = some .block from rfl]
    simp only [statementOf]
    rw [if_neg (by simp [atWord, hag.block, h])]
  | endblock h =>
    refine ⟨by decide, by decide, fun q1 q2 stop ast' ls _ => ⟨_, ?_, rfl, report_plain rfl p _ _⟩⟩
    rw [statement, show keyword b!"endblock" = some .endblock from rfl]
    simp only [statementOf]
    rw [if_neg (by simp [atWord, hag.block, h])]
  | openIf hb h =>
    have hb' : br.blockOpen = true := hag.block.trans hb
    rw [if_pos hb'] at hin
    rw [countP_any] at h
    obtain ⟨k, hk⟩ := block_some hb
    refine ⟨by decide, by decide, fun q1 q2 stop ast' ls ha => ⟨_, ?_, rfl, ?_⟩⟩
    · rw [statement, show keyword b!"endblock" = some .endblock from rfl]
      simp only [statementOf]
      rw [if_pos (by exact hb'), if_pos (by simp only [atWord]; omega)]
    · have h1 : (atWord q2 stop br ast' ls).br.ifCount - (atWord q2 stop br ast' ls).br.blockIfCount =
          p.inner.countP Opened.isCond := hin.1
      have h2 : blockName (atWord q2 stop br ast' ls).ast = p.block.getD [] := by
        rw [hk]; exact ha.trans (hnm k hk)
      simp only [report, reportOf, message, wording, place, h1, h2]
      rfl
  | openForeach hb h1 h2 =>
    have hb' : br.blockOpen = true := hag.block.trans hb
    rw [if_pos hb'] at hin
    rw [any_false] at h1
    obtain ⟨k, hk⟩ := block_some hb
    have hf := hag.foreachIn.mpr h2
    have hf' : br.blockForeachOpen = false ∧ br.foreachOpen = true := by
      rcases hf with ⟨_, h⟩ | ⟨h, _⟩
      · exact h
      · rw [hb'] at h; cases h
    refine ⟨by decide, by decide, fun q1 q2 stop ast' ls ha => ⟨_, ?_, rfl, ?_⟩⟩
    · rw [statement, show keyword b!"endblock" = some .endblock from rfl]
      simp only [statementOf]
      rw [if_pos (by exact hb'), if_neg (by simp only [atWord]; omega), if_pos (by exact hf')]
    · have h2 : blockName (atWord q2 stop br ast' ls).ast = p.block.getD [] := by
        rw [hk]; exact ha.trans (hnm k hk)
      simp only [report, reportOf, message, wording, place, h2]
      rfl
  | else_ h =>
    refine ⟨by decide, by decide, fun q1 q2 stop ast' ls _ => ⟨_, ?_, rfl, report_plain rfl p _ _⟩⟩
    rw [statement, show keyword b!"else" = some .else_ from rfl]
    simp only [statementOf]
    rw [if_neg (by exact noIf h)]
  | secondElse h1 h2 =>
    refine ⟨by decide, by decide, fun q1 q2 stop ast' ls _ => ⟨_, ?_, rfl, report_plain rfl p _ _⟩⟩
    rw [statement, show keyword b!"else" = some .else_ from rfl]
    simp only [statementOf]
    rw [if_pos (by exact hag.ifOpen.mpr h1), if_neg (by simp [atWord, hag.else_, h2])]
  | endif h =>
    refine ⟨by decide, by decide, fun q1 q2 stop ast' ls _ => ⟨_, ?_, rfl, report_plain rfl p _ _⟩⟩
    rw [statement, show keyword b!"endif" = some .endif from rfl]
    simp only [statementOf]
    rw [if_neg (by exact noIf h)]
  | nestedForeach h =>
    refine ⟨by decide, by decide, fun q1 q2 stop ast' ls _ => ⟨_, ?_, rfl, report_plain rfl p _ _⟩⟩
    rw [statement, show keyword b!"foreach" = some .foreach from rfl]
    simp only [statementOf]
    rw [if_neg (by simp only [atWord, hag.loops, h]; decide)]
  | endforeach h =>
    refine ⟨by decide, by decide, fun q1 q2 stop ast' ls _ => ⟨_, ?_, rfl, report_plain rfl p _ _⟩⟩
    rw [statement, show keyword b!"endforeach" = some .endforeach from rfl]
    simp only [statementOf]
    rw [if_neg (by
      intro h'
      have := hag.foreachIn.mp h'
      rw [h] at this; cases this)]

theorem kindWord_facts {w : Str} (h : KindWord w) : w ≠ [] ∧ (∀ c ∈ w, isLower c = true ∨ c = c!"_") ∧
    ∀ c r, w = c :: r → isLower c = true := by
  obtain ⟨⟨c, r, rfl, hc⟩, h2⟩ := h
  refine ⟨by simp, fun x hx => (h2 x hx).imp lower_iff.mp id, fun c' r' e => ?_⟩
  injection e with e1 _; subst e1; exact lower_iff.mp hc

/-- A mistake is reported. -/
theorem fails {bad : Str} {n : Nat} {e : Err} (hm : Mistake p bad n e) (h : src.drop q = s ++ bad ++ rest) (hn : NulFree s)
    (hag : Agrees p br) (hnm : Named p ast) :
    runAt src (q + s.length) (between q stop br ast ls) = .ok (.error (reportOf p (q + s.length + n) e)) := by
  cases hm with
  | cleanerBefore ha hl =>
    rename_i l a
    refine fail_at h (to_opening (rest := b!"-" ++ rest) (by rw [h]; simp) hn ha) ?_ rfl
    have hst : ¬ (l = false ∧ a = []) := by
      rcases hl with rfl | hl
      · simp
      · exact fun h => hl h.2
    rw [if_neg hst]
    simp only [step, blockStart]
    rw [if_neg (by decide), if_neg (by decide), if_pos trivial]
  | start ha hc1 hc2 hc3 =>
    rename_i l a c
    refine fail_at h (to_opening (rest := [c] ++ rest) (by rw [h]; simp) hn ha) ?_ rfl
    split <;> simp only [step, blockStartCleaner, blockStart]
    · rw [if_neg hc3, if_neg (by simp [not_space hc1]), if_neg (by simp [not_lower hc2]), if_neg hc3]
    · rw [if_neg (by simp [not_space hc1]), if_neg (by simp [not_lower hc2]), if_neg hc3]
  | type ha hw hc1 hc2 =>
    rename_i l a w c
    refine fail_at h (to_word (rest := [c] ++ rest) (by rw [h]; simp) hn ha hw.1 (word_lower hw)) ?_ rfl
    simp only [step, atWord, blockType]
    rw [if_neg (by simp [not_lower hc1]), if_neg (by simp [not_space hc2])]
  | unknown ha hw hk hc =>
    refine word_fails h hn ha hw.1 (word_lower hw) (space_iff.mp hc) fun q1 q2 stop ast' ls _ =>
      ⟨_, ?_, rfl, report_plain rfl p _ _⟩
    rw [statement, keyword_none hk]
  | misplaced ha hw hc =>
    obtain ⟨h1, h2, h3⟩ := misplaced_fails hw hag hnm
    exact word_fails h hn ha h1 h2 (space_iff.mp hc) h3
  | blockStart ha hb hg hc1 hc2 =>
    rename_i l a g c
    obtain ⟨st, e1, e2, _⟩ := to_block (l := l) (a := a) (g := g) (stop := stop) (br := br) (ast := ast) (ls := ls)
      (rest := [c] ++ rest) (by rw [h]; simp) hn ha hg (hag.block.trans hb)
    refine fail_at h e1 ?_ rfl
    simp only [step, e2, blockBlockTypeStart]
    rw [if_neg (by simp [not_space hc1]), if_neg (by simp [not_lower hc2])]
  | blockByte ha hb hg hw hc1 hc2 hc3 =>
    rename_i l a g w c
    obtain ⟨st, e1, e2, _⟩ := to_block (l := l) (a := a) (g := g) (stop := stop) (br := br) (ast := ast) (ls := ls)
      (rest := w ++ ([c] ++ rest)) (by rw [h]; simp) hn ha hg (hag.block.trans hb)
    obtain ⟨h1, h2, h3⟩ := kindWord_facts hw
    have e3 := e1.trans (kind_read e2 (at2 (by rw [h]; simp)) h1 h2 h3 (rest := [c] ++ rest))
    rw [show q + s.length + (opening l a ++ b!"block" ++ g).length + w.length =
      q + s.length + (opening l a ++ b!"block" ++ g ++ w).length by simp; omega] at e3
    refine fail_at h e3 ?_ rfl
    simp only [step, blockBlockType]
    rw [if_neg (by simp [not_lower hc2, hc3]), if_neg (by simp [not_space hc1])]
  | blockKind ha hb hg hw hk hc =>
    rename_i l a g w c
    obtain ⟨st, e1, e2, _⟩ := to_block (l := l) (a := a) (g := g) (stop := stop) (br := br) (ast := ast) (ls := ls)
      (rest := w ++ ([c] ++ rest)) (by rw [h]; simp) hn ha hg (hag.block.trans hb)
    obtain ⟨h1, h2, h3⟩ := kindWord_facts hw
    have h4 : src.drop (q + s.length + (opening l a ++ b!"block" ++ g).length) = w ++ ([c] ++ rest) :=
      at2 (by rw [h]; simp)
    have e3 := e1.trans (kind_read e2 h4 h1 h2 h3)
    have e4 := space_iff.mp hc
    have hl : q + s.length + (opening l a ++ b!"block" ++ g).length + w.length =
      q + s.length + (opening l a ++ b!"block" ++ g ++ w).length := by simp; omega
    rw [hl] at e3
    refine fail_at h e3 ?_ rfl
    simp only [step, blockBlockType]
    rw [if_neg (by simp [space_not_lower e4, space_not_under e4]), if_pos e4, ← hl, dup_at h4 h1 (lower_nulFree h2)]
    simp only [Res.bind, blockOf]
    rw [if_neg (by exact hk)]
  | condStart ha hk hg hc1 hc2 =>
    rename_i l a kw g c
    obtain ⟨st, e1, e2, _⟩ := to_cond (l := l) (a := a) (w := kw) (g := g) (stop := stop) (br := br) (ast := ast) (ls := ls)
      (rest := [c] ++ rest) (by rw [h]; simp) hn ha hg hk
    refine fail_at h e1 ?_ rfl
    simp only [step, e2, ifStart]
    rw [if_neg (by simp [not_space hc1]), if_neg (by simp [not_upper hc2])]
  | condName ha hk hg hnn hc1 hc2 =>
    rename_i l a kw g n c
    obtain ⟨st, e1, e2, _⟩ := to_cond (l := l) (a := a) (w := kw) (g := g) (stop := stop) (br := br) (ast := ast) (ls := ls)
      (rest := n ++ ([c] ++ rest)) (by rw [h]; simp) hn ha hg hk
    have e3 := e1.trans (name_read (rest := [c] ++ rest) (at2 (by rw [h]; simp)) hnn e2 (Or.inl ⟨rfl, rfl⟩))
    rw [show q + s.length + (opening l a ++ kw ++ g).length + n.length =
      q + s.length + (opening l a ++ kw ++ g ++ n).length by simp; omega] at e3
    refine fail_at h e3 ?_ rfl
    simp only [step, ifVariable]
    rw [if_neg (by simp [not_inName hc2]), if_neg (by simp [not_space hc1])]
  | operand ha hg hnn hb hop hsp hd hc1 hc2 hc3 =>
    rename_i l a g n b op d c
    obtain ⟨st, e1, e2, _⟩ := to_operand (l := l) (a := a) (g := g) (n := n) (b := b) (op := op) (d := d) (stop := stop)
      (br := br) (ast := ast) (ls := ls) (rest := [c] ++ rest) (by rw [h]; simp) hn ha hg hnn hb hop hsp hd
    refine fail_at h e1 ?_ rfl
    simp only [step, e2, ifOperandStart]
    rw [if_neg (by simp [not_space hc1]), if_neg (by simp [not_upper hc2]), if_neg hc3]
  | operator ha hg hnn hb hop hsp hno hd hr =>
    rename_i l a g n b op d rhs d' r
    obtain ⟨st, e1, e2, e3, e4⟩ := to_operand (l := l) (a := a) (g := g) (n := n) (b := b) (op := op) (d := d) (stop := stop)
      (br := br) (ast := ast) (ls := ls) (rest := rhs.data ++ d' ++ (dash r ++ b!"%}" ++ rest)) (by rw [h]; simp)
      hn ha hg hnn hb hop hsp hd
    have h1 : src.drop (q + s.length + (opening l a ++ b!"if" ++ g ++ n ++ b ++ op ++ d).length) =
        rhs.data ++ d' ++ (dash r ++ b!"%}" ++ rest) := at2 (by rw [h]; simp)
    have h0 : src.drop st.opStart = op ++ (d ++ rhs.data ++ d' ++ (dash r ++ b!"%}" ++ rest)) := by
      rw [e3]; exact at2 (by rw [h]; simp)
    have e5 := e1.trans (operand_word e2 h1 hr)
    have h2 : src.drop (q + s.length + (opening l a ++ b!"if" ++ g ++ n ++ b ++ op ++ d).length + rhs.data.length + d'.length) =
        dash r ++ b!"%}" ++ rest := by
      have := at_drop h1
      simpa [Nat.add_assoc] using this
    generalize q + s.length + (opening l a ++ b!"if" ++ g ++ n ++ b ++ op ++ d).length = m at *
    generalize m + rhs.data.length + d'.length = m' at *
    -- the closing brackets
    have e6 : ∃ m2 st2, runAt src (q + s.length) (between q stop br ast ls) = runAt src m2 st2 ∧
        src.drop m2 = c!"}" :: rest ∧ st2.state = .closeBracket ∧ st2.opStart = st.opStart ∧ st2.opEnd = st.opEnd := by
      cases r with
      | false =>
        have h3 : src.drop m' = c!"%" :: c!"}" :: rest := by rw [h2]; simp [dash]
        refine ⟨_, _, e5.trans (runAt_step h3 (st' := { st with
            state := .closeBracket, start2 := m, end2 := m + rhs.data.length }) ?_), at_drop1 h3, rfl, rfl, rfl⟩
        simp only [step, blockEndCleaner, blockEnd]
        rw [if_neg (by decide), if_neg (by decide), if_pos trivial]
      | true =>
        have h3 : src.drop m' = c!"-" :: c!"%" :: c!"}" :: rest := by rw [h2]; simp [dash]
        refine ⟨_, _, e5.trans ((runAt_step h3 (st' := { st with
            state := .blockEnd, start2 := m, end2 := m + rhs.data.length, lstripNext := true }) ?_).trans
          (runAt_step (at_drop1 h3) (st' := { st with
            state := .closeBracket, start2 := m, end2 := m + rhs.data.length, lstripNext := true }) ?_)),
          at_drop1 (at_drop1 h3), rfl, rfl, rfl⟩
        · simp only [step, blockEndCleaner]
          rw [if_neg (by decide), if_pos trivial]
        · simp only [step, blockEnd]
          rw [if_pos trivial]
    obtain ⟨m2, st2, e7, h4, g1, g2, g3⟩ := e6
    have hpos : 0 < op.length := List.length_pos_iff.mpr hop
    rw [e7, runAt_fail (e := .operator) h4]
    · simp only [report, reportOf, message, wording, place, g2, e3]
      rfl
    · simp only [step, g1, closeBracket, if_true]
      rw [g2, g3, e4, if_pos (by omega), if_pos (at_le h0 hop), at_slice h0, operator_none hno, if_pos rfl]
  | foreachStart ha hb hg hc1 hc2 =>
    rename_i l a g c
    obtain ⟨st, e1, e2, _⟩ := to_foreach (l := l) (a := a) (g := g) (stop := stop) (br := br) (ast := ast) (ls := ls)
      (rest := [c] ++ rest) (by rw [h]; simp) hn ha hg (hag.loops.trans hb)
    refine fail_at h e1 ?_ rfl
    simp only [step, e2, foreachStart]
    rw [if_neg (by simp [not_space hc1]), if_neg (by simp [not_upper hc2])]
  | foreachName ha hb hg hnn hc1 hc2 =>
    rename_i l a g n c
    obtain ⟨st, e1, e2, _⟩ := to_foreach (l := l) (a := a) (g := g) (stop := stop) (br := br) (ast := ast) (ls := ls)
      (rest := n ++ ([c] ++ rest)) (by rw [h]; simp) hn ha hg (hag.loops.trans hb)
    have e3 := e1.trans (name_read (rest := [c] ++ rest) (at2 (by rw [h]; simp)) hnn e2 (Or.inr ⟨rfl, rfl⟩))
    rw [show q + s.length + (opening l a ++ b!"foreach" ++ g).length + n.length =
      q + s.length + (opening l a ++ b!"foreach" ++ g ++ n).length by simp; omega] at e3
    refine fail_at h e3 ?_ rfl
    simp only [step, foreachVariable]
    rw [if_neg (by simp [not_inName hc2]), if_neg (by simp [not_space hc1])]
  | cleanerAfter ha ht hf =>
    rename_i l a t p'
    have h' : src.drop q = s ++ (opening l a ++ t.print ++ b!"-" ++ [c!"-"]) ++ rest := by rw [h]; simp
    obtain ⟨st, e1, e2⟩ := to_dash (l := l) (a := a) (t := t) (r := true) (stop := stop) (ast := ast) (ls := ls)
      (rest := b!"-" ++ rest) (by rw [h']; simp [dash]) hn ha ht hag hf
    refine fail_at (u := opening l a ++ t.print ++ b!"-") h' e1 ?_ rfl
    simp only [step, e2, if_true, blockEnd]
    rw [if_neg (by decide)]
  | stmtEnd ha ht hf hr hc1 hc2 =>
    rename_i l a t p' r c
    obtain ⟨st, e1, e2⟩ := to_dash (l := l) (a := a) (t := t) (r := r) (stop := stop) (ast := ast) (ls := ls)
      (rest := [c] ++ rest) (by rw [h]; simp) hn ha ht hag hf
    refine fail_at h e1 ?_ rfl
    cases r with
    | true =>
      simp only [step, e2, if_true, blockEnd]
      rw [if_neg hc1, if_neg hc2]
    | false =>
      simp only [step, e2, Bool.false_eq_true, if_false, blockEndCleaner, blockEnd]
      rw [if_neg (by simp [not_space (hr rfl)]), if_neg hc2, if_neg hc1, if_neg hc2]
  | stmtClose ha ht hf hc =>
    rename_i l a t p' r c
    obtain ⟨st, e1, e2⟩ := to_dash (l := l) (a := a) (t := t) (r := r) (stop := stop) (ast := ast) (ls := ls)
      (rest := b!"%" ++ ([c] ++ rest)) (by rw [h]; simp) hn ha ht hag hf
    have h1 : src.drop (q + s.length + (opening l a ++ t.print ++ dash r).length) = c!"%" :: c :: rest :=
      at2 (by rw [h]; simp)
    have e3 := e1.trans (runAt_step h1 (st' := { st with state := .closeBracket }) (by
      cases r with
      | true =>
        simp only [step, e2, if_true, blockEnd]
      | false =>
        simp only [step, e2, Bool.false_eq_true, if_false, blockEndCleaner, blockEnd]
        rw [if_neg (by decide), if_neg (by decide), if_pos trivial]))
    refine fail_at (u := opening l a ++ t.print ++ dash r ++ b!"%") (by rw [h])
      (e3.trans (congrArg (fun m => runAt src m _) (by simp; omega))) ?_ rfl
    simp only [step, closeBracket]
    rw [if_neg hc]
  | varStart ha hc1 hc2 =>
    rename_i a c
    obtain ⟨st, e1, e2⟩ := to_var (a := a) (stop := stop) (br := br) (ast := ast) (ls := ls)
      (rest := [c] ++ rest) (by rw [h]; simp) hn ha
    refine fail_at h e1 ?_ rfl
    simp only [step, e2, variableStart]
    rw [if_neg (by simp [not_space hc1]), if_neg (by simp [not_upper hc2])]
  | varName ha hnn hc1 hc2 hc3 =>
    rename_i a n c
    obtain ⟨st, e1, e2⟩ := to_varName (a := a) (n := n) (stop := stop) (br := br) (ast := ast) (ls := ls)
      (rest := [c] ++ rest) (by rw [h]; simp) hn ha hnn
    refine fail_at h e1 ?_ rfl
    simp only [step, e2, variable_]
    rw [if_neg (by simp [not_inName hc2]), if_neg (by simp [not_space hc1]), if_neg hc3]
  | varEnd ha hnn hb hc1 hc2 =>
    rename_i a n b c
    obtain ⟨st, e1, e2⟩ := to_varEnd (a := a) (n := n) (b := b) (stop := stop) (br := br) (ast := ast) (ls := ls)
      (rest := [c] ++ rest) (by rw [h]; simp) hn ha hnn hb
    refine fail_at h e1 ?_ rfl
    simp only [step, e2, variableEnd]
    rw [if_neg (by simp [not_space hc1]), if_neg hc2]
  | varClose ha hnn hb hc =>
    rename_i a n b c
    have h1 : src.drop (q + s.length + (b!"{{" ++ a ++ n ++ b).length) = c!"}" :: c :: rest := at2 (by rw [h]; simp)
    have e3 : ∃ st : St, runAt src (q + s.length) (between q stop br ast ls) =
        runAt src (q + s.length + (b!"{{" ++ a ++ n ++ b ++ b!"}").length) st ∧ st.state = .closeBracket := by
      rw [show q + s.length + (b!"{{" ++ a ++ n ++ b ++ b!"}").length = q + s.length + (b!"{{" ++ a ++ n ++ b).length + 1 by
        simp; omega]
      by_cases hbn : b = []
      · subst hbn
        obtain ⟨st, e1, e2⟩ := to_varName (a := a) (n := n) (stop := stop) (br := br) (ast := ast) (ls := ls)
          (rest := b!"}" ++ ([c] ++ rest)) (by rw [h]; simp) hn ha hnn
        rw [List.append_nil] at *
        refine ⟨_, e1.trans (runAt_step h1 (by
          simp only [step, e2, variable_]
          rw [if_neg (by decide), if_neg (by decide), if_pos trivial])), rfl⟩
      · obtain ⟨st, e1, e2⟩ := to_varEnd (a := a) (n := n) (b := b) (stop := stop) (br := br) (ast := ast) (ls := ls)
          (rest := b!"}" ++ ([c] ++ rest)) (by rw [h]; simp) hn ha hnn ⟨hb, hbn⟩
        refine ⟨_, e1.trans (runAt_step h1 (by
          simp only [step, e2, variableEnd]
          rw [if_neg (by decide), if_pos trivial])), rfl⟩
    obtain ⟨st, e1, e2⟩ := e3
    refine fail_at h e1 ?_ rfl
    simp only [step, e2, closeBracket]
    rw [if_neg hc]

end

end Blogc.Template
