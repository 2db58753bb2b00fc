import Verif.Lemmas.TemplateScan

/-!
# Reading statements and variable references
-/

namespace Blogc.Template

open Blogc Blogc.Doc Blogc.Tokens

/-- What a whole statement does to the counters. -/
def brNext (br : Br) : NodeType → Option Br
  | .block =>
    if br.blockOpen = false then
      some { br with blockIfCount := br.ifCount, blockForeachOpen := br.foreachOpen, blockOpen := true }
    else none
  | .endblock =>
    if br.blockOpen = true ∧ br.ifCount = br.blockIfCount ∧ ¬ (br.blockForeachOpen = false ∧ br.foreachOpen = true)
    then some { br with blockOpen := false } else none
  | .ifdef | .ifndef | .if_ => some { br with ifCount := br.ifCount + 1, elseOpen := false }
  | .else_ => if br.ifOpen ∧ br.elseOpen = false then some { br with elseOpen := true } else none
  | .endif => if br.ifOpen then some { br with ifCount := br.ifCount - 1, elseOpen := false } else none
  | .foreach => if br.foreachOpen = false then some { br with foreachOpen := true } else none
  | .endforeach => if br.foreachIn then some { br with foreachOpen := false } else none
  | .variable | .content => some br

section
variable {src rest : Str} {p stop : Nat} {br br' : Br} {ast : List Node} {ls : Bool} {s : Str}

/-- The text before an item becomes a node when the item begins. -/
theorem open_item {k : Byte} {next : State} (hk : (k = c!"%" ∧ next = .blockStartCleaner) ∨
      (k = c!"{" ∧ next = .variableStart))
    (h : src.drop p = s ++ c!"{" :: k :: rest) (hn : NulFree s) :
    runAt src (p + s.length) (between p stop br ast ls) =
      runAt src (p + s.length + 2)
        { between p (p + s.length) br (flush s ls ast) (flushed s ls) with state := next } := by
  have hd : src.drop (p + s.length) = c!"{" :: k :: rest := at_drop h
  have hd1 : src.drop (p + s.length + 1) = k :: rest := at_drop1 hd
  have hlast : (p + s.length + 1 == src.length) = false := by
    have := congrArg List.length hd
    simp at this
    rw [beq_eq_false_iff_ne]; omega
  have h1 : step src (p + s.length) (between p stop br ast ls) c!"{" =
      go { between p (p + s.length) br ast ls with state := .openBracket } := by
    simp only [step, between, start, hlast, addContentIf]
    simp only [Bool.false_eq_true, if_false, Res.bind, startNext, if_true]
  rw [runAt_step hd h1]
  refine runAt_step hd1 ?_
  have hadd : ∀ (b : Bool) (st : St), (b = true ↔ s ≠ []) → st.start = p → st.type = .content → st.ast = ast →
      st.lstripNext = ls → (addContentIf b src st (p + s.length)).bind go =
        go { st with ast := flush s ls ast, lstripNext := flushed s ls } := by
    intro b st e0 e1 e2 e3 e4
    cases s with
    | nil =>
      have : b = false := by simpa using e0
      subst this
      simp only [addContentIf, flush, flushed, ← e3, ← e4, if_true, Bool.false_eq_true, if_false, Res.bind]
    | cons b' s =>
      have : b = true := e0.mpr (by simp)
      rw [this, addContentIf, if_pos rfl, addContent, e1, dup_at h (by simp) hn]
      simp only [Res.bind, flush, flushed]
      rw [if_neg (List.cons_ne_nil b' s), if_neg (List.cons_ne_nil b' s), e2, e3, e4]
  have hlen : decide (p < p + s.length) = true ↔ s ≠ [] := by
    rw [decide_eq_true_iff, ← List.length_pos_iff]; omega
  simp only [step, between, openBracket]
  rcases hk with ⟨rfl, rfl⟩ | ⟨rfl, rfl⟩
  · rw [if_pos rfl]
    exact hadd _ _ hlen rfl rfl rfl rfl
  · rw [if_neg (by decide), if_pos rfl]
    exact hadd _ _ hlen rfl rfl rfl rfl

end

/-- White space is skipped between words. -/
theorem space_stays {src : Str} {st : St} {c : Byte} (hc : isSpace c = true)
    (hs : st.state = .blockStart ∨ st.state = .blockBlockTypeStart ∨ st.state = .ifStart ∨
      st.state = .ifOperatorStart ∨ st.state = .ifOperandStart ∨ st.state = .foreachStart ∨
      st.state = .blockEndCleaner ∨ st.state = .variableStart ∨ st.state = .variableEnd) (n : Nat) :
    step src n st c = go st := by
  rcases hs with h | h | h | h | h | h | h | h | h <;>
    simp only [step, h, blockStart, blockBlockTypeStart, ifStart, ifOperatorStart, ifOperandStart, foreachStart,
      blockEndCleaner, variableStart, variableEnd] <;> rw [if_pos hc]

/-- From the opening bracket to the end of the keyword. -/
theorem lead {src a kw rest : Str} {q : Nat} {l : Bool} {st : St} (hst : st.state = .blockStartCleaner)
    (h : src.drop q = dash l ++ a ++ kw ++ rest) (ha : Blank a) (hkw : kw ≠ [])
    (hlow : ∀ c ∈ kw, isLower c = true) :
    runAt src q st = runAt src (q + (dash l ++ a).length + kw.length)
      { st with
        state := .blockType, start := q + (dash l ++ a).length
        ast := if l then trimPrevious st.ast else st.ast } := by
  have hkwd : src.drop (q + (dash l ++ a).length) = kw ++ rest := at_drop (by rw [h]; simp)
  -- the keyword, from either state
  have key : ∀ st0 : St, (st0.state = .blockStart ∨ st0.state = .blockStartCleaner) →
      runAt src (q + (dash l ++ a).length) st0 = runAt src (q + (dash l ++ a).length + kw.length)
        { st0 with state := .blockType, start := q + (dash l ++ a).length } := by
    intro st0 h0
    refine runAt_enter hkwd hkw (fun c r e => ?_) (fun c r e d hd n => ?_)
    · have hc := hlow c (by rw [e]; simp)
      rcases h0 with h0 | h0
      · simp only [step, h0, blockStart]
        rw [if_neg (by simp [lower_not_space hc]), if_pos hc]
      · simp only [step, h0, blockStartCleaner, blockStart]
        rw [if_neg (lower_not_dash hc), if_neg (by simp [lower_not_space hc]), if_pos hc]
    · have hd := hlow d (by rw [e]; simp [hd])
      simp only [step, blockType]
      rw [if_pos hd]
  cases l with
  | true =>
    have hd : src.drop q = c!"-" :: (a ++ (kw ++ rest)) := by rw [h]; simp [dash]
    have h1 : step src q st c!"-" = go { st with ast := trimPrevious st.ast, state := .blockStart } := by
      simp only [step, hst, blockStartCleaner, if_true]
    rw [runAt_step hd h1, runAt_stay (at_drop1 hd) fun c hc n => space_stays (ha c hc) (Or.inl rfl) n]
    rw [show q + 1 + a.length = q + (dash true ++ a).length by simp [dash]; omega]
    rw [key _ (Or.inl rfl)]
    rfl
  | false =>
    cases a with
    | nil =>
      have hk := key st (Or.inr hst)
      simp only [dash, Bool.false_eq_true, if_false, List.append_nil, List.length_nil, Nat.add_zero] at hk ⊢
      exact hk
    | cons c a =>
      have hd : src.drop q = (c :: a) ++ (kw ++ rest) := by rw [h]; simp [dash]
      have hcs : isSpace c = true := ha c (by simp)
      have h2 : runAt src q st = runAt src (q + (c :: a).length) { st with state := .blockStart } := by
        refine runAt_enter hd (by simp) (fun c' r e => ?_) (fun c' r e d hd n => ?_)
        · injection e with e1 e2
          subst e1
          simp only [step, hst, blockStartCleaner, blockStart]
          rw [if_neg (space_not_dash hcs), if_pos hcs]
        · injection e with e1 e2
          subst e2
          exact space_stays (ha d (by simp [hd])) (Or.inl rfl) n
      rw [h2, show q + (c :: a).length = q + (dash false ++ c :: a).length by simp [dash], key _ (Or.inl rfl)]
      rfl

/-- The state before the end of a statement holds what the node will contain. -/
structure Carries (src : Str) (br : Br) (ast : List Node) (ls : Bool) (E : St) (n : Node) : Prop where
  type : E.type = n.type
  br : E.br = br
  ast : E.ast = ast
  ls : E.lstripNext = ls
  data0 : dupIf src E.start E.stop = .ok n.data0
  data1 : dupIf src E.start2 E.end2 = .ok n.data1
  args : E.start2 < E.end2 ∨ (E.start2 = 0 ∧ E.end2 = 0)
  op : (n.op = .none ∧ E.opStart = 0 ∧ E.opEnd = 0) ∨
    (n.op ≠ .none ∧ E.opStart < E.opEnd ∧ E.opEnd ≤ src.length ∧ operator (slice src E.opStart E.opEnd) = n.op)

theorem between_ext {E : St} {n : Node} {src : Str} {br : Br} {ast : List Node} {ls : Bool} {q : Nat} {b : Bool}
    (h : Carries src br ast ls E n) (hs : E.state = .closeBracket) (ls' : Bool) (hl : ls' = (ls || b)) :
    step src q { E with lstripNext := ls' } c!"}" = go (between (q + 1) E.stop br (n :: ast) (ls || b)) := by
  obtain ⟨a1, a2, a3, a4, a5, a6, a7, a8⟩ := h
  have hn : ∀ op, op = n.op → ({ type := E.type, op := op, data0 := n.data0, data1 := n.data1 } : Node) = n := by
    rintro op rfl; rw [a1]
  have hz : (if E.end2 > E.start2 then 0 else E.start2) = 0 ∧ (if E.end2 > E.start2 then 0 else E.end2) = 0 := by
    rcases a7 with h | ⟨h1, h2⟩
    · exact ⟨if_pos h, if_pos h⟩
    · rw [h1, h2]; exact ⟨rfl, rfl⟩
  simp only [step, hs, closeBracket, if_true]
  rcases a8 with ⟨h1, h2, h3⟩ | ⟨h1, h2, h3, h4⟩
  · rw [if_neg (by omega), addNode]
    simp only [a5, a6, Res.bind, hz.1, hz.2, h2, h3, a2, a3, hn _ h1.symm, hl]
    rfl
  · rw [if_pos h2, if_pos h3, h4, if_neg h1, addNode]
    simp only [a5, a6, Res.bind, hz.1, hz.2, a2, a3, hn _ rfl, hl]
    rfl

/-- The end of a statement. -/
theorem close_stmt {src rest : Str} {q : Nat} {r : Bool} {E : St} {n : Node} {br : Br} {ast : List Node} {ls : Bool}
    (hE : E.state = .blockEndCleaner) (h : Carries src br ast ls E n)
    (hd : src.drop q = dash r ++ b!"%}" ++ rest) :
    runAt src q E = runAt src (q + (dash r ++ b!"%}").length)
      (between (q + (dash r ++ b!"%}").length) E.stop br (n :: ast) (ls || r)) := by
  have key : ∀ m (st : St), src.drop m = c!"%" :: c!"}" :: rest → st = { E with lstripNext := ls || r, state := .closeBracket } →
      runAt src (m + 1) st = runAt src (m + 2) (between (m + 2) E.stop br (n :: ast) (ls || r)) := by
    rintro m st hm rfl
    refine runAt_step (at_drop1 hm) ?_
    obtain ⟨a1, a2, a3, a4, a5, a6, a7, a8⟩ := h
    exact between_ext (E := { E with state := .closeBracket }) (src := src) (br := br) (ast := ast) (ls := ls)
      (by exact ⟨a1, a2, a3, a4, a5, a6, a7, a8⟩) rfl (ls || r) rfl
  cases r with
  | false =>
    have hd' : src.drop q = c!"%" :: c!"}" :: rest := by rw [hd]; simp [dash]
    have h1 : step src q E c!"%" = go { E with lstripNext := ls || false, state := .closeBracket } := by
      simp only [step, hE, blockEndCleaner, blockEnd]
      rw [if_neg (by decide), if_neg (by decide), if_pos trivial, Bool.or_false, ← h.ls]
    rw [runAt_step hd' h1, key q _ hd' rfl]
    rfl
  | true =>
    have hd' : src.drop q = c!"-" :: c!"%" :: c!"}" :: rest := by rw [hd]; simp [dash]
    have h0 : step src q E c!"-" = go { E with lstripNext := true, state := .blockEnd } := by
      simp only [step, hE, blockEndCleaner]
      rw [if_neg (by decide), if_pos trivial]
    have hd1 := at_drop1 hd'
    have h1 : step src (q + 1) { E with lstripNext := true, state := .blockEnd } c!"%" =
        go { E with lstripNext := ls || true, state := .closeBracket } := by
      simp only [step, blockEnd]
      rw [if_pos trivial, Bool.or_true]
    rw [runAt_step hd' h0, runAt_step hd1 h1, key (q + 1) _ hd1 rfl]
    rfl

theorem stale {src : Str} {a b : Nat} (h : b ≤ a) : dupIf src a b = .ok none := by
  rw [dupIf, if_neg (by omega)]

theorem dupIf_at {src w rest : Str} {cur : Nat} (h : src.drop cur = w ++ rest) (hw : w ≠ []) (hn : NulFree w) :
    dupIf src cur (cur + w.length) = .ok (some w) := by
  have : 0 < w.length := List.length_pos_iff.mpr hw
  rw [dupIf, if_pos (by omega), dup_at h hw hn]
  rfl

/-- The state after the keyword. -/
def atWord (q stop : Nat) (br : Br) (ast : List Node) (ls : Bool) : St :=
  { start := q, stop := stop, br := br, ast := ast, lstripNext := ls, state := .blockType }

/-- The keyword and the white space after it. -/
theorem word {src kw g rest : Str} {q stop : Nat} {br : Br} {ast : List Node} {ls : Bool} {st1 : St} {k : NodeType}
    (h : src.drop q = kw ++ g ++ rest) (hkw : keyword kw = some k) (hne : kw ≠ []) (hn : NulFree kw) (hg : Gap g)
    (hs : statementOf (q + kw.length) (atWord q stop br ast ls) k = go st1)
    (hs1 : st1.state = .blockBlockTypeStart ∨ st1.state = .ifStart ∨ st1.state = .foreachStart ∨
      st1.state = .blockEndCleaner) :
    runAt src (q + kw.length) (atWord q stop br ast ls) = runAt src (q + kw.length + g.length) st1 := by
  have h' : src.drop q = kw ++ (g ++ rest) := by rw [h]; simp
  refine runAt_enter (at_drop h') hg.2 (fun c r e => ?_) (fun c r e d hd n => ?_)
  · have hc := (gap_head hg e).1
    simp only [step, atWord, blockType]
    rw [if_neg (by simp [space_not_lower hc]), if_pos hc, dup_at h' hne hn]
    simp only [Res.bind, statement, hkw]
    exact hs
  · have hd := (gap_head hg e).2 d hd
    refine space_stays hd ?_ n
    rcases hs1 with h | h | h | h <;> simp [h]

/-- A name after a keyword. -/
theorem name_read {src nm rest : Str} {q : Nat} {st : St} {s1 s2 : State}
    (h : src.drop q = nm ++ rest) (hnm : IsName nm) (hs : st.state = s1)
    (hk : (s1 = .ifStart ∧ s2 = .ifVariable) ∨ (s1 = .foreachStart ∧ s2 = .foreachVariable)) :
    runAt src q st = runAt src (q + nm.length) { st with start := q, state := s2 } := by
  refine runAt_enter h hnm.ne_nil (fun c r e => ?_) (fun c r e d hd n => ?_)
  · have hc := (name_head hnm e).1
    rcases hk with ⟨rfl, rfl⟩ | ⟨rfl, rfl⟩
    · simp only [step, hs, ifStart]
      rw [if_neg (by simp [upper_not_space hc]), if_pos hc]
    · simp only [step, hs, foreachStart]
      rw [if_neg (by simp [upper_not_space hc]), if_pos hc]
  · have hd := (name_head hnm e).2 d hd
    rcases hk with ⟨rfl, rfl⟩ | ⟨rfl, rfl⟩
    · simp only [step, ifVariable]; rw [if_pos hd]
    · simp only [step, foreachVariable]; rw [if_pos hd]

/-- A name after a keyword, and the white space after it. -/
theorem name_word {src nm g rest : Str} {q : Nat} {st : St} {s1 s2 : State}
    (h : src.drop q = nm ++ g ++ rest) (hnm : IsName nm) (hg : Gap g) (hs : st.state = s1)
    (hk : (s1 = .ifStart ∧ s2 = .ifVariable) ∨ (s1 = .foreachStart ∧ s2 = .foreachVariable)) :
    runAt src q st = runAt src (q + nm.length + g.length)
      { st with
        start := q, stop := q + nm.length
        state := if s1 = .ifStart ∧ st.type = .if_ then .ifOperatorStart else .blockEndCleaner } := by
  have h' : src.drop q = nm ++ (g ++ rest) := by rw [h]; simp
  have e1 := name_read h' hnm hs hk
  rw [e1]
  refine runAt_enter (at_drop h') hg.2 (fun c r e => ?_) (fun c r e d hd n => ?_)
  · have hc := (gap_head hg e).1
    rcases hk with ⟨rfl, rfl⟩ | ⟨rfl, rfl⟩
    · simp only [step, ifVariable]
      rw [if_neg (by simp [space_not_name hc]), if_pos hc]
      simp
    · simp only [step, foreachVariable]
      rw [if_neg (by simp [space_not_name hc]), if_pos hc]
      simp
  · have hd := (gap_head hg e).2 d hd
    refine space_stays hd ?_ n
    simp only
    split <;> simp

theorem block_kinds : ∀ k ∈ blockTypes, k ≠ [] ∧ (∀ c ∈ k, isLower c = true ∨ c = c!"_") ∧
    ∀ c r, k = c :: r → isLower c = true := by
  intro k hk
  simp only [blockTypes, List.mem_cons, List.not_mem_nil, or_false] at hk
  rcases hk with rfl | rfl | rfl | rfl | rfl <;> refine ⟨by decide, by decide, ?_⟩ <;>
    (intro c r e; injection e with e1 _; subst e1; decide)

theorem operator_words : ∀ op ∈ operators, op ≠ [] ∧ (∀ c ∈ op, isSpace c = false) ∧ operator op ≠ .none := by
  intro k hk
  simp only [operators, List.mem_cons, List.not_mem_nil, or_false] at hk
  rcases hk with rfl | rfl | rfl | rfl | rfl | rfl <;> refine ⟨by decide, by decide, by decide⟩

/-- The bytes of a quoted text. -/
theorem quoted_stays {src s rest : Str} {q : Nat} {st : St} (hst : st.state = .ifStringOperand)
    (h : src.drop q = c!"\"" :: (s ++ rest))
    (hq : ∀ a b, s = a ++ c!"\"" :: b → a.getLast? = some c!"\\") :
    runAt src (q + 1) st = runAt src (q + 1 + s.length) st := by
  have key : ∀ a b, s = a ++ b → runAt src (q + 1 + a.length) st = runAt src (q + 1 + s.length) st := by
    intro a b e
    induction b generalizing a with
    | nil => rw [e]; simp
    | cons c b ih =>
      have hd : src.drop (q + 1 + a.length) = c :: (b ++ rest) :=
        at_drop (u := a) (by rw [at_drop1 h, e]; simp)
      have hs : step src (q + 1 + a.length) st c = go st := by
        simp only [step, hst, ifStringOperand]
        by_cases hc : c = c!"\""
        · subst hc
          have hl := hq a b e
          obtain ⟨a', rfl⟩ : ∃ a', a = a' ++ [c!"\\"] := by
            rcases List.eq_nil_or_concat a with rfl | ⟨p, d, rfl⟩
            · cases hl
            · rw [List.concat_eq_append] at *
              simp at hl; subst hl; exact ⟨p, rfl⟩
          have hg : src[q + 1 + (a' ++ [c!"\\"]).length - 1]? = some c!"\\" := by
            have h2 : src.drop (q + 1 + a'.length) = c!"\\" :: (c!"\"" :: (b ++ rest)) :=
              at_drop (u := a') (by rw [at_drop1 h, e]; simp)
            have h3 : (src.drop (q + 1 + a'.length))[0]? = some c!"\\" := by rw [h2]; rfl
            rw [List.getElem?_drop] at h3
            rw [show q + 1 + (a' ++ [c!"\\"]).length - 1 = q + 1 + a'.length + 0 by simp]
            exact h3
          rw [if_neg (by simp), if_neg (by omega), if_pos hg]
        · rw [if_pos hc]
      rw [runAt_step hd hs, ← ih (a ++ [c]) (by rw [e]; simp)]
      simp [Nat.add_assoc]
  exact key [] s rfl

/-- The closing quote. -/
theorem quoted_close {src s rest : Str} {q : Nat} {st : St} (hst : st.state = .ifStringOperand)
    (h : src.drop q = c!"\"" :: (s ++ c!"\"" :: rest)) (hs : s.getLast? ≠ some c!"\\") :
    runAt src (q + 1 + s.length) st =
      runAt src (q + 1 + s.length + 1) { st with state := .blockEndCleaner, end2 := q + 1 + s.length + 1 } := by
  have hd : src.drop (q + 1 + s.length) = c!"\"" :: rest := at_drop (at_drop1 h)
  refine runAt_step hd ?_
  have hg : src[q + 1 + s.length - 1]? ≠ some c!"\\" := by
    rcases List.eq_nil_or_concat s with rfl | ⟨p, d, rfl⟩
    · have h3 : (src.drop q)[0]? = some c!"\"" := by rw [h]; rfl
      rw [List.getElem?_drop] at h3
      simp only [List.length_nil, Nat.add_zero, Nat.add_sub_cancel] at h3 ⊢
      rw [h3]; decide
    · rw [List.concat_eq_append] at *
      have h2 : src.drop (q + 1 + p.length) = d :: (c!"\"" :: rest) :=
        at_drop (u := p) (by rw [at_drop1 h]; simp)
      have h3 : (src.drop (q + 1 + p.length))[0]? = some d := by rw [h2]; rfl
      rw [List.getElem?_drop] at h3
      rw [show q + 1 + (p ++ [d]).length - 1 = q + 1 + p.length + 0 by simp, h3]
      simpa using hs
  simp only [step, hst, ifStringOperand]
  rw [if_neg (by simp), if_neg (by omega), if_neg hg]

/-- The operand of a comparison and the white space after it. -/
theorem operand_word {src d rest : Str} {rhs : Operand} {q : Nat} {st : St} (hst : st.state = .ifOperandStart)
    (h : src.drop q = rhs.data ++ d ++ rest) (hok : OperandOk rhs d) :
    runAt src q st = runAt src (q + rhs.data.length + d.length)
      { st with state := .blockEndCleaner, start2 := q, end2 := q + rhs.data.length } := by
  have h' : src.drop q = rhs.data ++ (d ++ rest) := by rw [h]; simp
  cases rhs with
  | text s =>
    obtain ⟨⟨hn, hq, hl⟩, hd⟩ := hok
    have h0 : src.drop q = c!"\"" :: (s ++ c!"\"" :: (d ++ rest)) := by rw [h]; simp [Operand.data]
    have hs : step src q st c!"\"" = go { st with state := .ifStringOperand, start2 := q } := by
      simp only [step, hst, ifOperandStart]
      rw [if_neg (by decide), if_neg (by decide), if_pos trivial]
    rw [runAt_step h0 hs, quoted_stays rfl h0 hq, quoted_close rfl h0 hl]
    have hlen : q + (Operand.text s).data.length = q + 1 + s.length + 1 := by
      simp [Operand.data]; omega
    rw [hlen]
    have hdd : src.drop (q + 1 + s.length + 1) = d ++ rest := by rw [← hlen]; exact at_drop h'
    rw [runAt_stay hdd fun c hc n => space_stays (hd c hc) (by simp) n]
  | var m =>
    obtain ⟨hm, hd⟩ := hok
    simp only [Operand.data] at h' ⊢
    have e1 : runAt src q st = runAt src (q + m.length) { st with state := .ifVariableOperand, start2 := q } := by
      refine runAt_enter h' hm.ne_nil (fun c r e => ?_) (fun c r e x hx n => ?_)
      · have hc := (name_head hm e).1
        simp only [step, hst, ifOperandStart]
        rw [if_neg (by simp [upper_not_space hc]), if_pos hc]
      · have hx := (name_head hm e).2 x hx
        simp only [step, ifVariableOperand]
        rw [if_pos hx]
    rw [e1]
    refine runAt_enter (at_drop h') hd.2 (fun c r e => ?_) (fun c r e x hx n => ?_)
    · have hc := (gap_head hd e).1
      simp only [step, ifVariableOperand]
      rw [if_neg (by simp [space_not_name hc])]
    · exact space_stays ((gap_head hd e).2 x hx) (by simp) n

/-- The operator of a comparison and the white space after it. -/
theorem operator_word {src op g rest : Str} {q : Nat} {st : St} (hst : st.state = .ifOperatorStart)
    (h : src.drop q = op ++ g ++ rest) (hne : op ≠ []) (hsp : ∀ c ∈ op, isSpace c = false) (hg : Gap g) :
    runAt src q st = runAt src (q + op.length + g.length)
      { st with state := .ifOperandStart, opStart := q, opEnd := q + op.length } := by
  have h' : src.drop q = op ++ (g ++ rest) := by rw [h]; simp
  have e1 : runAt src q st = runAt src (q + op.length) { st with state := .ifOperator, opStart := q } := by
    refine runAt_enter h' hne (fun c r e => ?_) (fun c r e x hx n => ?_)
    · have hc := hsp c (by rw [e]; simp)
      simp only [step, hst, ifOperatorStart]
      rw [if_neg (by simp [hc])]
    · have hc := hsp x (by rw [e]; simp [hx])
      simp only [step, ifOperator]
      rw [if_pos hc]
  rw [e1]
  refine runAt_enter (at_drop h') hg.2 (fun c r e => ?_) (fun c r e x hx n => ?_)
  · have hc := (gap_head hg e).1
    simp only [step, ifOperator]
    rw [if_neg (by simp [hc])]
  · exact space_stays ((gap_head hg e).2 x hx) (by simp) n

/-- A word like the kind of a block. -/
theorem kind_read {src k rest : Str} {q : Nat} {st : St} (hst : st.state = .blockBlockTypeStart)
    (h : src.drop q = k ++ rest) (hne : k ≠ []) (hlow : ∀ c ∈ k, isLower c = true ∨ c = c!"_")
    (hfirst : ∀ c r, k = c :: r → isLower c = true) :
    runAt src q st = runAt src (q + k.length) { st with state := .blockBlockType, start := q } := by
  refine runAt_enter h hne (fun c r e => ?_) (fun c r e x hx n => ?_)
  · have hc := hfirst c r e
    simp only [step, hst, blockBlockTypeStart]
    rw [if_neg (by simp [lower_not_space hc]), if_pos hc]
  · have hc := hlow x (by rw [e]; simp [hx])
    simp only [step, blockBlockType]
    rw [if_pos (by simpa using hc)]

/-- The kind of a block and the white space after it. -/
theorem kind_word {src k g rest : Str} {q : Nat} {st : St} (hst : st.state = .blockBlockTypeStart)
    (h : src.drop q = k ++ g ++ rest) (hk : k ∈ blockTypes) (hg : Gap g) :
    runAt src q st = runAt src (q + k.length + g.length)
      { st with
        start := q, stop := q + k.length, state := .blockEndCleaner, br := { st.br with blockOpen := true } } := by
  have h' : src.drop q = k ++ (g ++ rest) := by rw [h]; simp
  obtain ⟨hne, hlow, hfirst⟩ := block_kinds k hk
  have e1 := kind_read hst h' hne hlow hfirst
  rw [e1]
  refine runAt_enter (at_drop h') hg.2 (fun c r e => ?_) (fun c r e x hx n => ?_)
  · have hc := (gap_head hg e).1
    simp only [step, blockBlockType]
    rw [if_neg (by simp [space_not_lower hc, space_not_under hc]), if_pos hc, dup_at h' hne (lower_nulFree hlow)]
    simp only [Res.bind, blockOf]
    rw [if_pos hk]
  · exact space_stays ((gap_head hg e).2 x hx) (by simp) n

end Blogc.Template
