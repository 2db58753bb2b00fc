import Verif.Lemmas.TemplateItems

/-!
# Reading a whole template

A template written from items is read back as what the items stand for.
-/

namespace Blogc.Template

open Blogc Blogc.Doc Blogc.Tokens

/-- The keyword of a statement. -/
def kwOf : Stmt → Str
  | .block .. => b!"block"
  | .endblock .. => b!"endblock"
  | .ifdef .. => b!"ifdef"
  | .ifndef .. => b!"ifndef"
  | .if_ .. => b!"if"
  | .else_ .. => b!"else"
  | .endif .. => b!"endif"
  | .foreach .. => b!"foreach"
  | .endforeach .. => b!"endforeach"

/-- What follows the keyword. -/
def tailOf : Stmt → Str
  | .block a k b => a ++ k ++ b
  | .endblock a | .else_ a | .endif a | .endforeach a => a
  | .ifdef a n b | .ifndef a n b | .foreach a n b => a ++ n ++ b
  | .if_ a n b op c rhs d => a ++ n ++ b ++ op ++ c ++ rhs.data ++ d

theorem print_split (s : Stmt) : s.print = kwOf s ++ tailOf s := by
  cases s <;> simp [Stmt.print, kwOf, tailOf]

theorem kw_ne (s : Stmt) : kwOf s ≠ [] := by cases s <;> simp [kwOf]
theorem kw_lower (s : Stmt) : ∀ c ∈ kwOf s, isLower c = true := by cases s <;> simp only [kwOf] <;> decide
theorem kw_keyword (s : Stmt) : keyword (kwOf s) = some s.node.type := by cases s <;> rfl
theorem kw_nulFree (s : Stmt) : NulFree (kwOf s) := lower_nulFree fun c hc => Or.inl (kw_lower s c hc)

section
variable {src rest : Str} {q stop : Nat} {br br' : Br} {ast : List Node} {ls : Bool}

/-- A closing statement. -/
theorem closing {s : Stmt} {g : Str} {st1 : St} (h : src.drop q = kwOf s ++ g ++ rest) (hg : Gap g)
    (hstop : stop ≤ q) (hn : s.node = mark s.node.type)
    (hs : statementOf (q + (kwOf s).length) (atWord q stop br ast ls) s.node.type = go st1)
    (he : st1 = { atWord q stop br' ast ls with state := .blockEndCleaner, type := s.node.type }) :
    ∃ E : St, runAt src (q + (kwOf s).length) (atWord q stop br ast ls) =
      runAt src (q + (kwOf s).length + g.length) E ∧ E.state = .blockEndCleaner ∧
      Carries src br' ast ls E s.node := by
  refine ⟨st1, word h (kw_keyword s) (kw_ne s) (kw_nulFree s) hg hs (by subst he; simp), by subst he; rfl, ?_⟩
  subst he
  generalize hk : s.node.type = k at *
  rw [hn]
  exact ⟨rfl, rfl, rfl, rfl, stale hstop, stale (Nat.le_refl _), Or.inr ⟨rfl, rfl⟩, Or.inl ⟨rfl, rfl, rfl⟩⟩

/-- A statement whose argument is a name. -/
theorem naming {s : Stmt} {a n b : Str} {k : NodeType} {s1 : State} (h : src.drop q = kwOf s ++ (a ++ n ++ b) ++ rest)
    (ha : Gap a) (hnm : IsName n) (hb : Gap b) (hk : s.node.type = k)
    (hs : statementOf (q + (kwOf s).length) (atWord q stop br ast ls) k =
      go { atWord q stop br' ast ls with start := q + (kwOf s).length, state := s1, type := k })
    (hs1 : (s1 = .ifStart) ∨ (s1 = .foreachStart)) :
    runAt src (q + (kwOf s).length) (atWord q stop br ast ls) =
      runAt src (q + (kwOf s).length + (a ++ n ++ b).length)
        { atWord q stop br' ast ls with
          start := q + (kwOf s).length + a.length, stop := q + (kwOf s).length + a.length + n.length, type := k
          state := if s1 = .ifStart ∧ k = .if_ then .ifOperatorStart else .blockEndCleaner } := by
  have h1 : src.drop q = kwOf s ++ a ++ (n ++ b ++ rest) := by rw [h]; simp
  rw [word h1 (hk ▸ kw_keyword s) (kw_ne s) (kw_nulFree s) ha hs (by rcases hs1 with rfl | rfl <;> simp)]
  have h2 : src.drop (q + (kwOf s).length + a.length) = n ++ b ++ rest := by
    have := at_drop h1
    simpa [Nat.add_assoc] using this
  rw [name_word (s1 := s1) (s2 := if s1 = .ifStart then .ifVariable else .foreachVariable) h2 hnm hb rfl
    (by rcases hs1 with rfl | rfl <;> simp)]
  simp [Nat.add_assoc]

theorem named {s : Stmt} {a n b : Str} {k : NodeType} {s1 : State} (h : src.drop q = kwOf s ++ (a ++ n ++ b) ++ rest)
    (ha : Gap a) (hnm : IsName n) (hb : Gap b) (hnode : s.node = ⟨k, .none, some n, none⟩)
    (hs : statementOf (q + (kwOf s).length) (atWord q stop br ast ls) k =
      go { atWord q stop br' ast ls with start := q + (kwOf s).length, state := s1, type := k })
    (hs1 : (s1 = .ifStart ∧ k ≠ .if_) ∨ (s1 = .foreachStart)) :
    ∃ E : St, runAt src (q + (kwOf s).length) (atWord q stop br ast ls) =
      runAt src (q + (kwOf s).length + (a ++ n ++ b).length) E ∧ E.state = .blockEndCleaner ∧
      Carries src br' ast ls E s.node := by
  refine ⟨_, naming h ha hnm hb (by rw [hnode]) hs (by rcases hs1 with ⟨h, _⟩ | h <;> simp [h]), ?_, ?_⟩
  · rcases hs1 with ⟨rfl, hk⟩ | rfl <;> simp [*]
  · rw [hnode]
    refine ⟨rfl, rfl, rfl, rfl, ?_, stale (Nat.le_refl _), Or.inr ⟨rfl, rfl⟩, Or.inl ⟨rfl, rfl, rfl⟩⟩
    refine dupIf_at (rest := b ++ rest) ?_ hnm.ne_nil (name_nulFree hnm)
    have := at_drop (u := kwOf s ++ a) (x := n ++ (b ++ rest)) (by rw [h]; simp)
    simpa [Nat.add_assoc] using this

/-- A statement, from after its keyword. -/
theorem stmt_tail {s : Stmt} (h : src.drop q = kwOf s ++ tailOf s ++ rest) (hs : s.Ok) (hstop : stop ≤ q)
    (hbr : brNext br s.node.type = some br') :
    ∃ E : St, runAt src (q + (kwOf s).length) (atWord q stop br ast ls) =
      runAt src (q + (kwOf s).length + (tailOf s).length) E ∧ E.state = .blockEndCleaner ∧
      Carries src br' ast ls E s.node := by
  cases s with
  | endblock a =>
    simp only [Stmt.node, mark, brNext] at hbr
    split at hbr
    · rename_i hc
      injection hbr with hbr
      refine closing h hs hstop rfl (st1 := _) ?_ rfl
      simp only [Stmt.node, mark, statementOf]
      rw [if_pos (show (atWord q stop br ast ls).br.blockOpen = true from hc.1), if_neg (fun hne => hne (by exact hc.2.1)), if_neg (by exact hc.2.2),
        ← hbr]
      rfl
    · cases hbr
  | else_ a =>
    simp only [Stmt.node, mark, brNext] at hbr
    split at hbr
    · rename_i hc
      injection hbr with hbr
      refine closing h hs hstop rfl (st1 := _) ?_ rfl
      simp only [Stmt.node, mark, statementOf]
      rw [if_pos (show (atWord q stop br ast ls).br.ifOpen from hc.1), if_pos (show (atWord q stop br ast ls).br.elseOpen = false from hc.2), ← hbr]
      rfl
    · cases hbr
  | endif a =>
    simp only [Stmt.node, mark, brNext] at hbr
    split at hbr
    · rename_i hc
      injection hbr with hbr
      refine closing h hs hstop rfl (st1 := _) ?_ rfl
      simp only [Stmt.node, mark, statementOf]
      rw [if_pos (show (atWord q stop br ast ls).br.ifOpen from hc), ← hbr]
      rfl
    · cases hbr
  | endforeach a =>
    simp only [Stmt.node, mark, brNext] at hbr
    split at hbr
    · rename_i hc
      injection hbr with hbr
      refine closing h hs hstop rfl (st1 := _) ?_ rfl
      simp only [Stmt.node, mark, statementOf]
      rw [if_pos (show (atWord q stop br ast ls).br.foreachIn from hc), ← hbr]
      rfl
    · cases hbr
  | ifdef a n b =>
    simp only [Stmt.node, Cond.node, brNext] at hbr
    injection hbr with hbr
    refine named h hs.1 hs.2.1 hs.2.2 rfl (s1 := .ifStart) ?_ (Or.inl ⟨rfl, by decide⟩)
    simp only [statementOf, openIf, atWord]
    rw [← hbr]
  | ifndef a n b =>
    simp only [Stmt.node, Cond.node, brNext] at hbr
    injection hbr with hbr
    refine named h hs.1 hs.2.1 hs.2.2 rfl (s1 := .ifStart) ?_ (Or.inl ⟨rfl, by decide⟩)
    simp only [statementOf, openIf, atWord]
    rw [← hbr]
  | foreach a n b =>
    simp only [Stmt.node, brNext] at hbr
    split at hbr
    · rename_i hc
      injection hbr with hbr
      refine named h hs.1 hs.2.1 hs.2.2 rfl (s1 := .foreachStart) ?_ (Or.inr rfl)
      simp only [statementOf]
      rw [if_pos (show (atWord q stop br ast ls).br.foreachOpen = false from hc), ← hbr]
      rfl
    · cases hbr
  | block a k b =>
    obtain ⟨ha, hk, hb⟩ := hs
    simp only [Stmt.node, brNext] at hbr
    split at hbr
    · rename_i hc
      injection hbr with hbr
      have h1 : src.drop q = kwOf (.block a k b) ++ a ++ (k ++ b ++ rest) := by rw [h]; simp [tailOf]
      have h2 : src.drop (q + (kwOf (.block a k b)).length + a.length) = k ++ b ++ rest := by
        have := at_drop h1
        simpa [Nat.add_assoc] using this
      have e1 := word (stop := stop) (br := br) (ast := ast) (ls := ls) h1 (kw_keyword _) (kw_ne _) (kw_nulFree _) ha
        (st1 :=
          { atWord q stop { br with blockIfCount := br.ifCount, blockForeachOpen := br.foreachOpen } ast ls with
            start := q + (kwOf (.block a k b)).length, state := .blockBlockTypeStart, type := .block })
        (by
          simp only [Stmt.node, statementOf]
          rw [if_pos (show (atWord q stop br ast ls).br.blockOpen = false from hc)]
          rfl) (Or.inl rfl)
      have e2 := e1.trans (kind_word rfl h2 hk hb)
      rw [show q + (kwOf (.block a k b)).length + (tailOf (.block a k b)).length =
            q + (kwOf (.block a k b)).length + a.length + k.length + b.length by simp [tailOf]; omega]
      refine ⟨_, e2, rfl, ?_⟩
      · obtain ⟨hne, hlow, _⟩ := block_kinds k hk
        refine ⟨rfl, ?_, rfl, rfl, ?_, stale (Nat.le_refl _), Or.inr ⟨rfl, rfl⟩, Or.inl ⟨rfl, rfl, rfl⟩⟩
        · rw [← hbr]; rfl
        · exact dupIf_at (rest := b ++ rest) (by rw [h2]; simp) hne (lower_nulFree hlow)
    · cases hbr
  | if_ a n b op c rhs d =>
    obtain ⟨ha, hn, hb, hop, hc, hr⟩ := hs
    simp only [Stmt.node, Cond.node, brNext] at hbr
    injection hbr with hbr
    have h1 : src.drop q = kwOf (.if_ a n b op c rhs d) ++ (a ++ n ++ b) ++ (op ++ c ++ (rhs.data ++ d ++ rest)) := by
      rw [h]; simp [tailOf]
    have e1 := naming (stop := stop) (br := br) (br' := br') (ast := ast) (ls := ls) (s1 := .ifStart) h1 ha hn hb
      (k := .if_) rfl (by
        simp only [statementOf, openIf, atWord]
        rw [← hbr]) (Or.inl rfl)
    rw [if_pos (by simp)] at e1
    have h2 : src.drop (q + (kwOf (.if_ a n b op c rhs d)).length + (a ++ n ++ b).length) =
        op ++ c ++ (rhs.data ++ d ++ rest) := by
      have := at_drop h1
      simpa [Nat.add_assoc] using this
    have h3 : src.drop (q + (kwOf (.if_ a n b op c rhs d)).length + (a ++ n ++ b).length + op.length + c.length) =
        rhs.data ++ d ++ rest := by
      have := at_drop h2
      simpa [Nat.add_assoc] using this
    have e3 := e1.trans ((operator_word rfl h2 (operator_words op hop).1 (operator_words op hop).2.1 hc).trans (operand_word rfl h3 hr))
    have hdata : rhs.data ≠ [] ∧ NulFree rhs.data := by
      cases rhs with
      | text s =>
        refine ⟨by simp [Operand.data], fun x hx => ?_⟩
        simp only [Operand.data, List.mem_append, List.mem_singleton] at hx
        rcases hx with (rfl | hx) | rfl
        · decide
        · exact hr.1.1 x hx
        · decide
      | var m => exact ⟨hr.1.ne_nil, name_nulFree hr.1⟩
    obtain ⟨hne, _, hnone⟩ := operator_words op hop
    have hpos : 0 < op.length := List.length_pos_iff.mpr hne
    rw [show q + (kwOf (.if_ a n b op c rhs d)).length + (tailOf (.if_ a n b op c rhs d)).length =
        q + (kwOf (.if_ a n b op c rhs d)).length + (a ++ n ++ b).length + op.length + c.length +
          rhs.data.length + d.length by simp [tailOf]; omega]
    refine ⟨_, e3, rfl, ?_⟩
    refine ⟨rfl, rfl, rfl, rfl, ?_, ?_, ?_, ?_⟩
    · refine dupIf_at (rest := b ++ (op ++ c ++ (rhs.data ++ d ++ rest))) ?_ hn.ne_nil (name_nulFree hn)
      have := at_drop (u := kwOf (.if_ a n b op c rhs d) ++ a)
        (x := n ++ (b ++ (op ++ c ++ (rhs.data ++ d ++ rest)))) (by rw [h1]; simp)
      simpa [Nat.add_assoc] using this
    · exact dupIf_at (rest := d ++ rest) (by rw [h3]; simp) hdata.1 hdata.2
    · refine Or.inl ?_
      have : 0 < rhs.data.length := List.length_pos_iff.mpr hdata.1
      simp only; omega
    · refine Or.inr ⟨hnone, ?_, ?_, ?_⟩
      · simp only; omega
      · have h2' : src.drop (q + (kwOf (.if_ a n b op c rhs d)).length + (a ++ n ++ b).length) =
          op ++ (c ++ (rhs.data ++ d ++ rest)) := by rw [h2]; simp
        exact at_le h2' hne
      · have h2' : src.drop (q + (kwOf (.if_ a n b op c rhs d)).length + (a ++ n ++ b).length) =
          op ++ (c ++ (rhs.data ++ d ++ rest)) := by rw [h2]; simp
        simp only
        rw [at_slice h2']
        rfl

/-- A statement. -/
theorem stmt_item {s a : Str} {p : Nat} {l r : Bool} {t : Stmt}
    (h : src.drop p = s ++ (Tok.stmt l a t r).print ++ rest) (hn : NulFree s) (ha : Blank a) (ht : t.Ok)
    (hbr : brNext br t.node.type = some br') :
    ∃ stop', runAt src (p + s.length) (between p stop br ast ls) =
      runAt src (p + s.length + (Tok.stmt l a t r).print.length)
        (between (p + s.length + (Tok.stmt l a t r).print.length) stop' br'
          (t.node :: if l then trimPrevious (flush s ls ast) else flush s ls ast) (flushed s ls || r)) := by
  have hp : (Tok.stmt l a t r).print = c!"{" :: c!"%" :: (dash l ++ a ++ kwOf t ++ (tailOf t ++ (dash r ++ b!"%}"))) := by
    simp [Tok.print, print_split]
  have h0 : src.drop p = s ++ c!"{" :: c!"%" :: (dash l ++ a ++ kwOf t ++ (tailOf t ++ (dash r ++ b!"%}" ++ rest))) := by
    rw [h, hp]; simp
  have h1 : src.drop (p + s.length + 2) = dash l ++ a ++ kwOf t ++ (tailOf t ++ (dash r ++ b!"%}" ++ rest)) :=
    at_drop1 (at_drop1 (at_drop h0))
  have e1 := open_item (stop := stop) (br := br) (ast := ast) (ls := ls) (Or.inl ⟨rfl, rfl⟩) h0 hn
  have e2 := lead (st := { between p (p + s.length) br (flush s ls ast) (flushed s ls) with state := .blockStartCleaner })
    rfl h1 ha (kw_ne t) (kw_lower t)
  have h2 : src.drop (p + s.length + 2 + (dash l ++ a).length) = kwOf t ++ tailOf t ++ (dash r ++ b!"%}" ++ rest) :=
    at_drop (u := dash l ++ a) (by rw [h1]; simp)
  obtain ⟨E, e3, hE, hc⟩ := stmt_tail (stop := p + s.length) (ast := if l then trimPrevious (flush s ls ast) else flush s ls ast)
    (ls := flushed s ls) h2 ht (by omega) hbr
  have h3 : src.drop (p + s.length + 2 + (dash l ++ a).length + (kwOf t).length + (tailOf t).length) =
      dash r ++ b!"%}" ++ rest := by
    have := at_drop h2
    simpa [Nat.add_assoc] using this
  have e4 := close_stmt hE hc h3
  have hl : p + s.length + (Tok.stmt l a t r).print.length = p + s.length + 2 + (dash l ++ a).length + (kwOf t).length +
      (tailOf t).length + (dash r ++ b!"%}").length := by
    rw [hp]; simp; omega
  rw [hl]
  exact ⟨E.stop, e1.trans (e2.trans (e3.trans e4))⟩

/-- A variable reference. -/
theorem var_item {s a n b : Str} {p : Nat} (h : src.drop p = s ++ (Tok.var a n b).print ++ rest) (hn : NulFree s)
    (ha : Blank a) (hnm : IsName n) (hb : Blank b) :
    ∃ stop', runAt src (p + s.length) (between p stop br ast ls) =
      runAt src (p + s.length + (Tok.var a n b).print.length)
        (between (p + s.length + (Tok.var a n b).print.length) stop' br
          (⟨.variable, .none, some n, none⟩ :: flush s ls ast) (flushed s ls)) := by
  have hp : (Tok.var a n b).print = c!"{" :: c!"{" :: (a ++ (n ++ (b ++ b!"}}"))) := by simp [Tok.print]
  have h0 : src.drop p = s ++ c!"{" :: c!"{" :: (a ++ (n ++ (b ++ (b!"}}" ++ rest)))) := by
    rw [h, hp]; simp
  have h1 : src.drop (p + s.length + 2) = a ++ (n ++ (b ++ (b!"}}" ++ rest))) := at_drop1 (at_drop1 (at_drop h0))
  have e1 := open_item (stop := stop) (br := br) (ast := ast) (ls := ls) (Or.inr ⟨rfl, rfl⟩) h0 hn
  have e2 := runAt_stay
    (st := { between p (p + s.length) br (flush s ls ast) (flushed s ls) with state := .variableStart }) h1
    fun c hc m => space_stays (ha c hc) (by simp) m
  have h2 := at_drop h1
  generalize hq : p + s.length + 2 + a.length = q at *
  have e3 : runAt src q { between p (p + s.length) br (flush s ls ast) (flushed s ls) with state := .variableStart } =
      runAt src (q + n.length)
        { between q (p + s.length) br (flush s ls ast) (flushed s ls) with state := .variable, type := .variable } := by
    refine runAt_enter h2 hnm.ne_nil (fun c r e => ?_) (fun c r e x hx m => ?_)
    · have hc := (name_head hnm e).1
      simp only [step, variableStart]
      rw [if_neg (by simp [upper_not_space hc]), if_pos hc]
      rfl
    · have hx := (name_head hnm e).2 x hx
      simp only [step, variable_]
      rw [if_pos hx]
  have h3 := at_drop h2
  have h4 := at_drop h3
  -- up to the first closing bracket
  have e4 : runAt src (q + n.length)
        { between q (p + s.length) br (flush s ls ast) (flushed s ls) with state := .variable, type := .variable } =
      runAt src (q + n.length + b.length + 1)
        { between q (q + n.length) br (flush s ls ast) (flushed s ls) with state := .closeBracket, type := .variable } := by
    cases b with
    | nil =>
      refine runAt_step (rest := c!"}" :: rest) h3 ?_
      simp only [step, variable_]
      rw [if_neg (by decide), if_neg (by decide), if_pos trivial]
      rfl
    | cons c b =>
      have e5 : runAt src (q + n.length)
          { between q (p + s.length) br (flush s ls ast) (flushed s ls) with state := .variable, type := .variable } =
        runAt src (q + n.length + (c :: b).length)
          { between q (q + n.length) br (flush s ls ast) (flushed s ls) with
            state := .variableEnd, type := .variable } := by
        refine runAt_enter h3 (by simp) (fun c' r e => ?_) (fun c' r e x hx m => ?_)
        · injection e with e1 _
          subst e1
          have hc := hb c (by simp)
          simp only [step, variable_]
          rw [if_neg (by simp [space_not_name hc]), if_pos hc]
          rfl
        · injection e with _ e2
          subst e2
          exact space_stays (hb x (by simp [hx])) (by simp) m
      rw [e5]
      refine runAt_step (rest := c!"}" :: rest) h4 ?_
      simp only [step, variableEnd]
      rw [if_neg (by decide), if_pos trivial]
  have h5 : src.drop (q + n.length + b.length + 1) = c!"}" :: rest := at_drop1 (by rw [h4]; rfl)
  have e6 : runAt src (q + n.length + b.length + 1)
        { between q (q + n.length) br (flush s ls ast) (flushed s ls) with state := .closeBracket, type := .variable } =
      runAt src (q + n.length + b.length + 1 + 1)
        (between (q + n.length + b.length + 1 + 1) (q + n.length) br
          (⟨.variable, .none, some n, none⟩ :: flush s ls ast) (flushed s ls)) := by
    refine runAt_step h5 ?_
    have := between_ext (src := src) (br := br) (ast := flush s ls ast) (ls := flushed s ls) (b := false)
      (E := { between q (q + n.length) br (flush s ls ast) (flushed s ls) with state := .closeBracket, type := .variable })
      (n := ⟨.variable, .none, some n, none⟩) (q := q + n.length + b.length + 1)
      (by exact ⟨rfl, rfl, rfl, rfl, dupIf_at h2 hnm.ne_nil (name_nulFree hnm), stale (Nat.le_refl _),
        Or.inr ⟨rfl, rfl⟩, Or.inl ⟨rfl, rfl, rfl⟩⟩) rfl (flushed s ls) (by simp)
    rw [Bool.or_false] at this
    exact this
  have hl : p + s.length + (Tok.var a n b).print.length = q + n.length + b.length + 1 + 1 := by
    rw [hp, ← hq]; simp; omega
  rw [hl]
  exact ⟨_, e1.trans (e2.trans (e3.trans (e4.trans e6)))⟩

end

/-! ### The whole template -/

/-- The counters after a list of statements. -/
def brRun (br : Br) : List NodeType → Option Br
  | [] => some br
  | k :: ks => (brNext br k).bind (brRun · ks)

/-- The items, with text that has been read already in front. -/
def withText (s : Str) (ts : List Tok) : List Tok := if s = [] then ts else .text s :: ts

theorem withText_nil (ts : List Tok) : withText [] ts = ts := rfl
theorem withText_ne {s : Str} (h : s ≠ []) (ts : List Tok) : withText s ts = .text s :: ts := if_neg h

theorem meaning_types (b b' : Bool) (ts : List Tok) :
    (meaning b ts).map Node.type = (meaning b' ts).map Node.type := by
  cases ts with
  | nil => rfl
  | cons t ts => cases t <;> rfl

/-- The text that has been read becomes a node when a statement begins, trimmed. -/
theorem flush_trim {s : Str} {ls l : Bool} {ast : List Node} (ha : ∀ n ∈ ast.head?, n.type ≠ .content) (a : Str) (t : Stmt)
    (r : Bool) (ts : List Tok) (hm : ls = true → s = [] → r = true) :
    (if l then trimPrevious (flush s ls ast) else flush s ls ast).reverse ++ t.node :: meaning (flushed s ls || r) ts =
      ast.reverse ++ meaning ls (withText s (.stmt l a t r :: ts)) := by
  by_cases hs : s = []
  · subst hs
    rw [withText_nil]
    simp only [meaning, flush, flushed, if_true]
    have h1 : trimPrevious ast = ast := by
      cases ast with
      | nil => rfl
      | cons n ns => rw [trimPrevious, if_neg (ha n rfl)]
    have h2 : (ls || r) = r := by
      cases ls with
      | false => rfl
      | true => simp [hm rfl rfl]
    rw [h1, h2]
    cases l <;> rfl
  · rw [withText_ne hs]
    simp only [meaning, flush, flushed, if_neg hs, trims, trim, Bool.false_or]
    cases l <;> simp [trimPrevious]

theorem flush_var {s : Str} {ls : Bool} {ast : List Node} (a n b : Str) (ts : List Tok) (hm : ls = true → s ≠ []) :
    (flush s ls ast).reverse ++ ⟨.variable, .none, some n, none⟩ :: meaning (flushed s ls) ts =
      ast.reverse ++ meaning ls (withText s (.var a n b :: ts)) := by
  by_cases hs : s = []
  · subst hs
    have : ls = false := by
      cases ls with
      | false => rfl
      | true => exact absurd rfl (hm rfl)
    subst this
    rw [withText_nil]
    simp only [meaning, flush, flushed, if_true]
  · rw [withText_ne hs]
    simp only [meaning, flush, flushed, if_neg hs, trims, trim]
    simp

theorem stmt_not_content (t : Stmt) : t.node.type ≠ .content := by cases t <;> simp [Stmt.node, mark, Cond.node]

theorem finish_ok {st : St} {br : Br} (h : st.state ≠ .ifStringOperand) (hb : st.br = br) (h1 : br.ifCount = 0)
    (h2 : br.blockOpen = false) (h3 : br.foreachOpen = false) : finish st = .ok st.ast.reverse := by
  subst hb
  rw [finish, if_neg h, if_neg (by simp [h1]), if_neg (by simp [h2]), if_neg (by simp [h3])]

/-- Reading the items from between two of them. -/
theorem read_items {src : Str} {br' : Br} (h1 : br'.ifCount = 0) (h2 : br'.blockOpen = false)
    (h3 : br'.foreachOpen = false) (ts : List Tok) :
    ∀ (pre s : Str) (stop : Nat) (br : Br) (ast : List Node) (ls : Bool), src = pre ++ s ++ print ts →
      (s ≠ [] → ts ≠ []) → Tokens.Ok (withText s ts) → (ls = true → MarkEnd (withText s ts)) →
      (∀ n ∈ ast.head?, n.type ≠ .content) →
      brRun br ((meaning ls (withText s ts)).map Node.type) = some br' →
      runAt src (pre.length + s.length) (between pre.length stop br ast ls) =
        .ok (.ok (ast.reverse ++ meaning ls (withText s ts))) := by
  induction ts with
  | nil =>
    intro pre s stop br ast ls hsrc hs hok hm ha hbr
    have : s = [] := by
      cases s with
      | nil => rfl
      | cons => exact absurd rfl (hs (by simp))
    subst this
    injection hbr with hbr
    have : src.drop (pre.length + ([] : Str).length) = [] := by rw [hsrc]; simp [print]
    rw [runAt, this, loop, finish_ok (by simp [between]) (br := br') hbr h1 h2 h3]
    simp [withText, meaning, between, Except.mapError]
  | cons t ts ih =>
    intro pre s stop br ast ls hsrc hs hok hm ha hbr
    cases t with
    | text s' =>
      have hs0 : s = [] := by
        cases s with
        | nil => rfl
        | cons c s => exact absurd hok.2.1 (by simp [TextEnd])
      subst hs0
      rw [withText_nil] at *
      obtain ⟨ht, he, hok'⟩ := hok
      rw [List.append_nil] at hsrc
      by_cases hts : ts = []
      · subst hts
        obtain ⟨st', e1, e2, e3, e4⟩ := text_final (stop := stop) (br := br) (ast := ast) (ls := ls)
          (src := src) (pre := pre) (s := s') (by rw [hsrc]; simp [print, Tok.print]) ht he
        have hb : br = br' := by
          simp only [meaning, List.map_cons, List.map_nil, brRun, brNext, Option.bind_some, Option.some.injEq] at hbr
          exact hbr
        rw [List.length_nil, Nat.add_zero, e1, finish_ok e4 (e2.trans hb) h1 h2 h3, e3]
        simp [flush, ht.1, meaning, trims, trim, Except.mapError]
      · have hd : src.drop pre.length = s' ++ print ts := by rw [hsrc]; simp [print, Tok.print]
        have hne : print ts ≠ [] := by
          cases ts with
          | nil => exact absurd rfl hts
          | cons t ts =>
            cases t with
            | text _ => exact absurd he (by simp [TextEnd])
            | var => simp [print, Tok.print]
            | stmt => simp [print, Tok.print]
        have hl : s'.getLast? ≠ some c!"{" := by
          cases ts with
          | nil => exact absurd rfl hts
          | cons t ts =>
            cases t with
            | text _ => exact absurd he (by simp [TextEnd])
            | var => exact he
            | stmt => exact he
        obtain ⟨stop', e⟩ := text_stays (st := between pre.length stop br ast ls) rfl hd hne ht.2.2.1 ht.2.2.2 hl
        rw [List.length_nil, Nat.add_zero, e]
        have := ih pre s' stop' br ast ls (by rw [hsrc]; simp [print, Tok.print]) (fun _ => hts)
          (by rw [withText_ne ht.1]; exact ⟨ht, he, hok'⟩) (by rw [withText_ne ht.1]; exact fun _ => trivial) ha
          (by rw [withText_ne ht.1]; exact hbr)
        rw [withText_ne ht.1] at this
        exact this
    | var a n b =>
      have hn : NulFree s := by
        by_cases h : s = []
        · subst h; exact fun _ h => nomatch h
        · rw [withText_ne h] at hok; exact hok.1.2.1
      have hok' : Blank a ∧ IsName n ∧ Blank b ∧ Tokens.Ok ts := by
        by_cases h : s = []
        · subst h; exact hok
        · rw [withText_ne h] at hok; exact hok.2.2
      have hm' : ls = true → s ≠ [] := by
        intro hl hs; subst hs; exact hm hl
      have hd : src.drop pre.length = s ++ (Tok.var a n b).print ++ print ts := by rw [hsrc]; simp [print]
      obtain ⟨stop', e⟩ := var_item (stop := stop) (br := br) (ast := ast) (ls := ls) hd hn hok'.1 hok'.2.1 hok'.2.2.1
      have hbr' : brRun br ((meaning (flushed s ls) ts).map Node.type) = some br' := by
        by_cases h : s = []
        · subst h
          rw [meaning_types _ false]; exact hbr
        · rw [withText_ne h] at hbr
          rw [meaning_types _ false]; exact hbr
      have hfl : flushed s ls = false := by
        rw [flushed]
        split
        · rename_i h
          cases ls with
          | false => rfl
          | true => exact absurd h (hm' rfl)
        · rfl
      have := ih (pre ++ s ++ (Tok.var a n b).print) [] stop' br
        (⟨.variable, .none, some n, none⟩ :: flush s ls ast) (flushed s ls) (by rw [hsrc]; simp [print])
        (fun h => absurd rfl h) hok'.2.2.2 (by rw [hfl]; exact fun h => nomatch h) (by simp) hbr'
      rw [e, show pre.length + s.length + (Tok.var a n b).print.length = (pre ++ s ++ (Tok.var a n b).print).length by
        simp [Nat.add_assoc]]
      rw [List.length_nil, Nat.add_zero] at this
      rw [this, withText_nil, ← flush_var a n b ts hm']
      simp
    | stmt l a t r =>
      have hn : NulFree s := by
        by_cases h : s = []
        · subst h; exact fun _ h => nomatch h
        · rw [withText_ne h] at hok; exact hok.1.2.1
      have hok' : Blank a ∧ t.Ok ∧ (r = true → MarkEnd ts) ∧ Tokens.Ok ts := by
        by_cases h : s = []
        · subst h; exact hok
        · rw [withText_ne h] at hok; exact hok.2.2
      have hm' : ls = true → s = [] → r = true := by
        intro hl hs; subst hs; exact hm hl
      have hd : src.drop pre.length = s ++ (Tok.stmt l a t r).print ++ print ts := by rw [hsrc]; simp [print]
      have hbr0 : (brNext br t.node.type).bind (brRun · ((meaning r ts).map Node.type)) = some br' := by
        by_cases h : s = []
        · subst h; exact hbr
        · rw [withText_ne h] at hbr; exact hbr
      cases hb1 : brNext br t.node.type with
      | none => rw [hb1] at hbr0; cases hbr0
      | some br1 =>
        rw [hb1, Option.bind_some] at hbr0
        obtain ⟨stop', e⟩ := stmt_item (stop := stop) (br := br) (ast := ast) (ls := ls) hd hn hok'.1 hok'.2.1 hb1
        have hfr : (flushed s ls || r) = true → r = true := by
          intro h
          cases r with
          | true => rfl
          | false =>
            rw [Bool.or_false, flushed] at h
            split at h
            · rename_i hs; exact hm' h hs
            · cases h
        have := ih (pre ++ s ++ (Tok.stmt l a t r).print) [] stop' br1
          (t.node :: if l then trimPrevious (flush s ls ast) else flush s ls ast) (flushed s ls || r)
          (by rw [hsrc]; simp [print]) (fun h => absurd rfl h) hok'.2.2.2
          (fun h => hok'.2.2.1 (hfr h)) (by simpa using stmt_not_content t)
          (by rw [withText_nil, meaning_types _ r]; exact hbr0)
        rw [e, show pre.length + s.length + (Tok.stmt l a t r).print.length =
          (pre ++ s ++ (Tok.stmt l a t r).print).length by simp [Nat.add_assoc]]
        rw [List.length_nil, Nat.add_zero] at this
        rw [this, withText_nil, ← flush_trim ha a t r ts hm']
        simp

/-- A written template is read as what it stands for. -/
theorem parse_print {ts : List Tok} {br' : Br} (hok : Tokens.Ok ts)
    (hbr : brRun {} ((meaning false ts).map Node.type) = some br') (h1 : br'.ifCount = 0) (h2 : br'.blockOpen = false)
    (h3 : br'.foreachOpen = false) : parse (print ts) = .ok (.ok (meaning false ts)) :=
  parse_diagnose.2 <| read_items (src := print ts) h1 h2 h3 ts [] [] 0 {} [] false rfl (fun h => absurd rfl h) hok
    (fun h => nomatch h) (fun _ h => nomatch h) hbr

end Blogc.Template
