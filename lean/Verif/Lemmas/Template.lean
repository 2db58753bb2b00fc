import Verif.Lemmas.TemplateBr

/-!
# What the template parser maintains

`Inv` holds before every character: positions stay within the text read so far, the nodes are
well formed, and the bracket automaton has seen the nodes and the statement being read.
-/

namespace Blogc.Template

open Blogc

theorem slice_snoc {src : Str} {a cur : Nat} {c : Byte} (ha : a ≤ cur) (hc : src[cur]? = some c) :
    slice src a (cur + 1) = slice src a cur ++ [c] := by
  simp only [slice]
  rw [show cur + 1 - a = (cur - a) + 1 by omega, List.take_add_one, List.getElem?_drop,
    show a + (cur - a) = cur by omega, hc]
  rfl

theorem slice_self (src : Str) (a : Nat) : slice src a a = [] := by simp [slice]

theorem slice_one {src : Str} {cur : Nat} {c : Byte} (hc : src[cur]? = some c) :
    slice src cur (cur + 1) = [c] := by rw [slice_snoc (Nat.le_refl _) hc, slice_self]; rfl

theorem cstr_id {s : Str} (h : ∀ b ∈ s, b ≠ 0) : cstr s = s := by
  simp only [cstr]
  induction s with
  | nil => rfl
  | cons b s ih =>
    rw [List.takeWhile_cons_of_pos (by simpa using h b List.mem_cons_self),
      ih fun x hx => h x (List.mem_cons_of_mem _ hx)]

theorem name_ne_zero {c : Byte} (h : isName c = true) : c ≠ 0 := by rintro rfl; revert h; decide

theorem upper_isName {c : Byte} (h : isUpper c = true) : isName c = true := by simp [isName, h]

theorem isUpper_iff (c : Byte) : isUpper c = true ↔ c!"A" ≤ c ∧ c ≤ c!"Z" := by
  simp only [isUpper, Bool.and_eq_true, decide_eq_true_eq]

theorem isName_iff (c : Byte) :
    isName c = true ↔ (c!"A" ≤ c ∧ c ≤ c!"Z") ∨ (c!"0" ≤ c ∧ c ≤ c!"9") ∨ c = c!"_" := by
  simp only [isName, Bool.or_eq_true, isUpper_iff, Bool.and_eq_true, decide_eq_true_eq, beq_iff_eq, or_assoc]

theorem IsName.bytes {s : Str} (h : IsName s) : ∀ c ∈ s, isName c = true := fun c hc => (isName_iff c).2 (h.2 c hc)

theorem IsName.cstr {s : Str} (h : IsName s) : cstr s = s :=
  cstr_id fun b hb => name_ne_zero (h.bytes b hb)

theorem IsName.snoc {s : Str} {c : Byte} (h : IsName s) (hc : isName c = true) : IsName (s ++ [c]) := by
  obtain ⟨⟨d, r, rfl, hd⟩, h2⟩ := h
  refine ⟨⟨d, r ++ [c], rfl, hd⟩, fun x hx => ?_⟩
  rcases List.mem_append.mp hx with hx | hx
  · exact h2 x hx
  · rw [List.mem_singleton] at hx; subst hx; exact (isName_iff _).1 hc

theorem IsName.one {c : Byte} (hc : isUpper c = true) : IsName [c] :=
  ⟨⟨c, [], rfl, (isUpper_iff c).1 hc⟩, fun x hx => by
    rw [List.mem_singleton] at hx; subst hx; exact (isName_iff _).1 (upper_isName hc)⟩

theorem IsName.ne_nil {s : Str} (h : IsName s) : s ≠ [] := by
  obtain ⟨⟨d, r, rfl, _⟩, _⟩ := h; simp

/-- The parser is within a statement whose text has no `%` so far. -/
def OpenText (src : Str) (cur : Nat) : Prop :=
  ∃ a b, src.take cur = a ++ b!"{%" ++ b ∧ c!"%" ∉ b

theorem take_snoc {src : Str} {cur : Nat} {c : Byte} (hc : src[cur]? = some c) :
    src.take (cur + 1) = src.take cur ++ [c] := by rw [List.take_add_one, hc]; rfl

theorem OpenText.snoc {src : Str} {cur : Nat} {c : Byte} (h : OpenText src cur)
    (hc : src[cur]? = some c) (hn : c ≠ c!"%") : OpenText src (cur + 1) := by
  obtain ⟨a, b, h1, h2⟩ := h
  refine ⟨a, b ++ [c], ?_, ?_⟩
  · rw [take_snoc hc, h1]; simp
  · intro hm
    rcases List.mem_append.mp hm with hm | hm
    · exact h2 hm
    · rw [List.mem_singleton] at hm; exact hn hm.symm

/-- The same, after the `%` that begins the end of the statement. -/
def OpenPercent (src : Str) (cur : Nat) : Prop :=
  ∃ a b, src.take cur = a ++ b!"{%" ++ (b ++ b!"%") ∧ c!"%" ∉ b

def absBr (b : Br) : A :=
  ⟨b.ifCount, if b.blockOpen then some (b.blockIfCount, b.blockForeachOpen) else none, b.foreachOpen⟩

/-- The statement being read that the counters know about. -/
def pend (st : St) : List NodeType :=
  match st.state with
  | .start | .openBracket | .blockStart | .blockStartCleaner | .blockType | .blockBlockTypeStart
  | .blockBlockType | .variableStart => []
  | _ => [st.type]

/-- The statement has been read up to its end. `text` is what is known of its text. -/
def Ready (src : Str) (st : St) (text : Prop) : Prop :=
  match st.type with
  | .ifdef | .ifndef | .foreach => IsName (slice src st.start st.stop)
  | .if_ => IsName (slice src st.start st.stop) ∧ st.opStart < st.opEnd ∧
      IsOperand (cstr (slice src st.start2 st.end2))
  | .block => cstr (slice src st.start st.stop) ∈ blockTypes
  | .else_ | .endif | .endforeach | .endblock => text
  | .variable | .content => False

def Shape (src : Str) (cur : Nat) (st : St) : Prop :=
  match st.state with
  | .start | .variableStart => st.type = .content
  | .openBracket => st.type = .content ∧ ∃ a, src.take cur = a ++ b!"{"
  | .blockStart | .blockStartCleaner | .blockType => st.type = .content ∧ OpenText src cur
  | .blockBlockTypeStart | .blockBlockType => st.type = .block ∧ st.br.blockOpen = false ∧
      st.br.blockIfCount = st.br.ifCount ∧ st.br.blockForeachOpen = st.br.foreachOpen
  | .ifStart => isIf st.type = true
  | .ifVariable => isIf st.type = true ∧ IsName (slice src st.start cur)
  | .ifOperatorStart => st.type = .if_ ∧ IsName (slice src st.start st.stop)
  | .ifOperator => st.type = .if_ ∧ IsName (slice src st.start st.stop) ∧ st.opStart < cur
  | .ifOperandStart => st.type = .if_ ∧ IsName (slice src st.start st.stop) ∧ st.opStart < st.opEnd
  | .ifStringOperand => st.type = .if_ ∧ IsName (slice src st.start st.stop) ∧ st.opStart < st.opEnd ∧
      ∃ r, slice src st.start2 cur = c!"\"" :: r
  | .ifVariableOperand => st.type = .if_ ∧ IsName (slice src st.start st.stop) ∧ st.opStart < st.opEnd ∧
      IsName (slice src st.start2 cur)
  | .foreachStart => st.type = .foreach
  | .foreachVariable => st.type = .foreach ∧ IsName (slice src st.start cur)
  | .blockEndCleaner | .blockEnd => Ready src st (OpenText src cur)
  | .variable => st.type = .variable ∧ IsName (slice src st.start cur)
  | .variableEnd => st.type = .variable ∧ IsName (slice src st.start st.stop)
  | .closeBracket => Ready src st (OpenPercent src cur) ∨
      st.type = .variable ∧ IsName (slice src st.start st.stop)

structure Inv (src : Str) (cur : Nat) (st : St) : Prop where
  start_le : st.start ≤ cur
  stop_le : st.stop ≤ cur
  op_le : st.opEnd ≤ cur
  start2_le : st.start2 ≤ cur
  end2_le : st.end2 ≤ cur
  nodes : ∀ n ∈ st.ast, NodeOk n
  br : A.run {} (st.ast.reverse.map Node.type ++ pend st) = some (absBr st.br)
  shape : Shape src cur st

/-- A step goes on with the invariant or reports an error. -/
def Good (src : Str) (cur : Nat) (r : Step) : Prop :=
  match r with
  | .ok (.ok st) => Inv src cur st
  | .ok (.error _) => True
  | .ub => False

theorem good_go {src : Str} {cur : Nat} {st : St} (h : Inv src cur st) : Good src cur (go st) := h

theorem good_fail {src : Str} {cur : Nat} {e : Err} : Good src cur (fail e) := trivial

theorem dup_eq {src : Str} {a b : Nat} (h1 : a ≤ b) (h2 : b ≤ src.length) :
    dup src a b = .ok (cstr (slice src a b)) := if_pos ⟨h1, h2⟩

theorem lt_of_get {src : Str} {cur : Nat} {c : Byte} (hc : src[cur]? = some c) : cur < src.length :=
  (List.getElem?_eq_some_iff.mp hc).1

theorem space_not_percent {c : Byte} (h : isSpace c = true) : c ≠ c!"%" := by
  rintro rfl; revert h; decide

theorem lower_not_percent {c : Byte} (h : isLower c = true) : c ≠ c!"%" := by
  rintro rfl; revert h; decide

/-- Adding the text before a bracket keeps everything but the nodes and the marker. -/
theorem addContentIf_ok {b : Bool} {src : Str} {st : St} {stop : Nat} (h1 : b = true → st.start ≤ stop)
    (h2 : b = true → stop ≤ src.length) (ht : st.type = .content) :
    ∃ ast l, addContentIf b src st stop = .ok { st with ast := ast, lstripNext := l } ∧
      (∀ n ∈ ast, n ∈ st.ast ∨ NodeOk n) ∧
      ∃ t, (∀ k ∈ t, k = NodeType.content) ∧
        ast.reverse.map Node.type = st.ast.reverse.map Node.type ++ t := by
  cases b with
  | false => exact ⟨st.ast, st.lstripNext, rfl, fun n hn => Or.inl hn, [], (fun k hk => nomatch hk), by simp⟩
  | true =>
    refine ⟨{ type := st.type, data0 := some (if st.lstripNext then lstrip (cstr (slice src st.start stop))
        else cstr (slice src st.start stop)) } :: st.ast, false, ?_, ?_, [.content], ?_, ?_⟩
    · simp only [addContentIf, addContent, dup_eq (h1 rfl) (h2 rfl)]; rfl
    · intro n hn
      rcases List.mem_cons.mp hn with rfl | hn
      · right; simp only [NodeOk, ht]; exact ⟨_, rfl⟩
      · exact Or.inl hn
    · intro k hk; exact List.mem_singleton.mp hk
    · simp [ht]

theorem run_content {a b : A} {ks t : List NodeType} (ht : ∀ k ∈ t, k = NodeType.content)
    (h : a.run ks = some b) : a.run (ks ++ t) = some b := by
  rw [A.run_append, h]
  clear h
  simp only [Option.bind_some]
  induction t with
  | nil => rfl
  | cons k t ih =>
    rw [ht k List.mem_cons_self]
    exact ih fun x hx => ht x (List.mem_cons_of_mem _ hx)

/-- A step that reads on within the same statement. -/
theorem Inv.stay {src : Str} {cur : Nat} {st st' : St} (h : Inv src cur st)
    (h1 : st'.start ≤ cur + 1) (h2 : st'.stop ≤ cur + 1) (h3 : st'.opEnd ≤ cur + 1)
    (h4 : st'.start2 ≤ cur + 1) (h5 : st'.end2 ≤ cur + 1) (ha : st'.ast = st.ast)
    (hp : pend st' = pend st) (hb : st'.br = st.br) (hs : Shape src (cur + 1) st') :
    Inv src (cur + 1) st' :=
  ⟨h1, h2, h3, h4, h5, by rw [ha]; exact h.nodes, by rw [ha, hp, hb]; exact h.br, hs⟩

/-- A step that tells the counters about a statement. -/
theorem Inv.enter {src : Str} {cur : Nat} {st st' : St} (h : Inv src cur st)
    (h1 : st'.start ≤ cur + 1) (h2 : st'.stop ≤ cur + 1) (h3 : st'.opEnd ≤ cur + 1)
    (h4 : st'.start2 ≤ cur + 1) (h5 : st'.end2 ≤ cur + 1) (ha : st'.ast = st.ast)
    (hp : pend st = []) (hb : (absBr st.br).run (pend st') = some (absBr st'.br))
    (hs : Shape src (cur + 1) st') : Inv src (cur + 1) st' := by
  refine ⟨h1, h2, h3, h4, h5, by rw [ha]; exact h.nodes, ?_, hs⟩
  have := h.br
  rw [hp, List.append_nil] at this
  rw [ha, A.run_append, this]
  exact hb

section steps

variable {src : Str} {cur : Nat} {c : Byte} {st : St} (hc : src[cur]? = some c)

/-- Close the bounds of `Inv.stay` and `Inv.enter`. -/
macro "bounds" h:term : tactic => `(tactic|
  (have := Inv.start_le $h; have := Inv.stop_le $h; have := Inv.op_le $h; have := Inv.start2_le $h
   have := Inv.end2_le $h; first | omega | (simp only; omega)))

include hc

theorem start_good (h : Inv src cur st) (hs : st.state = .start) :
    Good src (cur + 1) (start src cur st c (cur + 1 == src.length)) := by
  have hlt := lt_of_get hc
  have ht : st.type = .content := by have := h.shape; simp only [Shape, hs] at this; exact this
  have hpd : pend st = [] := by simp only [pend, hs]
  obtain ⟨ast, l, h1, h2, t, h3, h4⟩ := addContentIf_ok (b := cur + 1 == src.length) (src := src) (st := st)
    (stop := src.length) (fun _ => by have := h.start_le; omega) (fun _ => Nat.le_refl _) ht
  have hn : ∀ n ∈ ast, NodeOk n := fun n hn => (h2 n hn).elim (h.nodes n) id
  have hbr := h.br
  rw [hpd, List.append_nil] at hbr
  have hrun : A.run {} (ast.reverse.map Node.type ++ []) = some (absBr st.br) := by
    rw [List.append_nil, h4]; exact run_content h3 hbr
  simp only [start, h1, Res.bind, startNext]
  split
  · rename_i he
    refine ⟨?_, ?_, ?_, ?_, ?_, hn, hrun, ht, src.take cur, ?_⟩
    any_goals bounds h
    rw [take_snoc hc, he]
  · refine ⟨?_, ?_, ?_, ?_, ?_, hn, ?_, ?_⟩
    any_goals bounds h
    · simp only [pend, hs]; exact hrun
    · simp only [Shape, hs]; exact ht

theorem openBracket_good (h : Inv src cur st) (hs : st.state = .openBracket) :
    Good src (cur + 1) (openBracket src st c) := by
  have hlt := lt_of_get hc
  obtain ⟨ht, a, hta⟩ : st.type = .content ∧ ∃ a, src.take cur = a ++ b!"{" := by
    have := h.shape; simp only [Shape, hs] at this; exact this
  have hpd : pend st = [] := by simp only [pend, hs]
  have hbr := h.br
  rw [hpd, List.append_nil] at hbr
  simp only [openBracket]
  split
  · rename_i he
    obtain ⟨ast, l, h1, h2, t, h3, h4⟩ := addContentIf_ok (b := decide (st.start < st.stop)) (src := src)
      (st := { st with state := .blockStartCleaner }) (stop := st.stop)
      (fun hb => Nat.le_of_lt (of_decide_eq_true hb)) (fun _ => by have := h.stop_le; omega) ht
    rw [h1]
    refine ⟨?_, ?_, ?_, ?_, ?_, fun n hn => (h2 n hn).elim (h.nodes n) id, ?_, ht, a, [], ?_, by simp⟩
    any_goals bounds h
    · simp only [pend, List.append_nil]; rw [h4]; exact run_content h3 hbr
    · rw [take_snoc hc, he, hta]; simp
  · split
    · obtain ⟨ast, l, h1, h2, t, h3, h4⟩ := addContentIf_ok (b := decide (st.start < st.stop)) (src := src)
        (st := { st with state := .variableStart }) (stop := st.stop)
        (fun hb => Nat.le_of_lt (of_decide_eq_true hb)) (fun _ => by have := h.stop_le; omega) ht
      rw [h1]
      refine ⟨?_, ?_, ?_, ?_, ?_, fun n hn => (h2 n hn).elim (h.nodes n) id, ?_, ht⟩
      any_goals bounds h
      simp only [pend, List.append_nil]; rw [h4]; exact run_content h3 hbr
    · refine good_go (h.stay ?_ ?_ ?_ ?_ ?_ rfl hpd.symm rfl ht)
      all_goals bounds h

theorem blockStart_good (h : Inv src cur st) (hs : st.state = .blockStart) :
    Good src (cur + 1) (blockStart cur st c) := by
  obtain ⟨ht, ho⟩ : st.type = .content ∧ OpenText src cur := by
    have := h.shape; simp only [Shape, hs] at this; exact this
  have hpd : pend st = [] := by simp only [pend, hs]
  simp only [blockStart]
  split
  · rename_i hsp
    refine good_go (h.stay ?_ ?_ ?_ ?_ ?_ rfl rfl rfl ?_)
    any_goals bounds h
    simp only [Shape, hs]; exact ⟨ht, ho.snoc hc (space_not_percent hsp)⟩
  · split
    · rename_i hl
      refine good_go (h.stay ?_ ?_ ?_ ?_ ?_ rfl hpd.symm rfl ⟨ht, ho.snoc hc (lower_not_percent hl)⟩)
      all_goals bounds h
    · split <;> exact good_fail

end steps

theorem trimPrevious_types (l : List Node) : (trimPrevious l).map Node.type = l.map Node.type := by
  cases l with
  | nil => rfl
  | cons n ns => simp only [trimPrevious]; split <;> rfl

theorem trimPrevious_ok {l : List Node} (h : ∀ n ∈ l, NodeOk n) : ∀ n ∈ trimPrevious l, NodeOk n := by
  cases l with
  | nil => exact h
  | cons n ns =>
    simp only [trimPrevious]
    split
    · rename_i ht
      intro m hm
      rcases List.mem_cons.mp hm with rfl | hm
      · have := h n List.mem_cons_self
        simp only [NodeOk, ht] at this ⊢
        obtain ⟨t, h1⟩ := this
        exact ⟨_, by rw [h1]; rfl⟩
      · exact h m (List.mem_cons_of_mem _ hm)
    · exact h

section steps

variable {src : Str} {cur : Nat} {c : Byte} {st : St} (hc : src[cur]? = some c)

include hc

theorem blockStartCleaner_good (h : Inv src cur st) (hs : st.state = .blockStartCleaner) :
    Good src (cur + 1) (blockStartCleaner cur st c) := by
  obtain ⟨ht, ho⟩ : st.type = .content ∧ OpenText src cur := by
    have := h.shape; simp only [Shape, hs] at this; exact this
  have hpd : pend st = [] := by simp only [pend, hs]
  have hbr := h.br
  rw [hpd] at hbr
  simp only [blockStartCleaner]
  split
  · rename_i he
    refine ⟨?_, ?_, ?_, ?_, ?_, trimPrevious_ok h.nodes, ?_, ht, ho.snoc hc (by rw [he]; decide)⟩
    any_goals bounds h
    simp only [pend]
    rw [List.map_reverse, trimPrevious_types, ← List.map_reverse]
    exact hbr
  · refine blockStart_good hc ⟨h.start_le, h.stop_le, h.op_le, h.start2_le, h.end2_le, h.nodes, ?_, ht, ho⟩ rfl
    exact hbr

theorem openIf_good (h : Inv src cur st) (hs : st.state = .blockType) (k : NodeType) (hk : isIf k = true) :
    Good src (cur + 1) (openIf cur st k) := by
  have hpd : pend st = [] := by simp only [pend, hs]
  refine good_go (h.enter ?_ ?_ ?_ ?_ ?_ rfl hpd ?_ hk)
  any_goals bounds h
  cases k <;> first | rfl | cases hk

omit hc in
theorem ifOpen_lt (hb : st.br.ifOpen) : (absBr st.br).base < (absBr st.br).ifs := by
  rcases hb with ⟨hb, hb'⟩ | ⟨hb, hb'⟩ <;> simp only [absBr, hb, A.base] <;> exact hb'

theorem statementOf_good (h : Inv src cur st) (hs : st.state = .blockType) (hsp : isSpace c = true)
    (k : NodeType) : Good src (cur + 1) (statementOf cur st k) := by
  obtain ⟨ht, ho⟩ : st.type = .content ∧ OpenText src cur := by
    have := h.shape; simp only [Shape, hs] at this; exact this
  have hpd : pend st = [] := by simp only [pend, hs]
  have ho' := ho.snoc hc (space_not_percent hsp)
  cases k <;> simp only [statementOf]
  case ifdef | ifndef | if_ => exact openIf_good hc h hs _ rfl
  case «variable» | content => exact good_fail
  case block =>
    split
    · rename_i hb
      refine good_go (h.enter ?_ ?_ ?_ ?_ ?_ rfl hpd ?_ ⟨rfl, hb, rfl, rfl⟩)
      any_goals bounds h
      simp only [pend, A.run, absBr, hb]; rfl
    · exact good_fail
  case endblock =>
    split
    · rename_i hb
      split
      · exact good_fail
      split
      · exact good_fail
      rename_i h1 h2
      refine good_go (h.enter ?_ ?_ ?_ ?_ ?_ rfl hpd ?_ ho')
      any_goals bounds h
      simp only [pend, A.run, A.next]
      rw [if_pos]
      · rfl
      · refine ⟨by simp [absBr, hb], ?_, ?_⟩
        · simp only [absBr, hb, A.base]; exact Classical.not_not.mp h1
        · simp only [absBr, hb, A.held]; exact h2
    · exact good_fail
  case else_ =>
    split
    · rename_i hb
      split
      · refine good_go (h.enter ?_ ?_ ?_ ?_ ?_ rfl hpd ?_ ho')
        any_goals bounds h
        simp only [pend, A.run, A.next]
        rw [if_pos (ifOpen_lt hb)]; rfl
      · exact good_fail
    · exact good_fail
  case endif =>
    split
    · rename_i hb
      refine good_go (h.enter ?_ ?_ ?_ ?_ ?_ rfl hpd ?_ ho')
      any_goals bounds h
      simp only [pend, A.run, A.next]
      rw [if_pos (ifOpen_lt hb)]; rfl
    · exact good_fail
  case foreach =>
    split
    · rename_i hb
      refine good_go (h.enter ?_ ?_ ?_ ?_ ?_ rfl hpd ?_ rfl)
      any_goals bounds h
      simp only [pend, A.run, A.next, absBr, hb]; rfl
    · exact good_fail
  case endforeach =>
    split
    · rename_i hb
      refine good_go (h.enter ?_ ?_ ?_ ?_ ?_ rfl hpd ?_ ho')
      any_goals bounds h
      simp only [pend, A.run, A.next]
      rw [if_pos]
      · rfl
      · rcases hb with ⟨hb, hb1, hb2⟩ | ⟨hb, hb2⟩
        · exact ⟨hb2, by simp only [absBr, hb, A.held]; exact hb1⟩
        · exact ⟨hb2, by simp only [absBr, hb, A.held]; rfl⟩
    · exact good_fail

theorem statement_good (h : Inv src cur st) (hs : st.state = .blockType) (hsp : isSpace c = true) (w : Str) :
    Good src (cur + 1) (statement cur st w) := by
  simp only [statement]
  split
  · exact statementOf_good hc h hs hsp _
  · exact good_fail

theorem blockType_good (h : Inv src cur st) (hs : st.state = .blockType) :
    Good src (cur + 1) (blockType src cur st c) := by
  obtain ⟨ht, ho⟩ : st.type = .content ∧ OpenText src cur := by
    have := h.shape; simp only [Shape, hs] at this; exact this
  simp only [blockType]
  split
  · rename_i hl
    refine good_go (h.stay ?_ ?_ ?_ ?_ ?_ rfl rfl rfl ?_)
    any_goals bounds h
    simp only [Shape, hs]; exact ⟨ht, ho.snoc hc (lower_not_percent hl)⟩
  split
  · rename_i hsp
    rw [dup_eq h.start_le (Nat.le_of_lt (lt_of_get hc))]
    exact statement_good hc h hs hsp _
  exact good_fail

theorem blockBlockTypeStart_good (h : Inv src cur st) (hs : st.state = .blockBlockTypeStart) :
    Good src (cur + 1) (blockBlockTypeStart cur st c) := by
  have hsh := h.shape
  simp only [Shape, hs] at hsh
  have hpd : pend st = [] := by simp only [pend, hs]
  simp only [blockBlockTypeStart]
  split
  · refine good_go (h.stay ?_ ?_ ?_ ?_ ?_ rfl rfl rfl ?_)
    any_goals bounds h
    simp only [Shape, hs]; exact hsh
  split
  · refine good_go (h.stay ?_ ?_ ?_ ?_ ?_ rfl hpd.symm rfl hsh)
    all_goals bounds h
  exact good_fail

theorem blockBlockType_good (h : Inv src cur st) (hs : st.state = .blockBlockType) :
    Good src (cur + 1) (blockBlockType src cur st c) := by
  have hsh := h.shape
  simp only [Shape, hs] at hsh
  have hpd : pend st = [] := by simp only [pend, hs]
  simp only [blockBlockType]
  split
  · refine good_go (h.stay ?_ ?_ ?_ ?_ ?_ rfl rfl rfl ?_)
    any_goals bounds h
    simp only [Shape, hs]; exact hsh
  split
  · rw [dup_eq h.start_le (Nat.le_of_lt (lt_of_get hc))]
    simp only [Res.bind, blockOf]
    obtain ⟨h1, h2, h3, h4⟩ := hsh
    split
    · rename_i hw
      refine good_go (h.enter ?_ ?_ ?_ ?_ ?_ rfl hpd ?_ ?_)
      any_goals bounds h
      · simp only [pend, A.run, h1, A.next]
        rw [if_pos (by simp [absBr, h2])]
        simp only [absBr, h3, h4]; rfl
      · simp only [Shape, Ready, h1]; exact hw
    · exact good_fail
  exact good_fail

theorem ifStart_good (h : Inv src cur st) (hs : st.state = .ifStart) :
    Good src (cur + 1) (ifStart cur st c) := by
  have hsh := h.shape
  simp only [Shape, hs] at hsh
  have hpd : pend st = [st.type] := by simp only [pend, hs]
  simp only [ifStart]
  split
  · refine good_go (h.stay ?_ ?_ ?_ ?_ ?_ rfl rfl rfl ?_)
    any_goals bounds h
    simp only [Shape, hs]; exact hsh
  split
  · rename_i hu
    refine good_go (h.stay ?_ ?_ ?_ ?_ ?_ rfl hpd.symm rfl ⟨hsh, ?_⟩)
    any_goals bounds h
    simp only; rw [slice_one hc]; exact .one hu
  exact good_fail

theorem ifVariable_good (h : Inv src cur st) (hs : st.state = .ifVariable) :
    Good src (cur + 1) (ifVariable cur st c) := by
  obtain ⟨h1, h2⟩ : isIf st.type = true ∧ IsName (slice src st.start cur) := by
    have := h.shape; simp only [Shape, hs] at this; exact this
  have hpd : pend st = [st.type] := by simp only [pend, hs]
  simp only [ifVariable]
  split
  · rename_i hn
    refine good_go (h.stay ?_ ?_ ?_ ?_ ?_ rfl rfl rfl ?_)
    any_goals bounds h
    simp only [Shape, hs]; rw [slice_snoc h.start_le hc]; exact ⟨h1, h2.snoc hn⟩
  split
  · by_cases ht : st.type = .if_
    · rw [if_pos ht]
      refine good_go (h.stay ?_ ?_ ?_ ?_ ?_ rfl hpd.symm rfl ⟨ht, h2⟩)
      all_goals bounds h
    · rw [if_neg ht]
      refine good_go (h.stay ?_ ?_ ?_ ?_ ?_ rfl hpd.symm rfl ?_)
      any_goals bounds h
      simp only [Shape, Ready]
      cases he : st.type <;> rw [he] at h1 ht <;> first | exact h2 | exact absurd rfl ht | cases h1
  exact good_fail

theorem ifOperatorStart_good (h : Inv src cur st) (hs : st.state = .ifOperatorStart) :
    Good src (cur + 1) (ifOperatorStart cur st c) := by
  have hsh := h.shape
  simp only [Shape, hs] at hsh
  have hpd : pend st = [st.type] := by simp only [pend, hs]
  simp only [ifOperatorStart]
  split
  · refine good_go (h.stay ?_ ?_ ?_ ?_ ?_ rfl rfl rfl ?_)
    any_goals bounds h
    simp only [Shape, hs]; exact hsh
  · refine good_go (h.stay ?_ ?_ ?_ ?_ ?_ rfl hpd.symm rfl ⟨hsh.1, hsh.2, Nat.lt_succ_self _⟩)
    all_goals bounds h

theorem ifOperator_good (h : Inv src cur st) (hs : st.state = .ifOperator) :
    Good src (cur + 1) (ifOperator cur st c) := by
  have hsh := h.shape
  simp only [Shape, hs] at hsh
  have hpd : pend st = [st.type] := by simp only [pend, hs]
  simp only [ifOperator]
  split
  · refine good_go (h.stay ?_ ?_ ?_ ?_ ?_ rfl rfl rfl ?_)
    any_goals bounds h
    simp only [Shape, hs]; exact ⟨hsh.1, hsh.2.1, Nat.lt_succ_of_lt hsh.2.2⟩
  · refine good_go (h.stay ?_ ?_ ?_ ?_ ?_ rfl hpd.symm rfl hsh)
    all_goals bounds h

theorem ifOperandStart_good (h : Inv src cur st) (hs : st.state = .ifOperandStart) :
    Good src (cur + 1) (ifOperandStart cur st c) := by
  have hsh := h.shape
  simp only [Shape, hs] at hsh
  obtain ⟨h1, h2, h3⟩ := hsh
  have hpd : pend st = [st.type] := by simp only [pend, hs]
  simp only [ifOperandStart]
  split
  · refine good_go (h.stay ?_ ?_ ?_ ?_ ?_ rfl rfl rfl ?_)
    any_goals bounds h
    simp only [Shape, hs]; exact ⟨h1, h2, h3⟩
  split
  · rename_i hu
    refine good_go (h.stay ?_ ?_ ?_ ?_ ?_ rfl hpd.symm rfl ⟨h1, h2, h3, ?_⟩)
    any_goals bounds h
    simp only; rw [slice_one hc]; exact .one hu
  split
  · rename_i he
    refine good_go (h.stay ?_ ?_ ?_ ?_ ?_ rfl hpd.symm rfl ⟨h1, h2, h3, [], ?_⟩)
    any_goals bounds h
    simp only; rw [slice_one hc, he]
  exact good_fail

theorem ifStringOperand_good (h : Inv src cur st) (hs : st.state = .ifStringOperand) :
    Good src (cur + 1) (ifStringOperand src cur st c) := by
  have hsh := h.shape
  simp only [Shape, hs] at hsh
  obtain ⟨h1, h2, h3, r, h4⟩ := hsh
  have hpd : pend st = [st.type] := by simp only [pend, hs]
  have hsl : slice src st.start2 (cur + 1) = c!"\"" :: (r ++ [c]) := by
    rw [slice_snoc h.start2_le hc, h4]; rfl
  have hsame : Good src (cur + 1) (go st) := by
    refine good_go (h.stay ?_ ?_ ?_ ?_ ?_ rfl rfl rfl ?_)
    any_goals bounds h
    simp only [Shape, hs]; exact ⟨h1, h2, h3, _, hsl⟩
  simp only [ifStringOperand]
  split
  · exact hsame
  split
  · rename_i h0
    subst h0
    simp [slice] at h4
  split
  · exact hsame
  · refine good_go (h.stay ?_ ?_ ?_ ?_ ?_ rfl hpd.symm rfl ?_)
    any_goals bounds h
    simp only [Shape, Ready, h1]
    refine ⟨h2, h3, Or.inr ⟨cstr (r ++ [c]), ?_⟩⟩
    rw [hsl]; rfl

theorem ifVariableOperand_good (h : Inv src cur st) (hs : st.state = .ifVariableOperand) :
    Good src (cur + 1) (ifVariableOperand cur st c) := by
  have hsh := h.shape
  simp only [Shape, hs] at hsh
  obtain ⟨h1, h2, h3, h4⟩ := hsh
  have hpd : pend st = [st.type] := by simp only [pend, hs]
  simp only [ifVariableOperand]
  split
  · rename_i hn
    refine good_go (h.stay ?_ ?_ ?_ ?_ ?_ rfl rfl rfl ?_)
    any_goals bounds h
    simp only [Shape, hs]; rw [slice_snoc h.start2_le hc]; exact ⟨h1, h2, h3, h4.snoc hn⟩
  · refine good_go (h.stay ?_ ?_ ?_ ?_ ?_ rfl hpd.symm rfl ?_)
    any_goals bounds h
    simp only [Shape, Ready, h1]
    exact ⟨h2, h3, Or.inl (by rw [h4.cstr]; exact h4)⟩

theorem foreachStart_good (h : Inv src cur st) (hs : st.state = .foreachStart) :
    Good src (cur + 1) (foreachStart cur st c) := by
  have hsh := h.shape
  simp only [Shape, hs] at hsh
  have hpd : pend st = [st.type] := by simp only [pend, hs]
  simp only [foreachStart]
  split
  · refine good_go (h.stay ?_ ?_ ?_ ?_ ?_ rfl rfl rfl ?_)
    any_goals bounds h
    simp only [Shape, hs]; exact hsh
  split
  · rename_i hu
    refine good_go (h.stay ?_ ?_ ?_ ?_ ?_ rfl hpd.symm rfl ⟨hsh, ?_⟩)
    any_goals bounds h
    simp only; rw [slice_one hc]; exact .one hu
  exact good_fail

theorem foreachVariable_good (h : Inv src cur st) (hs : st.state = .foreachVariable) :
    Good src (cur + 1) (foreachVariable cur st c) := by
  obtain ⟨h1, h2⟩ : st.type = .foreach ∧ IsName (slice src st.start cur) := by
    have := h.shape; simp only [Shape, hs] at this; exact this
  have hpd : pend st = [st.type] := by simp only [pend, hs]
  simp only [foreachVariable]
  split
  · rename_i hn
    refine good_go (h.stay ?_ ?_ ?_ ?_ ?_ rfl rfl rfl ?_)
    any_goals bounds h
    simp only [Shape, hs]; rw [slice_snoc h.start_le hc]; exact ⟨h1, h2.snoc hn⟩
  split
  · refine good_go (h.stay ?_ ?_ ?_ ?_ ?_ rfl hpd.symm rfl ?_)
    any_goals bounds h
    simp only [Shape, Ready, h1]; exact h2
  exact good_fail

omit hc in
theorem Ready.mono {p q : Prop} {st' : St} (h : Ready src st p) (hpq : p → q)
    (e : st' = { st with state := st'.state, lstripNext := st'.lstripNext }) : Ready src st' q := by
  have e1 : st'.type = st.type := by rw [e]
  have e2 : st'.start = st.start := by rw [e]
  have e3 : st'.stop = st.stop := by rw [e]
  have e4 : st'.opStart = st.opStart := by rw [e]
  have e5 : st'.opEnd = st.opEnd := by rw [e]
  have e6 : st'.start2 = st.start2 := by rw [e]
  have e7 : st'.end2 = st.end2 := by rw [e]
  simp only [Ready, e1, e2, e3, e4, e5, e6, e7] at h ⊢
  cases ht : st.type <;> simp only [ht] at h ⊢ <;> first | exact h | exact hpq h

theorem blockEnd_good (h : Inv src cur st) (hs : st.state = .blockEnd) :
    Good src (cur + 1) (blockEnd st c) := by
  have hsh := h.shape
  simp only [Shape, hs] at hsh
  have hpd : pend st = [st.type] := by simp only [pend, hs]
  simp only [blockEnd]
  split
  · rename_i he
    refine good_go (h.stay ?_ ?_ ?_ ?_ ?_ rfl hpd.symm rfl (Or.inl (hsh.mono ?_ rfl)))
    any_goals bounds h
    rintro ⟨a, b, h1, h2⟩
    exact ⟨a, b, by rw [take_snoc hc, h1, he]; simp, h2⟩
  split <;> exact good_fail

theorem blockEndCleaner_good (h : Inv src cur st) (hs : st.state = .blockEndCleaner) :
    Good src (cur + 1) (blockEndCleaner st c) := by
  have hsh := h.shape
  simp only [Shape, hs] at hsh
  have hpd : pend st = [st.type] := by simp only [pend, hs]
  simp only [blockEndCleaner]
  split
  · rename_i hsp
    refine good_go (h.stay ?_ ?_ ?_ ?_ ?_ rfl rfl rfl ?_)
    any_goals bounds h
    simp only [Shape, hs]
    exact hsh.mono (fun ho => ho.snoc hc (space_not_percent hsp)) rfl
  split
  · rename_i he
    refine good_go (h.stay ?_ ?_ ?_ ?_ ?_ rfl hpd.symm rfl ?_)
    any_goals bounds h
    exact hsh.mono (fun ho => ho.snoc hc (by rw [he]; decide)) rfl
  · refine blockEnd_good hc ⟨h.start_le, h.stop_le, h.op_le, h.start2_le, h.end2_le, h.nodes, ?_, ?_⟩ rfl
    · have := h.br; rw [hpd] at this; exact this
    · exact hsh.mono id rfl

theorem variableStart_good (h : Inv src cur st) (hs : st.state = .variableStart) :
    Good src (cur + 1) (variableStart cur st c) := by
  have hsh := h.shape
  simp only [Shape, hs] at hsh
  have hpd : pend st = [] := by simp only [pend, hs]
  simp only [variableStart]
  split
  · refine good_go (h.stay ?_ ?_ ?_ ?_ ?_ rfl rfl rfl ?_)
    any_goals bounds h
    simp only [Shape, hs]; exact hsh
  split
  · rename_i hu
    refine good_go (h.enter ?_ ?_ ?_ ?_ ?_ rfl hpd rfl ⟨rfl, ?_⟩)
    any_goals bounds h
    simp only; rw [slice_one hc]; exact .one hu
  exact good_fail

theorem variable_good (h : Inv src cur st) (hs : st.state = .variable) :
    Good src (cur + 1) (variable_ cur st c) := by
  obtain ⟨h1, h2⟩ : st.type = .variable ∧ IsName (slice src st.start cur) := by
    have := h.shape; simp only [Shape, hs] at this; exact this
  have hpd : pend st = [st.type] := by simp only [pend, hs]
  simp only [variable_]
  split
  · rename_i hn
    refine good_go (h.stay ?_ ?_ ?_ ?_ ?_ rfl rfl rfl ?_)
    any_goals bounds h
    simp only [Shape, hs]; rw [slice_snoc h.start_le hc]; exact ⟨h1, h2.snoc hn⟩
  split
  · refine good_go (h.stay ?_ ?_ ?_ ?_ ?_ rfl hpd.symm rfl ⟨h1, h2⟩)
    all_goals bounds h
  split
  · refine good_go (h.stay ?_ ?_ ?_ ?_ ?_ rfl hpd.symm rfl (Or.inr ⟨h1, h2⟩))
    all_goals bounds h
  exact good_fail

theorem variableEnd_good (h : Inv src cur st) (hs : st.state = .variableEnd) :
    Good src (cur + 1) (variableEnd st c) := by
  have hsh := h.shape
  simp only [Shape, hs] at hsh
  have hpd : pend st = [st.type] := by simp only [pend, hs]
  simp only [variableEnd]
  split
  · refine good_go (h.stay ?_ ?_ ?_ ?_ ?_ rfl rfl rfl ?_)
    any_goals bounds h
    simp only [Shape, hs]; exact hsh
  split
  · refine good_go (h.stay ?_ ?_ ?_ ?_ ?_ rfl hpd.symm rfl (Or.inr hsh))
    all_goals bounds h
  exact good_fail

omit hc in
theorem slice_lt {a b : Nat} (h : slice src a b ≠ []) : a < b := by
  apply Classical.byContradiction
  intro hn
  apply h
  simp [slice, show b - a = 0 by omega]

omit hc in
theorem dupIf_eq {a b : Nat} (h2 : b ≤ src.length) :
    dupIf src a b = .ok (if a < b then some (cstr (slice src a b)) else none) := by
  simp only [dupIf]
  split
  · rename_i h
    rw [dup_eq (Nat.le_of_lt h) h2]; rfl
  · rfl

theorem addNode_good (h : Inv src cur st) (hs : st.state = .closeBracket) (st' : St) (op : Op)
    (e : st' = st ∨ st' = { st with opStart := 0, opEnd := 0 })
    (hop : st.opStart < st.opEnd → op ≠ .none) : Good src (cur + 1) (addNode src cur st' op) := by
  have hlt := lt_of_get hc
  have hsh := h.shape
  simp only [Shape, hs] at hsh
  have hpd : pend st = [st.type] := by simp only [pend, hs]
  have e1 : st'.type = st.type := by rcases e with rfl | rfl <;> rfl
  have e2 : st'.start = st.start := by rcases e with rfl | rfl <;> rfl
  have e3 : st'.stop = st.stop := by rcases e with rfl | rfl <;> rfl
  have e4 : st'.start2 = st.start2 := by rcases e with rfl | rfl <;> rfl
  have e5 : st'.end2 = st.end2 := by rcases e with rfl | rfl <;> rfl
  have e6 : st'.ast = st.ast := by rcases e with rfl | rfl <;> rfl
  have e7 : st'.br = st.br := by rcases e with rfl | rfl <;> rfl
  have e8 : st'.opEnd ≤ cur := by rcases e with rfl | rfl; exact h.op_le; exact Nat.zero_le _
  have l1 : st.stop ≤ src.length := by have := h.stop_le; omega
  have l2 : st.end2 ≤ src.length := by have := h.end2_le; omega
  simp only [addNode, e1, e2, e3, e4, e5, e6, dupIf_eq l1, dupIf_eq l2, Res.bind]
  refine good_go ⟨Nat.le_refl _, ?_, ?_, ?_, ?_, ?_, ?_, rfl⟩
  · bounds h
  · simp only; omega
  · simp only; split <;> bounds h
  · simp only; split <;> bounds h
  · intro n hn
    rcases List.mem_cons.mp hn with rfl | hn
    · rcases hsh with hr | ⟨ht, hname⟩
      · simp only [Ready] at hr
        simp only [NodeOk]
        cases ht : st.type <;> simp only [ht] at hr ⊢
        case ifdef | ifndef | foreach =>
          exact ⟨_, if_pos (slice_lt hr.ne_nil), by rw [hr.cstr]; exact hr⟩
        case if_ =>
          obtain ⟨r1, r2, r3⟩ := hr
          refine ⟨hop r2, ⟨_, if_pos (slice_lt r1.ne_nil), by rw [r1.cstr]; exact r1⟩,
            ⟨_, if_pos (slice_lt (src := src) ?_), r3⟩⟩
          intro h0
          rw [h0] at r3
          rcases r3 with r3 | ⟨r, r3⟩
          · exact r3.ne_nil rfl
          · cases r3
        case block =>
          refine ⟨_, hr, if_pos (slice_lt (src := src) ?_)⟩
          intro h0
          rw [h0] at hr
          revert hr; decide
      · simp only [NodeOk, ht]
        exact ⟨_, if_pos (slice_lt hname.ne_nil), by rw [hname.cstr]; exact hname⟩
    · exact h.nodes n hn
  · have := h.br
    rw [hpd] at this
    simp only [pend, List.append_nil, List.reverse_cons, List.map_append, List.map_cons, List.map_nil]
    rw [e7]
    exact this

theorem closeBracket_good (h : Inv src cur st) (hs : st.state = .closeBracket) :
    Good src (cur + 1) (closeBracket src cur st c) := by
  have hlt := lt_of_get hc
  simp only [closeBracket]
  split
  · split
    · rw [if_pos (by have := h.op_le; omega)]
      split
      · exact good_fail
      · rename_i hne
        exact addNode_good hc h hs _ _ (Or.inr rfl) fun _ => hne
    · rename_i hno
      exact addNode_good hc h hs _ _ (Or.inl rfl) fun hx => absurd hx hno
  · exact good_fail

theorem step_good (h : Inv src cur st) : Good src (cur + 1) (step src cur st c) := by
  simp only [step]
  cases hs : st.state <;> simp only
  · exact start_good hc h hs
  · exact openBracket_good hc h hs
  · exact blockStart_good hc h hs
  · exact blockStartCleaner_good hc h hs
  · exact blockType_good hc h hs
  · exact blockBlockTypeStart_good hc h hs
  · exact blockBlockType_good hc h hs
  · exact ifStart_good hc h hs
  · exact ifVariable_good hc h hs
  · exact ifOperatorStart_good hc h hs
  · exact ifOperator_good hc h hs
  · exact ifOperandStart_good hc h hs
  · exact ifStringOperand_good hc h hs
  · exact ifVariableOperand_good hc h hs
  · exact foreachStart_good hc h hs
  · exact foreachVariable_good hc h hs
  · exact blockEndCleaner_good hc h hs
  · exact blockEnd_good hc h hs
  · exact variableStart_good hc h hs
  · exact variable_good hc h hs
  · exact variableEnd_good hc h hs
  · exact closeBracket_good hc h hs

end steps

/-- The parser never leaves the text, and a template is accepted in a state that satisfies the
invariant. -/
theorem loop_good {src : Str} {cur : Nat} {st : St} {rest : Str} (hr : src.drop cur = rest)
    (h : Inv src cur st) :
    ∃ r, loop src rest cur st = .ok r ∧ ∀ ns, r = .ok ns →
      ∃ cur' st', src.length ≤ cur' ∧ Inv src cur' st' ∧ finish st' = .ok ns := by
  induction rest generalizing cur st with
  | nil =>
    refine ⟨_, rfl, fun ns hns => ⟨cur, st, List.drop_eq_nil_iff.mp hr, h, ?_⟩⟩
    cases hf : finish st with
    | error e => rw [hf] at hns; cases hns
    | ok l =>
      rw [hf] at hns
      injection hns with e
      rw [e]
  | cons c rest ih =>
    have hc : src[cur]? = some c := by
      have : (src.drop cur)[0]? = some c := by rw [hr]; rfl
      rw [List.getElem?_drop] at this
      exact this
    have hr' : src.drop (cur + 1) = rest := by
      rw [← List.drop_drop, hr]; rfl
    have hg := step_good hc h
    simp only [loop]
    cases hst : step src cur st c with
    | ub => rw [hst] at hg; exact hg.elim
    | ok x =>
      cases x with
      | error e => exact ⟨_, rfl, fun ns hns => nomatch hns⟩
      | ok st' =>
        rw [hst] at hg
        exact ih hr' hg

theorem inv_init (src : Str) : Inv src 0 {} :=
  ⟨Nat.le_refl _, Nat.le_refl _, Nat.le_refl _, Nat.le_refl _, Nat.le_refl _, (fun n hn => nomatch hn), rfl, rfl⟩

theorem parse_ok (src : Str) : ∃ r, parse src = .ok r := by
  obtain ⟨r, hr, _⟩ := loop_good (src := src) (rest := src) rfl (inv_init src)
  exact ⟨r.mapError Report.err, by rw [parse, diagnose, hr]; rfl⟩

/-- The parser accepts what `parse` accepts. -/
theorem parse_diagnose {src : Str} {ns : List Node} : parse src = .ok (.ok ns) ↔ diagnose src = .ok (.ok ns) := by
  unfold parse
  cases diagnose src with
  | ub => exact ⟨(fun h => by cases h), (fun h => by cases h)⟩
  | ok r =>
    cases r with
    | error e => exact ⟨(fun h => by cases h), (fun h => by cases h)⟩
    | ok l =>
      constructor
      · intro h
        injection h with h
        injection h with h
        rw [h]
      · intro h
        injection h with h
        injection h with h
        rw [h]
        rfl

theorem parse_final {src : Str} {ns : List Node} (h : parse src = .ok (.ok ns)) :
    ∃ cur st, src.length ≤ cur ∧ Inv src cur st ∧ finish st = .ok ns := by
  obtain ⟨r, hr, hk⟩ := loop_good (src := src) (rest := src) rfl (inv_init src)
  rw [parse_diagnose, diagnose, hr] at h
  injection h with h
  exact hk ns h

/-- The statement being read when the text ends, if the template is accepted. -/
theorem final_pend {src : Str} {cur : Nat} {st : St} {ns : List Node} (hl : src.length ≤ cur)
    (h : Inv src cur st) (hf : finish st = .ok ns) :
    ns = st.ast.reverse ∧
    ((∃ c : A, c.Empty ∧ A.run {} (ns.map Node.type) = some c) ∨
      ∃ k, (k = .endif ∨ k = .endforeach ∨ k = .endblock) ∧
        (∃ c : A, c.Empty ∧ A.run {} (ns.map Node.type ++ [k]) = some c) ∧
        (OpenText src cur ∨ OpenPercent src cur)) := by
  simp only [finish] at hf
  split at hf
  · cases hf
  split at hf
  · cases hf
  split at hf
  · cases hf
  split at hf
  · cases hf
  rename_i hstr hif hblk hfe
  injection hf with hf
  refine ⟨hf.symm, ?_⟩
  have hE : (absBr st.br).Empty := by
    refine ⟨Classical.not_not.mp hif, ?_, Bool.eq_false_iff.mpr hfe⟩
    simp [absBr, Bool.eq_false_iff.mpr hblk]
  have hbr := h.br
  rw [hf] at hbr
  by_cases hp : pend st = []
  · left; rw [hp, List.append_nil] at hbr; exact ⟨_, hE, hbr⟩
  have hp' : pend st = [st.type] := by
    simp only [pend] at hp ⊢
    cases hs : st.state <;> rw [hs] at hp <;> first | rfl | exact absurd rfl hp
  rw [hp'] at hbr
  have key : (∃ a, A.run {} (ns.map Node.type) = some a ∧ a.next st.type = some (absBr st.br)) := by
    obtain ⟨a, h1, h2⟩ := A.run_split hbr
    exact ⟨a, h1, A.run_single h2⟩
  obtain ⟨a, h1, h2⟩ := key
  obtain ⟨z1, z2, z3⟩ := hE
  have hsh := h.shape
  have ender : (st.type = .endif ∨ st.type = .endforeach ∨ st.type = .endblock) →
      OpenText src cur ∨ OpenPercent src cur := by
    intro ht
    simp only [Shape] at hsh
    cases hs : st.state <;> simp only [hs] at hsh <;>
      rcases ht with ht | ht | ht <;> simp only [Ready, ht, isIf] at hsh <;>
      first
        | exact Or.inl hsh
        | (rcases hsh with hsh | hsh; exact Or.inr hsh; exact nomatch hsh.1)
        | exact nomatch hsh.1
        | (exfalso; revert hsh; decide)
  cases ht : st.type <;> rw [ht] at h2 hbr <;> simp only [A.next] at h2
  case ifdef | ifndef | if_ => injection h2 with h2; rw [← h2] at z1; cases z1
  case else_ =>
    split at h2
    · injection h2 with h2; rw [← h2] at z1; omega
    · cases h2
  case endif => exact Or.inr ⟨_, Or.inl rfl, ⟨_, ⟨z1, z2, z3⟩, hbr⟩, ender (Or.inl ht)⟩
  case endforeach => exact Or.inr ⟨_, Or.inr (Or.inl rfl), ⟨_, ⟨z1, z2, z3⟩, hbr⟩, ender (Or.inr (Or.inl ht))⟩
  case endblock => exact Or.inr ⟨_, Or.inr (Or.inr rfl), ⟨_, ⟨z1, z2, z3⟩, hbr⟩, ender (Or.inr (Or.inr ht))⟩
  case foreach =>
    split at h2
    · injection h2 with h2; rw [← h2] at z3; cases z3
    · cases h2
  case block =>
    split at h2
    · injection h2 with h2; rw [← h2] at z2; cases z2
    · cases h2
  case «variable» | content => injection h2 with h2; left; exact ⟨_, ⟨z1, z2, z3⟩, by rw [← h2]; exact h1⟩

theorem complete_not_open {src : Str} {cur : Nat} (hl : src.length ≤ cur) (hc : Complete src) :
    ¬ (OpenText src cur ∨ OpenPercent src cur) := by
  have ht : src.take cur = src := List.take_of_length_le hl
  rintro (⟨a, b, h1, h2⟩ | ⟨a, b, h1, h2⟩)
  · rw [ht] at h1
    exact h2 ((hc a b h1).subset (by simp))
  · rw [ht] at h1
    obtain ⟨x, y, hxy⟩ := hc a _ h1
    rcases List.eq_nil_or_concat y with rfl | ⟨y', z, rfl⟩
    · have := congrArg List.getLast? hxy
      simp at this
    · have e : (x ++ b!"%}" ++ y') ++ [z] = b ++ b!"%" := by
        rw [← hxy]; simp
      have := (List.append_inj' e rfl).1
      exact h2 (by rw [← this]; simp)

theorem complete_of {src : Str}
    (h : ∀ i ≤ src.length, (src.drop i).take 2 = b!"{%" → ∃ j ≤ src.length, (src.drop (i + 2 + j)).take 2 = b!"%}") :
    Complete src := by
  intro a b e
  obtain ⟨j, _, hj⟩ := h a.length (by rw [e]; simp) (by rw [e]; simp)
  have hd : src.drop (a.length + 2 + j) = b.drop j := by
    rw [e, ← List.drop_drop]; simp
  rw [hd] at hj
  exact ⟨b.take j, (b.drop j).drop 2, by rw [← hj, List.append_assoc, List.take_append_drop, List.take_append_drop]⟩

end Blogc.Template
