import Verif.Lemmas.MistakesMain
import Verif.Lemmas.ErrorText

/-!
# C106: mistakes in templates are reported for what they are, where they are
-/

namespace Blogc.C106

open Blogc Blogc.Template Blogc.Doc Blogc.Tokens Blogc.Spec Blogc.Spec.Mistakes

/-! ### The report -/

/-- The template is fine up to some point and goes wrong there: the report says what is wrong, at the position of the
mistake, whatever follows. -/
theorem reported {ts : List Tok} {p : Place} {bad : Str} {n : Nat} {e : Err} (hf : Fine ts) (hp : after {} ts = some p)
    (hm : Mistake p bad n e) (rest : Str) :
    diagnose (print ts ++ bad ++ rest) = .ok (.error (reportOf p ((print ts).length + n) e)) := by
  have hne : bad ++ rest ≠ [] := by
    cases hm <;> simp [opening]
  obtain ⟨pre, s, stop, br, ast, ls, h1, h2, h3, h4, _, h6⟩ := read_prefix (src := print ts ++ bad ++ rest)
    (tail := bad ++ rest) ts [] [] 0 {} {} [] false (by simp) (fun _ h => nomatch h) hf (fun h => absurd rfl h)
    (Or.inl hne) hp agrees_start (fun k hk => by cases hk)
  have hl : pre.length + s.length = (print ts).length := by
    have := congrArg List.length h1
    simp at this; omega
  have := fails (stop := stop) (ls := ls) hm (src := print ts ++ bad ++ rest) (q := pre.length) (s := s) (rest := rest)
    (by rw [h1]; simp) h2 h3 h4
  rw [hl] at this
  rw [hl] at h6
  exact h6.trans this

/-- The template ends and something is still open. -/
theorem unfinished_reported {ts : List Tok} {p : Place} {s : Str} {e : Err} (hf : Fine ts) (hp : after {} ts = some p)
    (hl : ∀ s', ts.getLast? ≠ some (.text s')) (hs : s = [] ∨ (TextOk s ∧ TextEnd s [])) (hu : Unfinished p e) :
    diagnose (print ts ++ s) = .ok (.error (reportOf p (print ts ++ s).length e)) := by
  obtain ⟨pre, s', stop, br, ast, ls, h1, h2, h3, h4, h5, h6⟩ := read_prefix (src := print ts ++ s)
    (tail := s) ts [] [] 0 {} {} [] false (by simp) (fun _ h => nomatch h) hf (fun h => absurd rfl h)
    (Or.inr hl) hp agrees_start (fun k hk => by cases hk)
  obtain rfl : s' = [] := h5 (Or.inl rfl) hl
  rw [List.append_nil] at h1
  have key : ∀ st : St, st.br = br → st.state ≠ .ifStringOperand →
      (finish st).mapError (report st (print ts ++ s).length) = .error (reportOf p (print ts ++ s).length e) := by
    intro st hb hst
    have hc : p.opened.countP Opened.isCond = st.br.ifCount := by rw [hb, h3.ifs]
    cases hu with
    | conds h =>
      rw [countP_any, hc] at h
      rw [finish, if_neg hst, if_pos (by omega)]
      simp only [Except.mapError, report, reportOf, message, wording, place, hc]
      rfl
    | block h h' =>
      rw [any_false, hc] at h
      rw [finish, if_neg hst, if_neg (by omega), if_pos (by rw [hb, h3.block, h'])]
      rfl
    | loop h h' h'' =>
      rw [any_false, hc] at h
      rw [finish, if_neg hst, if_neg (by omega), if_neg (by rw [hb, h3.block, h']; decide),
        if_pos (by rw [hb, h3.loops, h''])]
      rfl
  refine h6.trans ?_
  rw [List.length_nil, Nat.add_zero]
  rcases hs with rfl | ⟨ht, he⟩
  · have hd : (print ts ++ []).drop pre.length = [] := by rw [h1]; simp
    have hlen : pre.length = (print ts ++ []).length := by rw [h1]; simp
    rw [runAt, hd, loop, hlen, key _ rfl (by simp [between])]
  · obtain ⟨st', e1, e2, _, e4⟩ := text_final (stop := stop) (br := br) (ast := ast) (ls := ls) h1 ht he
    rw [e1, key st' e2 e4]

/-- The template ends within a quoted string: the report gives the position of the quote. -/
theorem open_string_reported {ts : List Tok} {p : Place} {l : Bool} {a g n b op d s : Str} (hf : Fine ts)
    (hp : after {} ts = some p) (ha : Blank a) (hg : Gap g) (hn : IsName n) (hb : Gap b) (hop : op ≠ [])
    (hsp : ∀ x ∈ op, ¬ Space x) (hd : Gap d) (hq : ∀ u v, s = u ++ c!"\"" :: v → u.getLast? = some c!"\\") :
    diagnose (print ts ++ (opening l a ++ b!"if" ++ g ++ n ++ b ++ op ++ d) ++ b!"\"" ++ s) =
      .ok (.error (reportOf p (print ts ++ (opening l a ++ b!"if" ++ g ++ n ++ b ++ op ++ d)).length .openString)) := by
  generalize hu : opening l a ++ b!"if" ++ g ++ n ++ b ++ op ++ d = u
  have hne : u ++ b!"\"" ++ s ≠ [] := by simp
  obtain ⟨pre, s', stop, br, ast, ls, h1, h2, h3, h4, _, h6⟩ := read_prefix (src := print ts ++ u ++ b!"\"" ++ s)
    (tail := u ++ b!"\"" ++ s) ts [] [] 0 {} {} [] false (by simp) (fun _ h => nomatch h) hf (fun h => absurd rfl h)
    (Or.inl hne) hp agrees_start (fun k hk => by cases hk)
  have hlen : pre.length + s'.length = (print ts).length := by
    have := congrArg List.length h1
    simp at this; omega
  have hdrop : (print ts ++ u ++ b!"\"" ++ s).drop pre.length = s' ++ (u ++ (b!"\"" ++ s)) := by rw [h1]; simp
  obtain ⟨st, e1, e2, _⟩ := to_operand (src := print ts ++ u ++ b!"\"" ++ s) (stop := stop) (br := br) (ast := ast) (ls := ls)
    (l := l) (a := a) (g := g) (n := n) (b := b) (op := op) (d := d) (rest := b!"\"" ++ s) (by rw [hu, hdrop]) h2 ha hg hn hb
    hop hsp hd
  rw [hu] at e1
  have h7 : (print ts ++ u ++ b!"\"" ++ s).drop (pre.length + s'.length + u.length) = c!"\"" :: (s ++ []) := by
    rw [at2 hdrop]; simp
  have e3 := h6.trans (e1.trans (runAt_step (st' := { st with
    state := .ifStringOperand, start2 := pre.length + s'.length + u.length }) h7 (by
      simp only [step, e2, ifOperandStart]
      rw [if_neg (by decide), if_neg (by decide), if_pos trivial])))
  rw [quoted_stays rfl h7 hq] at e3
  refine e3.trans ?_
  have h8 : (print ts ++ u ++ b!"\"" ++ s).drop (pre.length + s'.length + u.length + 1 + s.length) = [] :=
    at_drop (at_drop1 h7)
  rw [runAt, h8, loop, finish, if_pos rfl]
  simp only [Except.mapError, report, reportOf, message, wording, place]
  rw [show pre.length + s'.length + u.length = (print ts ++ u).length by simp; omega]
  rfl

/-- A report with a position points into the template. -/
theorem position_inside {ts : List Tok} {p : Place} {bad : Str} {n : Nat} {e : Err} (hm : Mistake p bad n e) (rest : Str) :
    (print ts).length + n < (print ts ++ bad ++ rest).length := by
  cases hm <;> simp <;> omega

/-! ### What is printed -/

/-- The message with its line and column, and the line itself if the mistake is a character of it. -/
theorem printed {src : Str} {p : Place} {k : Nat} {c : Byte} {e : Err} (hs : src.length < 2 ^ 31 - 1) (hn : NulFree src)
    (hk : src[k]? = some c) (hc : c ≠ c!"\n" ∧ c ≠ c!"\r") (he : e ∉ unplaced) :
    complaint src (reportOf p k e) =
      .ok (b!"blogc: error: template: " ++ wording p e ++ b!"\nError occurred near line " ++ decNat (lineNumber src k) ++
        b!", position " ++ decNat (column src k) ++ b!": " ++ slice src (lineStart src k) (lineEnd src k) ++ b!"\n") := by
  rw [reportOf, if_neg he, complaint]
  simp only
  rw [errText_at hs hn hk hc]
  simp [Res.map, errPrint, errWords]

/-- The message alone if there is no position. -/
theorem printed_unplaced {src : Str} {p : Place} {k : Nat} {e : Err} (he : e ∈ unplaced) :
    complaint src (reportOf p k e) = .ok (b!"blogc: error: template: " ++ wording p e ++ b!"\n") := by
  rw [reportOf, if_pos he, complaint]
  rfl

/-- Whatever the byte is, the line and the column are the right ones. -/
theorem numbered {src : Str} {p : Place} {k : Nat} {e : Err} (hs : src.length < 2 ^ 31 - 1) (hk : k < src.length)
    (he : e ∉ unplaced) :
    complaint src (reportOf p k e) = .ok (b!"blogc: error: template: " ++ wording p e ++ b!"\n") ∨
      ∃ line, complaint src (reportOf p k e) =
        .ok (b!"blogc: error: template: " ++ wording p e ++ b!"\nError occurred near line " ++
          decNat (lineNumber src k) ++ b!", position " ++ decNat (column src k) ++ b!": " ++ line ++ b!"\n") := by
  obtain ⟨line, hl⟩ := C13.error_line_in_bounds src k (by omega)
  obtain ⟨e1, e2⟩ := C13.error_position src k (by omega)
  have h3 := lineNumber_le src k
  have h4 : column src k ≤ k + 1 := by simp only [column]; omega
  rw [reportOf, if_neg he, complaint]
  simp only
  rw [errText, hl, Res.bind]
  by_cases h : line = []
  · rw [if_pos h]; left; rfl
  · rw [if_neg h, e1, e2, printInt, if_pos (by omega), Res.bind, printInt, if_pos (by omega), Res.bind]
    right
    exact ⟨line, by simp [Res.map, errPrint, errWords]⟩

/-- The position is printed as an `int`: nothing is defined for a mistake beyond that. -/
theorem far_undefined {src : Str} {p : Place} {k : Nat} {c : Byte} {e : Err} (hn : NulFree src)
    (hk : src[k]? = some c) (hc : c ≠ c!"\n" ∧ c ≠ c!"\r") (he : e ∉ unplaced)
    (hf : 2 ^ 31 ≤ lineNumber src k ∨ 2 ^ 31 ≤ column src k) : complaint src (reportOf p k e) = .ub := by
  rw [reportOf, if_neg he, complaint]
  simp only
  rw [errText_far hn ⟨k, c, .inl rfl, hk, hc⟩ hf]
  rfl

/-- There are such templates, of a little more than 2^31 bytes. -/
theorem far_violated : ∃ src k, src.length = 2 ^ 31 + 3 ∧
    diagnose src = .ok (.error (reportOf {} k .variableStart)) ∧
    complaint src (reportOf {} k .variableStart) = .ub := by
  obtain ⟨n, hn⟩ : ∃ n, n = 2 ^ 31 - 1 := ⟨_, rfl⟩
  have h0 : n ≠ 0 := by omega
  have hnl : ∀ x ∈ List.replicate n c!"\n", x = c!"\n" := fun x hx => (List.mem_replicate.1 hx).2
  have ht : Fine [.text (List.replicate n c!"\n")] := by
    have hb : ∀ c, ¬ [c!"{", c] <:+: List.replicate n c!"\n" := fun c h =>
      absurd (hnl _ (h.subset (List.mem_cons_self ..))) (by decide)
    refine ⟨⟨by simp [h0], fun x hx => by rw [hnl x hx]; decide, hb _, hb _⟩, ?_, by simp, trivial⟩
    intro h
    exact absurd (hnl _ (List.mem_of_getLast? h)) (by decide)
  have hr := reported ht (p := {}) rfl (bad := b!"{{" ++ b!" " ++ [c!"t"])
    (.varStart (by intro c hc; revert c hc; decide) (by decide) (by decide)) []
  have hsrc : print [.text (List.replicate n c!"\n")] ++ (b!"{{" ++ b!" " ++ [c!"t"]) ++ [] =
      List.replicate n c!"\n" ++ b!"{{ t" := by simp [print, Tok.print]
  have hlen : (print [.text (List.replicate n c!"\n")]).length = n := by simp [print, Tok.print]
  rw [hsrc, hlen] at hr
  refine ⟨_, _, ?_, hr, far_undefined (c := c!"t") ?_ ?_ (by decide) (by decide) (.inl ?_)⟩
  · simp; omega
  · intro x hx
    rcases List.mem_append.1 hx with h | h
    · rw [hnl x h]; decide
    · clear hx; revert x h; decide
  · rw [List.getElem?_append_right (by simp)]
    simp
  · have := lineNumber_breaks n 3 c!"{" b!"{ t" (by decide)
    exact Nat.le_trans (by omega) this

/-! ### Templates with mistakes -/

/-- `{% block entry %}a{% ifdef A %}b`, where one block and one conditional are open. -/
def inside : List Tok :=
  [.stmt false b!" " (.block b!" " b!"entry" b!" ") false, .text b!"a",
   .stmt false b!" " (.ifdef b!" " b!"A" b!" ") false, .text b!"b"]

theorem inside_fine : Fine inside := by
  have hg : Gap b!" " := ⟨by intro c hc; revert c hc; decide, by decide⟩
  have ht : ∀ c : Byte, c ≠ 0 → c ≠ c!"{" → TextOk [c] := by
    intro c h0 hc
    refine ⟨by simp, ?_, ?_, ?_⟩
    · intro x hx; simp at hx; subst hx; exact h0
    · intro h; have := h.length_le; simp at this
    · intro h; have := h.length_le; simp at this
  refine ⟨hg.1, ⟨hg, by decide, hg⟩, ht _ (by decide) (by decide), by decide, by simp, hg.1,
    ⟨hg, IsName.one rfl, hg⟩, ht _ (by decide) (by decide), by decide, by simp, trivial⟩

def insidePlace : Place := ⟨[.cond false, .block b!"entry"], false⟩

theorem inside_after : after {} inside = some insidePlace := by rfl

/-- The block is closed too early. -/
example : Mistake insidePlace (opening false b!" " ++ b!"endblock" ++ [c!" "]) 11 .ifsNotClosedInBlock :=
  .misplaced (by intro c hc; revert c hc; decide) (.openIf rfl rfl) (by decide)

example : diagnose b!"{% block entry %}a{% ifdef A %}b{% endblock %}" =
    .ok (.error ⟨.ifsNotClosedInBlock,
      b!"1 open 'if', 'ifdef' and/or 'ifndef' statements were not closed inside a 'entry' block!", none⟩) := by
  have := reported inside_fine inside_after
    (.misplaced (l := false) (a := b!" ") (by intro c hc; revert c hc; decide) (.openIf rfl rfl) (by decide : Space c!" "))
    b!"%}"
  exact this

/-- A typing error in the second line. -/
example : complaint b!"<p>\n  {{ title }}" (reportOf {} 9 .variableStart) =
    .ok b!"blogc: error: template: Invalid variable name. Must begin with uppercase letter.\nError occurred near line 2, position 6:   {{ title }}\n" := by
  decide +kernel

example : Mistake {} (b!"{{" ++ b!" " ++ [c!"t"]) 3 .variableStart :=
  .varStart (by intro c hc; revert c hc; decide) (by decide) (by decide)

example : Unfinished insidePlace .ifsNotClosed := .conds rfl

/-! ### What is not noticed -/

/-- A second `else` is not noticed after a conditional within the first. -/
def twoElses : List Tok :=
  [.stmt false b!" " (.ifdef b!" " b!"A" b!" ") false, .text b!"x", .stmt false b!" " (.else_ b!" ") false,
   .stmt false b!" " (.ifdef b!" " b!"B" b!" ") false, .stmt false b!" " (.endif b!" ") false, .text b!"y",
   .stmt false b!" " (.else_ b!" ") false, .text b!"z", .stmt false b!" " (.endif b!" ") false]

theorem second_else_violated : after {} twoElses = none ∧ ∃ l, diagnose (print twoElses) = .ok (.ok l) :=
  ⟨rfl, _, rfl⟩

/-- Statements that cross each other are not noticed. -/
def crossing : List Tok :=
  [.stmt false b!" " (.foreach b!" " b!"TAGS" b!" ") false, .stmt false b!" " (.ifdef b!" " b!"A" b!" ") false,
   .stmt false b!" " (.endforeach b!" ") false, .stmt false b!" " (.endif b!" ") false]

theorem crossing_violated : after {} crossing = none ∧ ∃ l, diagnose (print crossing) = .ok (.ok l) :=
  ⟨rfl, _, rfl⟩

/-- A template that ends within an item is accepted, without the item. -/
theorem truncated_violated : diagnose b!"a{{ TITLE" = .ok (.ok [⟨.content, .none, some b!"a", none⟩]) ∧
    diagnose b!"a{% endif" = .ok (.ok [⟨.content, .none, some b!"a", none⟩]) := by
  decide +kernel

/-- The byte after a variable that is compared with is not looked at. -/
theorem swallowed_violated :
    diagnose b!"{% if A == B! %}{% endif %}" = diagnose b!"{% if A == B %}{% endif %}" := by
  decide +kernel

end Blogc.C106
