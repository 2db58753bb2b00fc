import Verif.Spec.Tokens
import Verif.Lemmas.Template

/-!
# Reading the items of a template

What the parser does over a whole word, white space or text, for use in the round trip of C22.
-/

namespace Blogc.Template

open Blogc Blogc.Doc Blogc.Tokens

/-- The loop from a position of the text on. -/
def runAt (src : Str) (cur : Nat) (st : St) : Res (Except Report (List Node)) := loop src (src.drop cur) cur st

section
variable {src w rest u x : Str} {cur : Nat} {st st' st1 : St} {c : Byte}

theorem at_drop (h : src.drop cur = u ++ x) : src.drop (cur + u.length) = x := by
  rw [← List.drop_drop, h]; simp

theorem at_drop1 (h : src.drop cur = c :: x) : src.drop (cur + 1) = x := at_drop (u := [c]) h

theorem at_slice (h : src.drop cur = w ++ rest) : slice src cur (cur + w.length) = w := by
  simp only [slice]
  rw [h]; simp

theorem at_le (h : src.drop cur = w ++ rest) (hw : w ≠ []) : cur + w.length ≤ src.length := by
  have h1 := congrArg List.length h
  have : 0 < w.length := List.length_pos_iff.mpr hw
  simp at h1; omega

theorem runAt_step (h : src.drop cur = c :: rest) (hs : step src cur st c = go st') :
    runAt src cur st = runAt src (cur + 1) st' := by
  have h1 : src.drop (cur + 1) = rest := at_drop1 h
  simp only [runAt]
  rw [h, h1, loop, hs]
  rfl

theorem runAt_stay (h : src.drop cur = w ++ rest) (hs : ∀ c ∈ w, ∀ n, step src n st c = go st) :
    runAt src cur st = runAt src (cur + w.length) st := by
  induction w generalizing cur with
  | nil => rfl
  | cons c w ih =>
    rw [runAt_step h (hs c (by simp) cur), ih (at_drop1 h) fun d hd => hs d (by simp [hd])]
    simp only [List.length_cons]
    rw [show cur + 1 + w.length = cur + (w.length + 1) by omega]

/-- The first byte leads to another state, the others keep it. -/
theorem runAt_enter (h : src.drop cur = w ++ rest) (hw : w ≠ [])
    (h1 : ∀ c r, w = c :: r → step src cur st c = go st1)
    (h2 : ∀ c r, w = c :: r → ∀ d ∈ r, ∀ n, step src n st1 d = go st1) :
    runAt src cur st = runAt src (cur + w.length) st1 := by
  cases w with
  | nil => exact absurd rfl hw
  | cons c w =>
    rw [runAt_step h (h1 c w rfl), runAt_stay (at_drop1 h) (h2 c w rfl)]
    simp only [List.length_cons]
    rw [show cur + 1 + w.length = cur + (w.length + 1) by omega]

theorem dup_at (h : src.drop cur = w ++ rest) (hw : w ≠ []) (hn : NulFree w) :
    dup src cur (cur + w.length) = .ok w := by
  rw [dup_eq (by omega) (at_le h hw), at_slice h, cstr_id hn]

end

/-! ### Bytes -/

theorem space_not_name {c : Byte} (h : isSpace c = true) : isName c = false := by
  have := (by decide +kernel : ∀ n : Fin 256, isSpace (UInt8.ofFin n) = true → isName (UInt8.ofFin n) = false)
  exact this c.toFin h

theorem space_not_lower {c : Byte} (h : isSpace c = true) : isLower c = false := by
  have := (by decide +kernel : ∀ n : Fin 256, isSpace (UInt8.ofFin n) = true → isLower (UInt8.ofFin n) = false)
  exact this c.toFin h

theorem space_not_dash {c : Byte} (h : isSpace c = true) : c ≠ c!"-" := by rintro rfl; revert h; decide
theorem space_not_under {c : Byte} (h : isSpace c = true) : (c == c!"_") = false := by
  rw [beq_eq_false_iff_ne]; rintro rfl; revert h; decide

theorem name_not_space {c : Byte} (h : isName c = true) : isSpace c = false := by
  cases hs : isSpace c with
  | false => rfl
  | true => rw [space_not_name hs] at h; cases h

theorem upper_not_space {c : Byte} (h : isUpper c = true) : isSpace c = false :=
  name_not_space (upper_isName h)

theorem lower_not_space {c : Byte} (h : isLower c = true) : isSpace c = false := by
  cases hs : isSpace c with
  | false => rfl
  | true => rw [space_not_lower hs] at h; cases h

theorem lower_not_dash {c : Byte} (h : isLower c = true) : c ≠ c!"-" := by rintro rfl; revert h; decide

theorem name_nulFree {s : Str} (h : IsName s) : NulFree s := fun b hb => name_ne_zero (h.bytes b hb)

theorem lower_nulFree {s : Str} (h : ∀ c ∈ s, isLower c = true ∨ c = c!"_") : NulFree s := by
  intro b hb
  have := h b hb
  rintro rfl
  revert this; decide

/-- Names: the first byte is a capital, the others are name bytes. -/
theorem name_head {s : Str} (h : IsName s) {c : Byte} {r : Str} (e : s = c :: r) :
    isUpper c = true ∧ ∀ d ∈ r, isName d = true := by
  obtain ⟨⟨c', r', e', hc⟩, h2⟩ := h
  rw [e] at e'
  injection e' with e1 e2
  subst e1
  exact ⟨(isUpper_iff c).2 hc, fun d hd => (isName_iff d).2 (h2 d (by rw [e]; simp [hd]))⟩

theorem gap_head {s : Str} (h : Gap s) {c : Byte} {r : Str} (e : s = c :: r) :
    isSpace c = true ∧ ∀ d ∈ r, isSpace d = true :=
  ⟨h.1 c (by rw [e]; simp), fun d hd => h.1 d (by rw [e]; simp [hd])⟩

/-! ### The state between items -/

/-- The state between items: text has been read from `start` on. -/
def between (start stop : Nat) (br : Br) (ast : List Node) (ls : Bool) : St :=
  { start := start, stop := stop, br := br, ast := ast, lstripNext := ls }

/-- A content node for text, if there is any. -/
def flush (s : Str) (ls : Bool) (ast : List Node) : List Node :=
  if s = [] then ast else ⟨.content, .none, some (if ls then lstrip s else s), none⟩ :: ast

/-- The flag after the text. -/
def flushed (s : Str) (ls : Bool) : Bool := if s = [] then ls else false

/-- The text between two brackets does not change the state. -/
theorem text_stays {src s rest : Str} {cur : Nat} {st : St} (hst : st.state = .start)
    (h : src.drop cur = s ++ rest) (hr : rest ≠ []) (h1 : ¬ b!"{{" <:+: s) (h2 : ¬ b!"{%" <:+: s)
    (h3 : s.getLast? ≠ some c!"{") :
    ∃ stop, runAt src cur st = runAt src (cur + s.length) { st with stop := stop } := by
  induction hn : s.length using Nat.strongRecOn generalizing s cur st with
  | _ n ih =>
    subst hn
    match s, h, h1, h2, h3, ih with
    | [], h, _, _, _, _ => exact ⟨st.stop, rfl⟩
    | c :: t, h, h1, h2, h3, ih =>
      have hne : t ++ rest ≠ [] := by simp [hr]
      have hlast : (cur + 1 == src.length) = false := by
        have := congrArg List.length h
        have h0 : 0 < (t ++ rest).length := List.length_pos_iff.mpr hne
        simp at this h0
        rw [beq_eq_false_iff_ne]; omega
      have hstep : step src cur st c = startNext cur c st := by
        rw [step, hst]; simp only [start, hlast, addContentIf]; rfl
      by_cases hc : c = c!"{"
      · subst hc
        match t, h, h1, h2, h3, ih with
        | [], _, _, _, h3, _ => exact absurd rfl h3
        | d :: t, h, h1, h2, h3, ih =>
          have hd1 : d ≠ c!"%" := by
            rintro rfl; exact h2 ⟨[], t, rfl⟩
          have hd2 : d ≠ c!"{" := by
            rintro rfl; exact h1 ⟨[], t, rfl⟩
          have hs : startNext cur c!"{" st = go { st with stop := cur, state := .openBracket } := by
            rw [startNext, if_pos rfl]
          rw [runAt_step h (hstep.trans hs)]
          have h' : src.drop (cur + 1) = d :: (t ++ rest) := at_drop1 h
          have hs2 : step src (cur + 1) { st with stop := cur, state := .openBracket } d =
              go { st with stop := cur, state := .start } := by
            simp only [step, openBracket]
            rw [if_neg hd1, if_neg hd2]
          rw [runAt_step h' hs2]
          have h'' : src.drop (cur + 1 + 1) = t ++ rest := at_drop1 h'
          have h3' : t.getLast? ≠ some c!"{" := by
            intro e
            cases t with
            | nil => cases e
            | cons y t => exact h3 (by simpa using e)
          obtain ⟨stop, e⟩ := ih t.length (by simp only [List.length_cons]; omega) (st := { st with stop := cur, state := .start }) rfl h''
            (fun hi => h1 (List.IsInfix.trans hi ⟨[c!"{", d], [], by simp⟩))
            (fun hi => h2 (List.IsInfix.trans hi ⟨[c!"{", d], [], by simp⟩)) h3' rfl
          refine ⟨stop, ?_⟩
          rw [e]
          simp only [List.length_cons, ← hst]
          rw [show cur + 1 + 1 + t.length = cur + (t.length + 1 + 1) by omega]
      · have hs : startNext cur c st = go st := by rw [startNext, if_neg hc]
        rw [runAt_step h (hstep.trans hs)]
        have h' : src.drop (cur + 1) = t ++ rest := at_drop (u := [c]) h
        have h3' : t.getLast? ≠ some c!"{" := by
          intro e
          cases t with
          | nil => cases e
          | cons y t => exact h3 (by simpa using e)
        obtain ⟨stop, e⟩ := ih t.length (by simp) hst h'
          (fun hi => h1 (List.IsInfix.trans hi ⟨[c], [], by simp⟩))
          (fun hi => h2 (List.IsInfix.trans hi ⟨[c], [], by simp⟩)) h3' rfl
        refine ⟨stop, ?_⟩
        rw [e]
        simp only [List.length_cons]
        rw [show cur + 1 + t.length = cur + (t.length + 1) by omega]

/-- Text at the end of the template. -/
theorem text_final {src pre s : Str} {stop : Nat} {br : Br} {ast : List Node} {ls : Bool}
    (h : src = pre ++ s) (ht : TextOk s) (he : TextEnd s []) :
    ∃ st', runAt src pre.length (between pre.length stop br ast ls) = .ok ((finish st').mapError (report st' src.length)) ∧
      st'.br = br ∧
      st'.ast = flush s ls ast ∧ st'.state ≠ .ifStringOperand := by
  obtain ⟨hne, hnul, h1, h2⟩ := ht
  rcases List.eq_nil_or_concat s with rfl | ⟨t, c, rfl⟩
  · exact absurd rfl hne
  rw [List.concat_eq_append] at *
  have hd : src.drop pre.length = t ++ [c] := by rw [h]; simp
  have ht3 : t.getLast? ≠ some c!"{" := by
    intro e
    obtain ⟨p, rfl⟩ : ∃ p, t = p ++ [c!"{"] := by
      rcases List.eq_nil_or_concat t with rfl | ⟨p, d, rfl⟩
      · cases e
      · rw [List.concat_eq_append] at *
        simp at e; subst e; exact ⟨p, rfl⟩
    exact he p c (by simp)
  obtain ⟨stop', e⟩ := text_stays (st := between pre.length stop br ast ls) rfl hd (by simp)
    (fun hi => h1 (List.IsInfix.trans hi ⟨[], [c], by simp⟩))
    (fun hi => h2 (List.IsInfix.trans hi ⟨[], [c], by simp⟩)) ht3
  have hd' : src.drop (pre.length + t.length) = [c] := at_drop hd
  have hlen : src.length = pre.length + (t ++ [c]).length := by rw [h]; simp
  have hdup : dup src pre.length src.length = .ok (t ++ [c]) := by
    rw [hlen]
    exact dup_at (rest := []) (by rw [hd]; simp) (by simp) hnul
  have hstep : step src (pre.length + t.length) { between pre.length stop br ast ls with stop := stop' } c =
      startNext (pre.length + t.length) c { between pre.length stop' br (flush (t ++ [c]) ls ast) false with stop := stop' } := by
    simp only [step, between, start]
    have : (pre.length + t.length + 1 == src.length) = true := by
      rw [hlen]; simp; omega
    rw [this]
    simp only [addContentIf, if_true, addContent, hdup, Res.bind, flush]
    rw [if_neg (show ¬ (t ++ [c] = []) by simp)]

  have hd'' : src.drop (pre.length + t.length + 1) = [] := at_drop (u := [c]) (by rw [hd']; rfl)
  have hfin : ∀ st1, startNext (pre.length + t.length) c
      { between pre.length stop' br (flush (t ++ [c]) ls ast) false with stop := stop' } = go st1 →
      runAt src pre.length (between pre.length stop br ast ls) = .ok ((finish st1).mapError (report st1 src.length)) := by
    intro st1 h1
    rw [e, runAt_step hd' (hstep.trans h1), runAt, hd'', loop,
      show pre.length + t.length + 1 = src.length by rw [hlen]; simp; omega]
  by_cases hc : c = c!"{"
  · exact ⟨_, hfin _ (by rw [startNext, if_pos hc]), rfl, rfl, by simp⟩
  · exact ⟨_, hfin _ (by rw [startNext, if_neg hc]), rfl, rfl, by simp [between]⟩

end Blogc.Template
