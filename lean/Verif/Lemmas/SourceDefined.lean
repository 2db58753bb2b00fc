import Verif.Props.C17

/-!
# When a source file is read without undefined behaviour
-/

namespace Blogc.Source

open Blogc Blogc.Spec Blogc.Spec.Source

/-- A content parser that finds nothing: with it, only the headers matter. -/
def noContent : Str → Bool → Run Content.BSt := fun _ _ => .ok (Content.BSt.init none)

theorem noContent_finish (m : Int) (T : Trie Str) (text : Str) :
    ∃ t, finishContent noContent m T text = .ok (.ok t) ∧ t.lookup b!"CONTENT" ≠ none := by
  refine ⟨_, rfl, ?_⟩
  rw [addContent_lookup _ _ _ (by decide)]
  simp

/-- The name is known while its value is read. -/
def Named (st : St) : Prop := (st.state = .valueStart ∨ st.state = .value) → ∃ k, st.key = some k

variable {cp : Str → Bool → Run Content.BSt} {m : Int} {src : Str}

/-- Before the last byte of the content, the parser of the content is not called. -/
theorem step_before {st : St} {current : Nat} {c : Byte} (hN : Named st)
    (h : st.state = .content → current + 1 ≠ src.length) :
    ∃ r, step cp m src current st c = .ok r ∧ step noContent m src current st c = .ok r ∧
      ∀ st', r = .ok st' → Named st' := by
  obtain ⟨start, key, rv, state⟩ := st
  cases state with
  | start =>
    simp only [step]
    repeat' split
    all_goals refine ⟨_, rfl, rfl, fun st' e => ?_⟩
    all_goals cases e
    all_goals intro h; simp at h
  | key =>
    simp only [step]
    repeat' split
    all_goals refine ⟨_, rfl, rfl, fun st' e => ?_⟩
    all_goals cases e
    · intro h; simp at h
    · intro _; exact ⟨_, rfl⟩
  | valueStart =>
    obtain ⟨k, hk⟩ := hN (.inl rfl)
    simp only at hk
    subst hk
    simp only [step]
    split
    · exact ⟨_, rfl, rfl, fun st' e => by cases e; intro _; exact ⟨_, rfl⟩⟩
    · exact ⟨_, rfl, rfl, fun st' e => by cases e; intro h; simp at h⟩
  | value =>
    obtain ⟨k, hk⟩ := hN (.inr rfl)
    simp only at hk
    subst hk
    simp only [step]
    split
    · exact ⟨_, rfl, rfl, fun st' e => by cases e; intro h; simp at h⟩
    · exact ⟨_, rfl, rfl, fun st' e => by cases e; intro _; exact ⟨_, rfl⟩⟩
  | separator =>
    simp only [step]
    repeat' split
    all_goals refine ⟨_, rfl, rfl, fun st' e => ?_⟩
    all_goals cases e
    all_goals intro h; simp at h
  | contentStart =>
    simp only [step]
    repeat' split
    all_goals exact ⟨_, rfl, rfl, fun st' e => by cases e; intro h; simp at h⟩
  | content =>
    simp only [step, if_neg (h rfl)]
    exact ⟨_, rfl, rfl, fun st' e => by cases e; intro h; simp at h⟩

/-- Reading ends with the same result as without a content, unless there is a content. -/
theorem loop_cases : ∀ (rest : Str) (current : Nat) (st : St), current + rest.length = src.length → Named st →
    (∃ r, loop cp m src rest current st = .ok r) ∨
      ∃ t, loop noContent m src rest current st = .ok (.ok t) ∧ t.lookup b!"CONTENT" ≠ none
  | [], current, st, _, _ => .inl ⟨_, rfl⟩
  | c :: rest, current, st, hl, hN => by
    by_cases h : st.state = .content ∧ current + 1 = src.length
    · obtain ⟨t, ht, hc⟩ := noContent_finish m st.rv (cstr (src.drop st.start))
      have hr : rest = [] := by
        rw [List.length_cons] at hl
        exact List.eq_nil_of_length_eq_zero (by omega)
      refine .inr ⟨t, ?_, hc⟩
      rw [loop, step, h.1]
      simp only [h.2, if_true, ht, hr, loop, finish, h.1, ite_self]
    · obtain ⟨r, h1, h2, h3⟩ := step_before (cp := cp) (m := m) (src := src) (c := c) (current := current) hN
        (fun h' e => h ⟨h', e⟩)
      cases r with
      | error e => exact .inl ⟨_, by rw [loop, h1]⟩
      | ok st' =>
        rw [loop, h1, loop, h2]
        exact loop_cases rest (current + 1) st' (by rw [List.length_cons] at hl; omega) (h3 _ rfl)

theorem lastValue_absent {kvs : List (Str × Str)} {k : Str} (h : ∀ p ∈ kvs, p.1 ≠ k) : lastValue kvs k = none := by
  unfold lastValue
  rw [List.find?_eq_none.2 fun x hx => by simpa using h x (List.mem_reverse.1 hx)]
  rfl

theorem doc_of_content {t : Trie Str} (hn : NulFree src) (h : parse cp src m = .ok (.ok t))
    (hc : t.lookup b!"CONTENT" ≠ none) : ∃ d : Doc, d.Ok ∧ 2 ≤ d.content.length ∧ d.text = src := by
  obtain ⟨hs, p, hok, -, ⟨-, hl⟩ | ⟨d, -, hd⟩⟩ := C17.shape_of hn m h
  · refine absurd ?_ hc
    rw [hl _ (by decide)]
    refine lastValue_absent fun x hx e => ?_
    obtain ⟨y, hy, rfl⟩ := List.mem_map.1 hx
    exact (hok y hy).allowed (by rw [show y.key = b!"CONTENT" from e]; decide)
  · exact ⟨d, hd⟩

/-- A file without content, or with a content the parser of the content handles, is accepted or rejected. -/
theorem parse_defined (hn : NulFree src)
    (h : ∀ d : Doc, d.Ok → 2 ≤ d.content.length → d.text = src → ∀ T : Trie Str,
      ∃ r, finishContent cp m T d.content = .ok r) : ∃ r, parse cp src m = .ok r := by
  rcases loop_cases (cp := cp) (m := m) (src := src) src 0 St.init (by simp) (by intro h; simp [St.init] at h) with h1 | ⟨t, ht, hc⟩
  · exact h1
  · obtain ⟨d, hd, h2, htext⟩ := doc_of_content hn ht hc
    rw [← htext, parse_doc d hd h2]
    obtain ⟨r, hr⟩ := h d hd h2 htext (Trie.inserts (pairs d.headers)).1
    rw [hr]
    cases r <;> exact ⟨_, rfl⟩

/-- What is done with a content that is parsed. -/
theorem finishContent_defined {depth : Nat} {text : Str} (T : Trie Str) (hlen : text.length < 2 ^ 63)
    (hm : -(2 ^ 31) ≤ m) (hm' : m < 2 ^ 31) (hcp : ∀ b, ∃ r, Content.parse depth text b = .ok r) :
    ∃ r, finishContent (Content.parse depth) m T text = .ok r := by
  unfold finishContent
  obtain ⟨r, hr⟩ := hcp (decide (((T.insert b!"RAW_CONTENT" text).1.lookup b!"TOCTREE") = none))
  have hlev := Content.parseBlocks_headers false depth text ⟨true, true, true,
    decide (((T.insert b!"RAW_CONTENT" text).1.lookup b!"TOCTREE") = none)⟩ none
  have hr' := hr
  unfold Content.parse at hr'
  rw [hr'] at hlev
  have hlev' : ∀ h ∈ r.headers, 1 ≤ h.level ∧ h.level < 2 ^ 63 := by
    intro h hh
    have := hlev.2 h hh
    omega
  simp only [hr, Run.bind_ok]
  suffices hs : ∀ u : Trie Str, ∃ x, tableOfContents m u r = .ok x by
    obtain ⟨x, hx⟩ := hs (insertNew (insertNew (T.insert b!"RAW_CONTENT" text).1
      b!"FIRST_HEADER" r.firstHeader) b!"DESCRIPTION" r.description)
    unfold addResults
    rw [hx]
    cases x <;> exact ⟨_, rfl⟩
  intro u
  have toc : ∀ x : Int, -(2 ^ 31) ≤ x → x < 2 ^ 31 →
      ∃ t, insertToc u (Toctree.render r.headers x (some r.lineEnding)) = .ok t := by
    intro x hx hx'
    obtain ⟨o, ho⟩ := C17.render_ok r.headers x (some r.lineEnding) hlev' hx hx'
    rw [ho]
    cases o <;> exact ⟨_, rfl⟩
  unfold tableOfContents
  split
  · exact ⟨_, rfl⟩
  · split
    · split
      · exact ⟨_, rfl⟩
      · exact toc _ (C17.toInt_range _).1 (C17.toInt_range _).2
    · exact toc m hm hm'

theorem noContent_raw {T t : Trie Str} {text : Str} (h : finishContent noContent m T text = .ok (.ok t)) :
    t.lookup b!"RAW_CONTENT" = some text := by
  cases h
  rw [addContent_lookup _ _ _ (by decide), if_neg (by decide), if_neg (by decide)]
  show (insertNew (insertNew (T.insert b!"RAW_CONTENT" text).1 _ none) _ none).lookup _ = _
  rw [insertNew, insertNew, Trie.lookup_insert _ _ _ _ (by decide) (by decide), if_pos rfl]

/-- A file has one content. -/
theorem content_unique {d d' : Doc} (hd : d.Ok) (hd' : d'.Ok) (h : 2 ≤ d.content.length) (h' : 2 ≤ d'.content.length)
    (he : d.text = d'.text) : d.content = d'.content := by
  have key : ∀ d : Doc, d.Ok → 2 ≤ d.content.length →
      ∃ t, parse noContent d.text 0 = .ok (.ok t) ∧ t.lookup b!"RAW_CONTENT" = some d.content := by
    intro d hd h
    obtain ⟨t, ht, -⟩ := noContent_finish 0 (Trie.inserts (pairs d.headers)).1 d.content
    refine ⟨t, ?_, noContent_raw ht⟩
    rw [parse_doc d hd h, ht]
    rfl
  obtain ⟨t, ht, h1⟩ := key d hd h
  obtain ⟨t', ht', h1'⟩ := key d' hd' h'
  rw [he, ht'] at ht
  cases ht
  rw [h1] at h1'
  exact Option.some.inj h1'

end Blogc.Source
