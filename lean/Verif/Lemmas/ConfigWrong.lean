import Verif.Lemmas.ConfigControl

/-!
# Files the configuration parser refuses
-/

namespace Blogc.Config

open Blogc Blogc.Spec.ConfigMistakes

/-- What the parser calls a mistake. -/
def errorOf : Reason → Err
  | .noSection => .mustStartWithSection
  | .brokenName => .sectionNewline
  | .noValue k => .keyWithoutValue (cstr k)
  | .afterValue => .afterQuotedValue
  | .afterItem => .afterQuotedItem

theorem isNl_iff (c : Byte) : isNl c = true ↔ Break c := by
  simp [isNl, Break, or_comm]

theorem isBlank_iff (c : Byte) : isBlank c = true ↔ Blank c := by
  simp [isBlank, Blank, or_assoc]

theorem notBreak {c : Byte} (h : ¬ Break c) : isNl c = false := by
  cases h' : isNl c
  · rfl
  · exact absurd ((isNl_iff c).1 h') h

theorem notBlank {c : Byte} (h : ¬ Blank c) : isBlank c = false := by
  cases h' : isBlank c
  · rfl
  · exact absurd ((isBlank_iff c).1 h') h

theorem blank_break {c : Byte} (h : Break c) : ¬ Blank c := by
  rcases h with rfl | rfl <;> · unfold Blank; decide

theorem _root_.Blogc.Spec.ConfigMistakes.Escaped.append {P : Byte → Prop} {s t : Str} (hs : Escaped P s) (ht : Escaped P t) : Escaped P (s ++ t) := by
  induction hs with
  | nil => exact ht
  | pair _ ih => exact .pair ih
  | byte h1 h2 _ ih => exact .byte h1 h2 ih

/-- A text with escapes, maybe just after a backslash. -/
def Upto (P : Byte → Prop) (esc : Bool) (s : Str) : Prop :=
  if esc then ∃ t, s = t ++ b!"\\" ∧ Escaped P t else Escaped P s

theorem Upto.escape {P : Byte → Prop} {s : Str} (h : Upto P false s) : Upto P true (s ++ b!"\\") := ⟨s, rfl, h⟩

theorem Upto.escaped {P : Byte → Prop} {s : Str} {c : Byte} (h : Upto P true s) : Upto P false (s ++ [c]) := by
  obtain ⟨t, rfl, ht⟩ := h
  have := ht.append (.pair (c := c) .nil)
  simpa [Upto] using this

theorem Upto.byte {P : Byte → Prop} {s : Str} {c : Byte} (h : Upto P false s) (hc : c ≠ c!"\\") (hp : P c) :
    Upto P false (s ++ [c]) := Escaped.append h (.byte hc hp .nil)

/-- Where the parser is in the line it reads: after the lines `d` it has read `p`, and `rest` follows. -/
def Part (a : Ctl) (d p rest : Str) : Prop :=
  match a.state with
  | .start => p = [] ∧ a.value = false ∧ a.escaped = false
  | .sectionStart => p = b!"[" ∧ a.value = false ∧ a.escaped = false
  | .section => ∃ c n, p = b!"[" ++ c :: n ∧ Name n ∧ a.start = d.length + 1 ∧ a.value = false ∧ a.escaped = false
  | .key => Key p ∧ Begins (p ++ rest) ∧ a.place = .keys ∧ a.start = d.length ∧ a.value = false ∧ a.escaped = false
  | .valueStart => ∃ k v, p = k ++ b!"=" ++ v ∧ Key k ∧ Begins (k ++ b!"=") ∧ Upto Blank a.escaped v ∧
      a.place = .keys ∧ a.value = true
  | .value => ∃ k v r, p = k ++ b!"=" ++ v ++ r ∧ Key k ∧ Begins (k ++ b!"=") ∧ Lead v ∧ a.place = .keys ∧
      a.value = true ∧ ((r = [] ∧ a.escaped = false ∧ ∃ e r', rest = e :: r' ∧ (Break e ∨ (r' = [] ∧ e ≠ c!"\\"))) ∨
        ∃ c r', r = c :: r' ∧ ¬ Blank c ∧ ¬ Break c ∧ c ≠ c!"\"" ∧ c ≠ c!"\\" ∧ Upto (fun c => ¬ Break c) a.escaped r')
  | .valueQuote => ∃ k v t, p = k ++ b!"=" ++ v ++ b!"\"" ++ t ∧ Key k ∧ Begins (k ++ b!"=") ∧ Lead v ∧
      Upto (· ≠ c!"\"") a.escaped t ∧ a.place = .keys ∧ a.value = true
  | .valuePostQuoted => ∃ k v t g, p = k ++ b!"=" ++ v ++ b!"\"" ++ t ++ b!"\"" ++ g ∧ Key k ∧ Begins (k ++ b!"=") ∧
      Lead v ∧ Quoted t ∧ (∀ c ∈ g, Blank c) ∧ a.place = .keys ∧ a.value = false ∧ a.escaped = false
  | .listStart => Upto Blank a.escaped p ∧ Begins (p ++ rest) ∧ a.place = .list ∧ a.value = true
  | .list => ∃ v c r, p = v ++ c :: r ∧ Begins (v ++ [c]) ∧ Lead v ∧ ¬ Blank c ∧ c ≠ c!"\"" ∧ c ≠ c!"\\" ∧
      Upto (fun c => ¬ Break c) a.escaped r ∧ a.place = .list ∧ a.value = true
  | .listQuote => ∃ v t, p = v ++ b!"\"" ++ t ∧ Begins (v ++ b!"\"") ∧ Lead v ∧ Upto (· ≠ c!"\"") a.escaped t ∧
      a.place = .list ∧ a.value = true
  | .listPostQuoted => ∃ v t g, p = v ++ b!"\"" ++ t ++ b!"\"" ++ g ∧ Begins (v ++ b!"\"") ∧ Lead v ∧ Quoted t ∧
      (∀ c ∈ g, Blank c) ∧ a.place = .list ∧ a.value = false ∧ a.escaped = false

variable {src : Str} {lists : List Str}

/-- What holds of the control, unless the end is reached. -/
def Reading (src : Str) (lists : List Str) (a : Ctl) : Prop :=
  src.length ≤ a.current ∨ ∃ d p rest, src = d ++ p ++ rest ∧ a.current = (d ++ p).length ∧
    Lines lists .outside d a.place ∧ Part a d p rest

/-- The next byte is a part of the line. -/
theorem reading_more {a' : Ctl} {d p rest : Str} {c : Byte} (h1 : src = d ++ p ++ c :: rest)
    (h2 : a'.current = (d ++ p).length + 1) (h3 : Lines lists .outside d a'.place) (h4 : Part a' d (p ++ [c]) rest) :
    Reading src lists a' :=
  .inr ⟨d, p ++ [c], rest, by simp [h1], by simp [h2, Nat.add_assoc], h3, h4⟩

/-- The next byte ends the line. -/
theorem reading_next {a' : Ctl} {d p rest : Str} {c : Byte} {q : Place} (h1 : src = d ++ p ++ c :: rest)
    (h2 : a'.current = (d ++ p).length + 1) (h3 : Lines lists .outside d q) (h4 : Line lists q (p ++ [c]) a'.place)
    (h5 : a'.state = .start) (h6 : a'.value = false) (h7 : a'.escaped = false) : Reading src lists a' :=
  .inr ⟨d ++ (p ++ [c]), [], rest, by simp [h1], by simp [h2, Nat.add_assoc], h3.snoc h4, by
    simp [Part, h5, h6, h7]⟩

theorem reading_end {a' : Ctl} {n : Nat} (h : a'.current = n + 1) (h' : n + 1 = src.length) : Reading src lists a' :=
  .inl (by omega)

def Outcome (src : Str) (lists : List Str) : Step Ctl CResult → Prop
  | .next a => Reading src lists a
  | .done (.ok _) => True
  | .done (.error (e, n)) => ∃ why, e = errorOf why ∧ Malformed lists src why n
  | .ub => False

theorem begins_snoc {p rest : Str} {c : Byte} (h : Begins (p ++ c :: rest)) : Begins (p ++ [c]) := by
  obtain ⟨x, r, h, hx⟩ := h
  cases p with
  | nil => simp at h; exact ⟨c, [], rfl, h.1 ▸ hx⟩
  | cons y p => simp at h; exact ⟨y, p ++ [c], rfl, h.1 ▸ hx⟩

theorem begins_cut {p rest : Str} {c : Byte} (h : Begins (p ++ c :: rest)) (hp : p ≠ []) : Begins p := by
  obtain ⟨x, r, h, hx⟩ := h
  cases p with
  | nil => exact absurd rfl hp
  | cons y p => simp at h; exact ⟨y, p, rfl, h.1 ▸ hx⟩

theorem begins_more {p rest : Str} {c : Byte} (h : Begins (p ++ c :: rest)) : Begins ((p ++ [c]) ++ rest) := by
  simpa using h

theorem key_snoc {k : Str} {c : Byte} (h : Key k) (h1 : c ≠ c!"=") (h2 : ¬ Break c) : Key (k ++ [c]) := by
  intro x hx
  rcases List.mem_append.1 hx with hx | hx
  · exact h x hx
  · simp at hx; subst hx; exact ⟨h1, h2⟩

theorem read_step {a : Ctl} (h : Reading src lists a) : Outcome src lists (cstep src lists a) := by
  unfold cstep
  rcases h with h | ⟨d, p, rest, h1, h2, h3, h4⟩
  · rw [List.getElem?_eq_none h]; trivial
  cases rest with
  | nil =>
    have : src[a.current]? = none := by rw [List.getElem?_eq_none (by simp [h1, h2])]
    rw [this]; trivial
  | cons c rest =>
    have hc : src[a.current]? = some c := by rw [h1, h2]; simp
    rw [hc]
    simp only
    have hlen : a.current < src.length := by rw [h1, h2]; simp
    obtain ⟨cur, start, state, place, value, escaped⟩ := a
    simp only at *
    by_cases hesc : escaped = true
    · subst hesc
      rw [if_pos rfl]
      cases state <;> simp only [Part] at h4
      all_goals try (exact absurd h4.2.2 (by decide))
      · obtain ⟨_, _, _, _, _, _, h⟩ := h4; cases h
      · obtain ⟨_, _, _, _, _, h⟩ := h4; cases h
      · obtain ⟨k, v, rfl, a1, a2, a3, a4, a5⟩ := h4
        exact reading_more h1 (by simp [h2]) h3 ⟨k, v ++ [c], by simp, a1, a2, a3.escaped, a4, a5⟩
      · obtain ⟨k, v, t, rfl, a1, a2, a3, a4, a5, a6⟩ := h4
        exact reading_more h1 (by simp [h2]) h3 ⟨k, v, t ++ [c], by simp, a1, a2, a3, a4.escaped, a5, a6⟩
      · obtain ⟨_, _, _, _, _, _, _, _, _, _, _, _, h⟩ := h4; cases h
      · obtain ⟨k, v, r, rfl, a1, a2, a3, a4, a5, a6⟩ := h4
        rcases a6 with ⟨_, h, _⟩ | ⟨x, r', rfl, b1, b2, b3, b4, b5⟩
        · cases h
        · exact reading_more h1 (by simp [h2]) h3 ⟨k, v, x :: (r' ++ [c]), by simp, a1, a2, a3, a4, a5,
            .inr ⟨x, r' ++ [c], rfl, b1, b2, b3, b4, b5.escaped⟩⟩
      · obtain ⟨a1, a2, a3, a4⟩ := h4
        exact reading_more h1 (by simp [h2]) h3 ⟨a1.escaped, begins_more a2, a3, a4⟩
      · obtain ⟨v, t, rfl, a1, a2, a3, a4, a5⟩ := h4
        exact reading_more h1 (by simp [h2]) h3 ⟨v, t ++ [c], by simp, a1, a2, a3.escaped, a4, a5⟩
      · obtain ⟨_, _, _, _, _, _, _, _, _, _, h⟩ := h4; cases h
      · obtain ⟨v, x, r, rfl, a1, a2, a3, a4, a5, a6, a7, a8⟩ := h4
        exact reading_more h1 (by simp [h2]) h3 ⟨v, x, r ++ [c], by simp, a1, a2, a3, a4, a5, a6.escaped, a7, a8⟩
    have hescf : escaped = false := by simpa using hesc
    subst hescf
    rw [if_neg (by decide)]
    by_cases hbs : (value && c == c!"\\") = true
    · rw [if_pos hbs]
      simp only [Bool.and_eq_true, beq_iff_eq] at hbs
      obtain ⟨rfl, rfl⟩ := hbs
      cases state <;> simp only [Part] at h4
      all_goals try (exact absurd h4.2.1 (by decide))
      · obtain ⟨_, _, _, _, _, h, _⟩ := h4; cases h
      · obtain ⟨_, _, _, _, h, _⟩ := h4; cases h
      · obtain ⟨k, v, rfl, a1, a2, a3, a4, a5⟩ := h4
        exact reading_more h1 (by simp [h2]) h3 ⟨k, v ++ b!"\\", by simp, a1, a2, a3.escape, a4, rfl⟩
      · obtain ⟨k, v, t, rfl, a1, a2, a3, a4, a5, a6⟩ := h4
        exact reading_more h1 (by simp [h2]) h3 ⟨k, v, t ++ b!"\\", by simp, a1, a2, a3, a4.escape, a5, rfl⟩
      · obtain ⟨_, _, _, _, _, _, _, _, _, _, _, h, _⟩ := h4; cases h
      · obtain ⟨k, v, r, rfl, a1, a2, a3, a4, a5, a6⟩ := h4
        rcases a6 with ⟨_, _, e, r', he, hb⟩ | ⟨x, r', rfl, b1, b2, b3, b4, b5⟩
        · cases he
          rcases hb with (hb | hb) | hb
          · exact absurd hb (by decide)
          · exact absurd hb (by decide)
          · exact absurd rfl hb.2
        · exact reading_more h1 (by simp [h2]) h3 ⟨k, v, x :: (r' ++ b!"\\"), by simp, a1, a2, a3, a4, rfl,
            .inr ⟨x, r' ++ b!"\\", rfl, b1, b2, b3, b4, b5.escape⟩⟩
      · obtain ⟨a1, a2, a3, a4⟩ := h4
        exact reading_more h1 (by simp [h2]) h3 ⟨a1.escape, begins_more a2, a3, rfl⟩
      · obtain ⟨v, t, rfl, a1, a2, a3, a4, a5⟩ := h4
        exact reading_more h1 (by simp [h2]) h3 ⟨v, t ++ b!"\\", by simp, a1, a2, a3.escape, a4, rfl⟩
      · obtain ⟨_, _, _, _, _, _, _, _, _, h, _⟩ := h4; cases h
      · obtain ⟨v, x, r, rfl, a1, a2, a3, a4, a5, a6, a7, a8⟩ := h4
        exact reading_more h1 (by simp [h2]) h3 ⟨v, x, r ++ b!"\\", by simp, a1, a2, a3, a4, a5, a6.escape, a7, rfl⟩
    rw [if_neg hbs]
    have hb : value = true → c ≠ c!"\\" := by
      rintro rfl rfl
      exact hbs rfl
    clear hbs hesc
    unfold cdispatch
    simp only
    have hlast : (cur + 1 == src.length) = decide (rest = []) := by
      rw [h1, h2]
      cases rest <;> simp <;> omega
    cases state <;> simp only [Part] at h4 ⊢
    · -- start
      obtain ⟨rfl, rfl, -⟩ := h4
      rw [List.append_nil] at h1 h2
      by_cases c1 : (c == c!"#" || c == c!";") = true
      · rw [if_pos c1]
        have hc' : c = c!"#" ∨ c = c!";" := by simpa using c1
        have hd : src.drop cur = c :: rest := by rw [h1, h2]; simp
        have hd' : skipComment src cur = cur + (rest.takeWhile (fun c => !isNl c)).length + 1 := by
          have : isNl c = false := by rcases hc' with rfl | rfl <;> rfl
          rw [skipComment, hd, List.takeWhile_cons, this]
          simp; omega
        cases ht : rest.dropWhile (fun c => !isNl c) with
        | nil =>
          left
          have := congrArg List.length (List.takeWhile_append_dropWhile (p := fun c => !isNl c) (l := rest))
          rw [ht] at this
          simp only [h1, hd', List.length_append, List.length_cons, List.length_nil] at this ⊢
          simp only [h1, List.length_append, List.length_cons] at hlen hd'
          omega
        | cons e r' =>
          have h5 : rest = rest.takeWhile (fun c => !isNl c) ++ e :: r' := by
            rw [← ht, List.takeWhile_append_dropWhile]
          generalize ht' : rest.takeWhile (fun c => !isNl c) = t at h5 hd'
          have hnl : Break e := by
            have := List.head_dropWhile_not (p := fun c => !isNl c) (l := rest) (by rw [ht]; simp)
            simp only [ht, List.head_cons] at this
            exact (isNl_iff e).1 (by simpa using this)
          have htn : ∀ x ∈ t, ¬ Break x := by
            intro x hx hbx
            rw [← ht'] at hx
            have := List.mem_takeWhile_imp hx
            rw [(isNl_iff x).2 hbx] at this
            cases this
          subst h5
          exact reading_next (p := c :: t) (c := e) (rest := r') (q := place) (by simp [h1]) (by
            show skipComment src cur + 1 = _
            rw [hd']; simp; omega) h3 (.comment hc' htn hnl) rfl rfl rfl
      rw [if_neg c1]
      by_cases c2 : (c == c!" " || c == c!"\t" || isNl c) = true
      · rw [if_pos c2]
        refine reading_next (p := []) (q := place) (by simpa using h1) (by simpa using h2) h3 ?_ rfl rfl rfl
        refine .blank ?_
        simp only [Bool.or_eq_true, beq_iff_eq, isNl_iff] at c2
        rcases c2 with (c2 | c2) | c2 <;> simp [c2]
      rw [if_neg c2]
      by_cases c3 : (c == c!"[") = true
      · rw [if_pos c3]
        obtain rfl : c = c!"[" := by simpa using c3
        exact reading_more (p := []) (by simpa using h1) (by simpa using h2) h3 ⟨rfl, rfl, rfl⟩
      rw [if_neg c3]
      have hf : First c := by
        simp only [Bool.or_eq_true, beq_iff_eq, isNl_iff, not_or] at c1 c2 c3
        exact ⟨c2.1.1, c2.1.2, c2.2, c1.1, c1.2, c3⟩
      cases place <;> simp only
      · exact ⟨.noSection, rfl, d, c :: rest, .outside, 0, h1, h3, .noSection hf, by omega⟩
      · exact .inr ⟨d, [], c :: rest, by simpa using h1, by simpa using h2, h3, nofun, ⟨c, rest, rfl, hf⟩, rfl, h2, rfl, rfl⟩
      · exact .inr ⟨d, [], c :: rest, by simpa using h1, by simpa using h2, h3, .nil, ⟨c, rest, rfl, hf⟩, rfl, rfl⟩
    · -- sectionStart
      obtain ⟨rfl, rfl, -⟩ := h4
      exact reading_more h1 (by simp [h2]) h3 ⟨c, [], rfl, nofun, by simp [h2], rfl, rfl⟩
    · -- section
      obtain ⟨x, n, rfl, a1, rfl, rfl, -⟩ := h4
      by_cases c1 : (c == c!"]") = true
      · rw [if_pos c1]
        obtain rfl : c = c!"]" := by simpa using c1
        have hs : slice src (d.length + 1) cur = x :: n := by
          have : (d ++ (b!"[" ++ x :: n)).length - (d.length + 1) = (x :: n).length := by simp; omega
          rw [slice, h1, h2, this]
          simp
        rw [hs]
        exact reading_next h1 (by simp [h2]) h3 (.head a1) rfl rfl rfl
      rw [if_neg c1]
      by_cases c2 : (!isNl c) = true
      · rw [if_pos c2]
        refine reading_more h1 (by simp [h2]) h3 ⟨x, n ++ [c], by simp, ?_, rfl, rfl, rfl⟩
        intro y hy
        rcases List.mem_append.1 hy with hy | hy
        · exact a1 y hy
        · simp at hy; subst hy
          exact ⟨by simpa using c1, fun hb => by rw [(isNl_iff y).2 hb] at c2; cases c2⟩
      · rw [if_neg c2]
        have hb : Break c := (isNl_iff c).1 (by simpa using c2)
        exact ⟨.brokenName, rfl, d, _, place, _, by rw [h1, List.append_assoc], h3,
          .brokenName (s := rest) a1 hb, by simp [h2]⟩
    · -- key
      obtain ⟨a1, a2, rfl, rfl, rfl, -⟩ := h4
      by_cases c1 : (c == c!"=") = true
      · rw [if_pos c1]
        obtain rfl : c = c!"=" := by simpa using c1
        by_cases c2 : (cur + 1 == src.length) = true
        · rw [if_pos c2]
          exact reading_end rfl (by simpa using c2)
        · rw [if_neg c2]
          exact reading_more h1 (by simp [h2]) h3 ⟨p, [], by simp, a1, begins_snoc a2, .nil, rfl, rfl⟩
      rw [if_neg c1]
      have c1' : c ≠ c!"=" := by simpa using c1
      by_cases c2 : (!isNl c && !(cur + 1 == src.length)) = true
      · rw [if_pos c2]
        simp only [Bool.and_eq_true] at c2
        have hb : ¬ Break c := fun hb => by rw [(isNl_iff c).2 hb] at c2; cases c2.1
        exact reading_more h1 (by simp [h2]) h3 ⟨key_snoc a1 c1' hb, begins_more a2, rfl, rfl, rfl, rfl⟩
      · rw [if_neg c2]
        by_cases hb : Break c
        · rw [(isNl_iff c).2 hb]
          simp only [Bool.not_true, Bool.and_false, Bool.false_eq_true, if_false]
          have hs : slice src d.length cur = p := by rw [h1, h2]; simp [slice]
          have hp : p ≠ [] := by
            rintro rfl
            obtain ⟨y, r, e, hy⟩ := a2
            cases e
            exact hy.2.2.1 hb
          exact ⟨.noValue p, by rw [hs]; rfl, d, _, .keys, _, by rw [h1, List.append_assoc], h3,
            .noValue (s := rest) a1 (begins_cut a2 hp) hb, by simp [h2]⟩
        · rw [notBreak hb] at c2 ⊢
          simp only [Bool.not_false, Bool.true_and, Bool.and_true, Bool.not_eq_true', Bool.not_eq_false] at c2
          rw [hlast] at c2
          obtain rfl : rest = [] := by simpa using c2
          have hs : slice src d.length src.length = p ++ [c] := by
            rw [slice, h1, List.append_assoc, List.drop_left, List.take_of_length_le (by simp)]
          rw [hlast]
          simp only [decide_true, Bool.not_false, Bool.and_true, if_true]
          exact ⟨.noValue (p ++ [c]), by rw [hs]; rfl, d, _, .keys, _, by rw [h1, List.append_assoc], h3,
            .lastKey (key_snoc a1 c1' hb) a2, by simp [h2]⟩
    · -- valueStart
      obtain ⟨k, v, rfl, a1, a2, a3, rfl, rfl⟩ := h4
      have hcb := hb rfl
      by_cases c1 : isBlank c = true
      · rw [if_pos c1]
        exact reading_more h1 (by simp [h2]) h3 ⟨k, v ++ [c], by simp, a1, a2, a3.byte hcb ((isBlank_iff c).1 c1), rfl, rfl⟩
      rw [if_neg c1]
      have c1' : ¬ Blank c := fun h => c1 ((isBlank_iff c).2 h)
      by_cases c2 : (c == c!"\"") = true
      · rw [if_pos c2]
        obtain rfl : c = c!"\"" := by simpa using c2
        exact reading_more h1 (by simp [h2]) h3 ⟨k, v, [], by simp, a1, a2, a3, .nil, rfl, rfl⟩
      rw [if_neg c2]
      by_cases hbr : Break c
      · rw [(isNl_iff c).2 hbr]
        simp only [Bool.true_or, if_true]
        exact .inr ⟨d, _, c :: rest, h1, h2, h3, k, v, [], by simp, a1, a2, a3, rfl, rfl,
          .inl ⟨rfl, rfl, c, rest, rfl, .inl hbr⟩⟩
      · rw [notBreak hbr, Bool.false_or]
        by_cases c3 : (cur + 1 == src.length) = true
        · rw [if_pos c3]
          rw [hlast] at c3
          exact .inr ⟨d, _, c :: rest, h1, h2, h3, k, v, [], by simp, a1, a2, a3, rfl, rfl,
            .inl ⟨rfl, rfl, c, rest, rfl, .inr ⟨by simpa using c3, hcb⟩⟩⟩
        · rw [if_neg c3]
          exact reading_more h1 (by simp [h2]) h3 ⟨k, v, [c], by simp, a1, a2, a3, rfl, rfl,
            .inr ⟨c, [], rfl, c1', hbr, by simpa using c2, hcb, .nil⟩⟩
    · -- valueQuote
      obtain ⟨k, v, t, rfl, a1, a2, a3, a4, rfl, rfl⟩ := h4
      have hcb := hb rfl
      by_cases c1 : (c == c!"\"") = true
      · rw [if_pos c1]
        obtain rfl : c = c!"\"" := by simpa using c1
        exact reading_more h1 (by simp [h2]) h3 ⟨k, v, t, [], by simp, a1, a2, a3, a4, nofun, rfl, rfl, rfl⟩
      · rw [if_neg c1]
        exact reading_more h1 (by simp [h2]) h3 ⟨k, v, t ++ [c], by simp, a1, a2, a3, a4.byte hcb (by simpa using c1), rfl, rfl⟩
    · -- valuePostQuoted
      obtain ⟨k, v, t, g, rfl, a1, a2, a3, a4, a5, rfl, rfl, -⟩ := h4
      by_cases c1 : isBlank c = true
      · rw [if_pos c1]
        refine reading_more h1 (by simp [h2]) h3 ⟨k, v, t, g ++ [c], by simp, a1, a2, a3, a4, ?_, rfl, rfl, rfl⟩
        intro y hy
        rcases List.mem_append.1 hy with hy | hy
        · exact a5 y hy
        · simp at hy; subst hy; exact (isBlank_iff y).1 c1
      rw [if_neg c1]
      by_cases hbr : Break c
      · rw [(isNl_iff c).2 hbr]
        simp only [Bool.true_or, if_true]
        exact reading_next h1 (by simp [h2]) h3 (.quoted a1 a2 a3 a4 a5 hbr) rfl rfl rfl
      · rw [notBreak hbr, Bool.false_or]
        by_cases c2 : (cur + 1 == src.length) = true
        · rw [if_pos c2]
          exact reading_end rfl (by simpa using c2)
        · rw [if_neg c2, hlast] at *
          cases rest with
          | nil => exact absurd rfl c2
          | cons y rest =>
            exact ⟨.afterValue, rfl, d, _, .keys, _, by rw [h1, List.append_assoc], h3,
              .afterValue (d := y) (s := rest) a1 a2 a3 a4 a5 (fun h => c1 ((isBlank_iff c).2 h)) hbr, by simp [h2]⟩
    · -- value
      obtain ⟨k, v, r, rfl, a1, a2, a3, rfl, rfl, a6⟩ := h4
      have hcb := hb rfl
      by_cases hbr : Break c
      · rw [(isNl_iff c).2 hbr]
        simp only [Bool.true_or, if_true]
        rcases a6 with ⟨rfl, _⟩ | ⟨x, r', rfl, b1, b2, b3, b4, b5⟩
        · rw [List.append_nil] at h1 h2
          exact reading_next h1 (by simp [h2]) h3 (.empty a1 a2 a3 hbr) rfl rfl rfl
        · exact reading_next h1 (by simp [h2]) h3 (.plain a1 a2 a3 b1 b2 b3 b4 b5 hbr) rfl rfl rfl
      · rw [notBreak hbr, Bool.false_or]
        by_cases c2 : (cur + 1 == src.length) = true
        · rw [if_pos c2]
          exact reading_end rfl (by simpa using c2)
        · rw [if_neg c2]
          rcases a6 with ⟨rfl, _, e, r', he, h⟩ | ⟨x, r', rfl, b1, b2, b3, b4, b5⟩
          · cases he
            rcases h with h | ⟨rfl, _⟩
            · exact absurd h hbr
            · rw [hlast] at c2; exact absurd rfl c2
          · exact reading_more h1 (by simp [h2]) h3 ⟨k, v, x :: (r' ++ [c]), by simp, a1, a2, a3, rfl, rfl,
              .inr ⟨x, r' ++ [c], rfl, b1, b2, b3, b4, b5.byte hcb hbr⟩⟩
    · -- listStart
      obtain ⟨a1, a2, rfl, rfl⟩ := h4
      have hcb := hb rfl
      by_cases c1 : isBlank c = true
      · rw [if_pos c1]
        exact reading_more h1 (by simp [h2]) h3 ⟨a1.byte hcb ((isBlank_iff c).1 c1), begins_more a2, rfl, rfl⟩
      rw [if_neg c1]
      have c1' : ¬ Blank c := fun h => c1 ((isBlank_iff c).2 h)
      by_cases c2 : (c == c!"\"") = true
      · rw [if_pos c2]
        obtain rfl : c = c!"\"" := by simpa using c2
        exact reading_more h1 (by simp [h2]) h3 ⟨p, [], by simp, begins_snoc a2, a1, .nil, rfl, rfl⟩
      · rw [if_neg c2]
        exact reading_more h1 (by simp [h2]) h3 ⟨p, c, [], by simp, begins_snoc a2, a1, c1', by simpa using c2, hcb,
          .nil, rfl, rfl⟩
    · -- listQuote
      obtain ⟨v, t, rfl, a1, a2, a3, rfl, rfl⟩ := h4
      have hcb := hb rfl
      by_cases c1 : (c == c!"\"") = true
      · rw [if_pos c1]
        obtain rfl : c = c!"\"" := by simpa using c1
        exact reading_more h1 (by simp [h2]) h3 ⟨v, t, [], by simp, a1, a2, a3, nofun, rfl, rfl, rfl⟩
      · rw [if_neg c1]
        exact reading_more h1 (by simp [h2]) h3 ⟨v, t ++ [c], by simp, a1, a2, a3.byte hcb (by simpa using c1), rfl, rfl⟩
    · -- listPostQuoted
      obtain ⟨v, t, g, rfl, a1, a2, a3, a4, rfl, rfl, -⟩ := h4
      by_cases c1 : isBlank c = true
      · rw [if_pos c1]
        refine reading_more h1 (by simp [h2]) h3 ⟨v, t, g ++ [c], by simp, a1, a2, a3, ?_, rfl, rfl, rfl⟩
        intro y hy
        rcases List.mem_append.1 hy with hy | hy
        · exact a4 y hy
        · simp at hy; subst hy; exact (isBlank_iff y).1 c1
      rw [if_neg c1]
      by_cases hbr : Break c
      · rw [(isNl_iff c).2 hbr]
        simp only [Bool.true_or, if_true]
        exact reading_next h1 (by simp [h2]) h3 (.quotedItem a1 a2 a3 a4 hbr) rfl rfl rfl
      · rw [notBreak hbr, Bool.false_or]
        by_cases c2 : (cur + 1 == src.length) = true
        · rw [if_pos c2]
          exact reading_end rfl (by simpa using c2)
        · rw [if_neg c2, hlast] at *
          cases rest with
          | nil => exact absurd rfl c2
          | cons y rest =>
            exact ⟨.afterItem, rfl, d, _, .list, _, by rw [h1, List.append_assoc], h3,
              .afterItem (d := y) (s := rest) a1 a2 a3 a4 (fun h => c1 ((isBlank_iff c).2 h)) hbr, by simp [h2]⟩
    · -- list
      obtain ⟨v, x, r, rfl, a1, a2, a3, a4, a5, a6, rfl, rfl⟩ := h4
      have hcb := hb rfl
      by_cases hbr : Break c
      · rw [(isNl_iff c).2 hbr]
        simp only [Bool.true_or, if_true]
        exact reading_next h1 (by simp [h2]) h3 (.item a1 a2 a3 a4 a5 a6 hbr) rfl rfl rfl
      · rw [notBreak hbr, Bool.false_or]
        by_cases c2 : (cur + 1 == src.length) = true
        · rw [if_pos c2]
          exact reading_end rfl (by simpa using c2)
        · rw [if_neg c2]
          exact reading_more h1 (by simp [h2]) h3 ⟨v, x, r ++ [c], by simp, a1, a2, a3, a4, a5, a6.byte hcb hbr, rfl, rfl⟩

/-- A refused file has a mistake. -/
theorem refused {e : Err} {n : Nat} (h : parse src lists = some (.ok (.error (e, n)))) :
    ∃ why, e = errorOf why ∧ Malformed lists src why n := by
  obtain ⟨m, hm⟩ := (parse_control _).1 h
  obtain ⟨a, ha, hp⟩ := runM_safe (step := cstep src lists) (Reading src lists)
    (fun r => ∀ e n, r = .error (e, n) → ∃ why, e = errorOf why ∧ Malformed lists src why n)
    (fun s s' hi hn => by have := read_step hi; rw [hn] at this; exact this)
    (fun s hi hn => by have := read_step hi; rw [hn] at this; exact this)
    (fun s r hi hn e n hr => by have := read_step hi; rw [hn, hr] at this; exact this)
    m (abs St.init) _ (.inr ⟨[], [], src, by simp, rfl, .nil, rfl, rfl, rfl⟩) hm
  cases ha
  exact hp _ _ rfl

/-! ### The way to a mistake -/

theorem cstep_at {cur start : Nat} {state : State} {place : Place} {value : Bool} {c : Byte} (h : src[cur]? = some c)
    (hv : value = false ∨ c ≠ c!"\\") :
    cstep src lists ⟨cur, start, state, place, value, false⟩ =
      cdispatch src lists ⟨cur, start, state, place, value, false⟩ c := by
  unfold cstep
  have : (value && c == c!"\\") = false := by
    rcases hv with rfl | hv
    · rfl
    · simp [hv]
  simp only [h, this, Bool.false_eq_true, if_false]

/-- A text with escapes that a state goes over. -/
theorem go_escaped {P : Byte → Prop} {start : Nat} {state : State} {place : Place}
    (hstep : ∀ cur c, cur + 1 < src.length → c ≠ c!"\\" → P c →
      cdispatch src lists ⟨cur, start, state, place, true, false⟩ c = cadv ⟨cur, start, state, place, true, false⟩)
    {w : Str} (hw : Escaped P w) (pre post : Str) (hsrc : src = pre ++ w ++ post) (hpost : post ≠ []) :
    Reach (cstep src lists) ⟨pre.length, start, state, place, true, false⟩
      ⟨(pre ++ w).length, start, state, place, true, false⟩ := by
  induction hw generalizing pre with
  | nil => simpa using Reach.refl _
  | @pair c s _ ih =>
    have e1 : src[pre.length]? = some c!"\\" := by simp [hsrc]
    have e2 : src[pre.length + 1]? = some c := by
      rw [hsrc]; simp [List.getElem?_append_right]
    have := ih (pre ++ [c!"\\", c]) (by simp [hsrc])
    refine Reach.head (b := ⟨pre.length + 1, start, state, place, true, true⟩) ?_ (Reach.head
      (b := ⟨pre.length + 2, start, state, place, true, false⟩) ?_ (by simpa using this))
    · simp [cstep, e1, cadv]
    · simp [cstep, e2, cadv]
  | @byte c s h1 h2 _ ih =>
    have e1 : src[pre.length]? = some c := by simp [hsrc]
    have := ih (pre ++ [c]) (by simp [hsrc])
    refine Reach.head (b := ⟨pre.length + 1, start, state, place, true, false⟩) ?_ (by simpa using this)
    have hl := List.length_pos_iff.2 hpost
    rw [cstep_at e1 (.inr h1), hstep _ _ (by simp [hsrc]; omega) h1 h2]
    rfl

/-- A text without escapes that a state goes over. -/
theorem go_over {P : Byte → Prop} {start : Nat} {state : State} {place : Place}
    (hstep : ∀ cur c, cur + 1 < src.length → P c →
      cdispatch src lists ⟨cur, start, state, place, false, false⟩ c = cadv ⟨cur, start, state, place, false, false⟩)
    (w pre post : Str) (hw : ∀ c ∈ w, P c) (hsrc : src = pre ++ w ++ post) (hpost : post ≠ []) :
    Reach (cstep src lists) ⟨pre.length, start, state, place, false, false⟩
      ⟨(pre ++ w).length, start, state, place, false, false⟩ := by
  induction w generalizing pre with
  | nil => simpa using Reach.refl _
  | cons c s ih =>
    have e1 : src[pre.length]? = some c := by simp [hsrc]
    have := ih (pre ++ [c]) (fun x hx => hw x (by simp [hx])) (by simp [hsrc])
    refine Reach.head (b := ⟨pre.length + 1, start, state, place, false, false⟩) ?_ (by simpa using this)
    have hl := List.length_pos_iff.2 hpost
    rw [cstep_at e1 (.inl rfl), hstep _ _ (by simp [hsrc]; omega) (hw c (by simp))]
    rfl

/-- One byte. -/
theorem go_one {cur start start' : Nat} {state state' : State} {place place' : Place} {value value' : Bool} {c : Byte}
    (h : src[cur]? = some c) (hv : value = false ∨ c ≠ c!"\\")
    (hd : cdispatch src lists ⟨cur, start, state, place, value, false⟩ c =
      cadv ⟨cur, start', state', place', value', false⟩) :
    Reach (cstep src lists) ⟨cur, start, state, place, value, false⟩
      ⟨cur + 1, start', state', place', value', false⟩ :=
  Reach.one (by rw [cstep_at h hv, hd]; rfl)

theorem at_pre {pre post : Str} {c : Byte} (h : src = pre ++ c :: post) : src[pre.length]? = some c := by
  simp [h]

/-- The beginning of a line of a section. -/
theorem go_begin {c : Byte} {pre post : Str} {start : Nat} {place : Place} (hp : place ≠ .outside)
    (h : src = pre ++ c :: post) (hf : First c) :
    Reach (cstep src lists) ⟨pre.length, start, .start, place, false, false⟩
      ⟨pre.length, pre.length, if place = .keys then .key else .listStart, place, decide (place = .list), false⟩ := by
  refine Reach.one ?_
  obtain ⟨f1, f2, f3, f4, f5, f6⟩ := hf
  rw [cstep_at (at_pre h) (.inl rfl), cdispatch]
  simp only
  rw [if_neg (by simp [f4, f5]), if_neg (by simp [f1, f2, notBreak f3]), if_neg (by simp [f6])]
  cases place
  · exact absurd rfl hp
  · rfl
  · rfl

/-- A key with its equal sign. -/
theorem go_key {k pre post : Str} {start : Nat} (hsrc : src = pre ++ (k ++ b!"=") ++ post) (hpost : post ≠ [])
    (hk : Key k) (hb : Begins (k ++ b!"=")) :
    Reach (cstep src lists) ⟨pre.length, start, .start, .keys, false, false⟩
      ⟨(pre ++ (k ++ b!"=")).length, pre.length, .valueStart, .keys, true, false⟩ := by
  obtain ⟨c, r, e, hf⟩ := hb
  have hl := List.length_pos_iff.2 hpost
  refine (go_begin (c := c) (post := r ++ post) (by simp) (by rw [hsrc, e]; simp) hf).trans ?_
  refine (go_over (P := fun c => c ≠ c!"=" ∧ ¬ Break c) ?_ k pre (b!"=" ++ post) hk (by simp [hsrc]) (by simp)).trans ?_
  · intro cur c hc hp
    rw [if_pos rfl, cdispatch]
    simp only
    rw [if_neg (by simp [hp.1]), if_pos (by simp [notBreak hp.2]; omega)]
  · have e1 : src = (pre ++ k) ++ c!"=" :: post := by simp [hsrc]
    have := go_one (src := src) (lists := lists) (start := pre.length) (state := .key) (place := .keys) (value := false)
      (start' := pre.length) (state' := .valueStart) (place' := .keys) (value' := true) (at_pre e1) (.inl rfl) (by
        rw [cdispatch]
        simp only
        rw [if_pos (by decide), if_neg (by simp [hsrc]; omega)])
    rw [show (pre ++ (k ++ b!"=")).length = (pre ++ k).length + 1 by simp; omega]
    exact this

/-- Blanks and escapes before a value. -/
theorem go_lead {v pre post : Str} {start : Nat} {place : Place} {state : State}
    (hst : state = .valueStart ∨ state = .listStart) (hsrc : src = pre ++ v ++ post) (hpost : post ≠ []) (hv : Lead v) :
    Reach (cstep src lists) ⟨pre.length, start, state, place, true, false⟩
      ⟨(pre ++ v).length, start, state, place, true, false⟩ := by
  refine go_escaped ?_ hv pre post hsrc hpost
  intro cur c _ _ hp
  rcases hst with rfl | rfl <;> · rw [cdispatch]; simp only; rw [if_pos ((isBlank_iff c).2 hp)]

/-- A quoted value and the blanks after it. -/
theorem go_quoted {t g pre post : Str} {start : Nat} {place : Place} {s1 s2 s3 : State}
    (hst : (s1 = .valueStart ∧ s2 = .valueQuote ∧ s3 = .valuePostQuoted) ∨
      (s1 = .listStart ∧ s2 = .listQuote ∧ s3 = .listPostQuoted))
    (hsrc : src = pre ++ (b!"\"" ++ t ++ b!"\"" ++ g) ++ post) (hpost : post ≠ []) (ht : Quoted t)
    (hg : ∀ c ∈ g, Blank c) :
    Reach (cstep src lists) ⟨pre.length, start, s1, place, true, false⟩
      ⟨(pre ++ (b!"\"" ++ t ++ b!"\"" ++ g)).length, start, s3, place, false, false⟩ := by
  have e1 : src = pre ++ c!"\"" :: (t ++ b!"\"" ++ g ++ post) := by simp [hsrc]
  have w1 := go_one (src := src) (lists := lists) (start := start) (state := s1) (place := place) (value := true)
    (start' := start) (state' := s2) (place' := place) (value' := true) (at_pre e1) (.inr (by decide)) (by
      rcases hst with ⟨rfl, rfl, rfl⟩ | ⟨rfl, rfl, rfl⟩ <;> rfl)
  have e2 : src = (pre ++ b!"\"") ++ t ++ (b!"\"" ++ g ++ post) := by simp [hsrc]
  have w2 := go_escaped (src := src) (lists := lists) (P := (· ≠ c!"\"")) (start := start) (state := s2) (place := place) (by
    intro cur c _ _ hp
    rcases hst with ⟨rfl, rfl, rfl⟩ | ⟨rfl, rfl, rfl⟩ <;> · rw [cdispatch]; simp only; rw [if_neg (by simp [hp])])
    ht _ _ e2 (by simp)
  have e3 : src = (pre ++ b!"\"" ++ t) ++ c!"\"" :: (g ++ post) := by simp [hsrc]
  have w3 := go_one (src := src) (lists := lists) (start := start) (state := s2) (place := place) (value := true)
    (start' := start) (state' := s3) (place' := place) (value' := false) (at_pre e3) (.inr (by decide)) (by
      rcases hst with ⟨rfl, rfl, rfl⟩ | ⟨rfl, rfl, rfl⟩ <;> rfl)
  have e4 : src = (pre ++ b!"\"" ++ t ++ b!"\"") ++ g ++ post := by simp [hsrc]
  have w4 := go_over (src := src) (lists := lists) (P := Blank) (start := start) (state := s3) (place := place) (by
    intro cur c _ hp
    rcases hst with ⟨rfl, rfl, rfl⟩ | ⟨rfl, rfl, rfl⟩ <;>
      · rw [cdispatch]; simp only; rw [if_pos ((isBlank_iff c).2 hp)])
    g _ _ hg e4 hpost
  simp only [List.length_append, List.length_singleton, Nat.add_assoc] at w1 w2 w3 w4 ⊢
  exact w1.trans (w2.trans (w3.trans w4))

/-- The name of a section, up to the byte that ends it. -/
theorem go_name {n pre post : Str} {c : Byte} {start : Nat} {place : Place}
    (hsrc : src = pre ++ (b!"[" ++ c :: n) ++ post) (hpost : post ≠ []) (hn : Name n) :
    Reach (cstep src lists) ⟨pre.length, start, .start, place, false, false⟩
      ⟨(pre ++ (b!"[" ++ c :: n)).length, pre.length + 1, .section, place, false, false⟩ := by
  have e1 : src = pre ++ c!"[" :: (c :: n ++ post) := by simp [hsrc]
  have w1 := go_one (src := src) (lists := lists) (start := start) (state := .start) (place := place) (value := false)
    (start' := start) (state' := .sectionStart) (place' := place) (value' := false) (at_pre e1) (.inl rfl) rfl
  have e2 : src = (pre ++ b!"[") ++ c :: (n ++ post) := by simp [hsrc]
  have w2 := go_one (src := src) (lists := lists) (start := start) (state := .sectionStart) (place := place) (value := false)
    (start' := pre.length + 1) (state' := .section) (place' := place) (value' := false) (at_pre e2) (.inl rfl)
    (by rw [cdispatch]; simp)
  have e3 : src = (pre ++ b!"[" ++ [c]) ++ n ++ post := by simp [hsrc]
  have w3 := go_over (src := src) (lists := lists) (P := fun c => c ≠ c!"]" ∧ ¬ Break c) (start := pre.length + 1) (state := .section)
    (place := place) (by
      intro cur x _ hp
      rw [cdispatch]; simp only
      rw [if_neg (by simp [hp.1]), if_pos (by simp [notBreak hp.2])])
    n _ _ hn e3 hpost
  simp only [List.length_append, List.length_nil, List.length_cons, Nat.add_assoc, Nat.zero_add] at w1 w2 w3 ⊢
  refine w1.trans (w2.trans ?_)
  rw [Nat.add_comm n.length 1]
  exact w3

/-- The rest of a plain value. -/
theorem go_rest {r pre post : Str} {c e : Byte} {start : Nat} {place : Place} {s1 s2 : State}
    (hst : (s1 = .valueStart ∧ s2 = .value ∧ ¬ Break c) ∨ (s1 = .listStart ∧ s2 = .list))
    (hsrc : src = pre ++ (c :: r ++ [e]) ++ post) (h1 : ¬ Blank c) (h2 : c ≠ c!"\"")
    (h3 : c ≠ c!"\\") (hr : Rest r) (he : Break e) :
    Reach (cstep src lists) ⟨pre.length, start, s1, place, true, false⟩
      ⟨(pre ++ (c :: r ++ [e])).length, start, .start, place, false, false⟩ := by
  have e1 : src = pre ++ c :: (r ++ [e] ++ post) := by simp [hsrc]
  have hlen : ¬ pre.length + 1 = src.length := by simp [hsrc]
  have w1 := go_one (src := src) (lists := lists) (start := start) (state := s1) (place := place) (value := true)
    (start' := start) (state' := s2) (place' := place) (value' := true) (at_pre e1) (.inr h3) (by
      rcases hst with ⟨rfl, rfl, h4⟩ | ⟨rfl, rfl⟩
      · rw [cdispatch]; simp only
        rw [if_neg (by simp [notBlank h1]), if_neg (by simp [h2]), if_neg (by simp [notBreak h4, hlen])]
      · rw [cdispatch]; simp only
        rw [if_neg (by simp [notBlank h1]), if_neg (by simp [h2])])
  have e2 : src = (pre ++ [c]) ++ r ++ ([e] ++ post) := by simp [hsrc]
  have w2 := go_escaped (src := src) (lists := lists) (P := fun c => ¬ Break c) (start := start) (state := s2) (place := place) (by
    intro cur x hx _ hp
    have : ¬ cur + 1 = src.length := by omega
    rcases hst with ⟨rfl, rfl, _⟩ | ⟨rfl, rfl⟩ <;>
      · rw [cdispatch]; simp only; rw [if_neg (by simp [notBreak hp, this])])
    hr _ _ e2 (by simp)
  have e3 : src = (pre ++ [c] ++ r) ++ e :: post := by simp [hsrc]
  have he' : e ≠ c!"\\" := by rcases he with rfl | rfl <;> decide
  have w3 := go_one (src := src) (lists := lists) (start := start) (state := s2) (place := place) (value := true)
    (start' := start) (state' := .start) (place' := place) (value' := false) (at_pre e3) (.inr he') (by
      rcases hst with ⟨rfl, rfl, _⟩ | ⟨rfl, rfl⟩ <;>
        · rw [cdispatch]; simp only; rw [if_pos (by simp [(isNl_iff e).2 he])])
  simp only [List.length_append, List.length_nil, List.length_cons, Nat.add_assoc, Nat.zero_add] at w1 w2 w3 ⊢
  refine w1.trans (w2.trans ?_)
  rw [show r.length + (1 + 1) = 1 + (r.length + 1) by omega]
  exact w3

/-- A line. -/
theorem go_line {p q : Place} {t pre post : Str} {start : Nat} (hsrc : src = pre ++ t ++ post) (hpost : post ≠ [])
    (h : Line lists p t q) :
    ∃ start', Reach (cstep src lists) ⟨pre.length, start, .start, p, false, false⟩
      ⟨(pre ++ t).length, start', .start, q, false, false⟩ := by
  cases h with
  | @blank _ c h =>
    refine ⟨start, ?_⟩
    have := go_one (src := src) (lists := lists) (start := start) (state := .start) (place := p) (value := false)
      (start' := start) (state' := .start) (place' := p) (value' := false) (at_pre (pre := pre) (c := c) (post := post) (by simp [hsrc]))
      (.inl rfl) (by
        rw [cdispatch]; simp only
        have : c ≠ c!"#" ∧ c ≠ c!";" := by
          rcases h with rfl | rfl | rfl | rfl <;> decide
        rw [if_neg (by simp [this]), if_pos]
        simp only [Bool.or_eq_true, beq_iff_eq, isNl_iff]
        rcases h with h | h | h
        · exact .inl (.inl h)
        · exact .inl (.inr h)
        · exact .inr h)
    simpa using this
  | @comment _ m e t hm ht he =>
    refine ⟨start, Reach.one ?_⟩
    have e1 : src = pre ++ m :: (t ++ [e] ++ post) := by simp [hsrc]
    rw [cstep_at (at_pre e1) (.inl rfl), cdispatch]
    simp only
    rw [if_pos (by simpa using hm)]
    have : skipComment src pre.length = pre.length + (t.length + 1) := by
      have hm' : isNl m = false := by rcases hm with rfl | rfl <;> rfl
      have : src.drop pre.length = m :: (t ++ e :: post) := by rw [e1]; simp
      rw [skipComment, this, List.takeWhile_cons, hm', Bool.not_false, if_pos rfl,
        List.takeWhile_append_of_pos (by intro x hx; simp [notBreak (ht x hx)]), List.takeWhile_cons,
        (isNl_iff e).2 he]
      simp
    rw [this]
    simp [cadv, Nat.add_assoc]
  | @head _ c n hn =>
    refine ⟨pre.length + 1, ?_⟩
    have e0 : src = pre ++ (b!"[" ++ c :: n) ++ (b!"]" ++ post) := by simp [hsrc]
    have w1 := go_name (src := src) (lists := lists) (start := start) (place := p) e0 (by simp) hn
    have e1 : src = (pre ++ (b!"[" ++ c :: n)) ++ c!"]" :: post := by simp [hsrc]
    have w2 := go_one (src := src) (lists := lists) (start := pre.length + 1) (state := .section) (place := p) (value := false)
      (start' := pre.length + 1) (state' := .start) (place' := if cstr (c :: n) ∈ lists then .list else .keys)
      (value' := false) (at_pre e1) (.inl rfl) (by
        rw [cdispatch]; simp only
        have hs : slice src (pre.length + 1) (pre ++ (b!"[" ++ c :: n)).length = c :: n := by
          have : (pre ++ (b!"[" ++ c :: n)).length - (pre.length + 1) = (c :: n).length := by simp; omega
          rw [slice, e1, this]
          simp
        rw [if_pos (by decide), hs])
    have := w1.trans w2
    simpa [Nat.add_assoc] using this
  | @empty k v e hk hb hv he =>
    refine ⟨pre.length, ?_⟩
    have w1 := go_key (src := src) (lists := lists) (start := start) (k := k) (pre := pre) (post := v ++ [e] ++ post)
      (by simp [hsrc]) (by simp) hk hb
    have w2 := go_lead (src := src) (lists := lists) (start := pre.length) (place := .keys) (state := .valueStart) (v := v)
      (pre := pre ++ (k ++ b!"=")) (post := [e] ++ post) (.inl rfl) (by simp [hsrc]) (by simp) hv
    have e3 : src = (pre ++ (k ++ b!"=") ++ v) ++ e :: post := by simp [hsrc]
    have he' : e ≠ c!"\\" ∧ e ≠ c!"\"" ∧ isBlank e = false := by rcases he with rfl | rfl <;> decide
    have w3 : Reach (cstep src lists) ⟨(pre ++ (k ++ b!"=") ++ v).length, pre.length, .valueStart, .keys, true, false⟩
        ⟨(pre ++ (k ++ b!"=") ++ v).length, pre.length, .value, .keys, true, false⟩ := Reach.one (by
      rw [cstep_at (at_pre e3) (.inr he'.1), cdispatch]; simp only
      rw [if_neg (by simp [he'.2.2]), if_neg (by simp [he'.2.1]), if_pos (by simp [(isNl_iff e).2 he])])
    have w4 := go_one (src := src) (lists := lists) (start := pre.length) (state := .value) (place := .keys) (value := true)
      (start' := pre.length) (state' := .start) (place' := .keys) (value' := false) (at_pre e3) (.inr he'.1) (by
        rw [cdispatch]; simp only; rw [if_pos (by simp [(isNl_iff e).2 he])])
    have := w1.trans (w2.trans (w3.trans w4))
    simpa [Nat.add_assoc] using this
  | @plain k v r c e hk hb hv h1 h2 h3 h4 hr he =>
    refine ⟨pre.length, ?_⟩
    have w1 := go_key (src := src) (lists := lists) (start := start) (k := k) (pre := pre) (post := v ++ c :: r ++ [e] ++ post)
      (by simp [hsrc]) (by simp) hk hb
    have w2 := go_lead (src := src) (lists := lists) (start := pre.length) (place := .keys) (state := .valueStart) (v := v)
      (pre := pre ++ (k ++ b!"=")) (post := c :: r ++ [e] ++ post) (.inl rfl) (by simp [hsrc]) (by simp) hv
    have w3 := go_rest (src := src) (lists := lists) (start := pre.length) (place := .keys) (pre := pre ++ (k ++ b!"=") ++ v)
      (post := post) (.inl ⟨rfl, rfl, h2⟩) (by simp [hsrc]) h1 h3 h4 hr he
    have := w1.trans (w2.trans w3)
    simpa [Nat.add_assoc] using this
  | @quoted k v t g e hk hb hv ht hg he =>
    refine ⟨pre.length, ?_⟩
    have w1 := go_key (src := src) (lists := lists) (start := start) (k := k) (pre := pre)
      (post := v ++ b!"\"" ++ t ++ b!"\"" ++ g ++ [e] ++ post) (by simp [hsrc]) (by simp) hk hb
    have w2 := go_lead (src := src) (lists := lists) (start := pre.length) (place := .keys) (state := .valueStart) (v := v)
      (pre := pre ++ (k ++ b!"=")) (post := b!"\"" ++ t ++ b!"\"" ++ g ++ [e] ++ post) (.inl rfl) (by simp [hsrc])
      (by simp) hv
    have w3 := go_quoted (src := src) (lists := lists) (start := pre.length) (place := .keys) (pre := pre ++ (k ++ b!"=") ++ v)
      (post := [e] ++ post) (.inl ⟨rfl, rfl, rfl⟩) (by simp [hsrc]) (by simp) ht hg
    have e4 : src = (pre ++ (k ++ b!"=") ++ v ++ (b!"\"" ++ t ++ b!"\"" ++ g)) ++ e :: post := by simp [hsrc]
    have w4 := go_one (src := src) (lists := lists) (start := pre.length) (state := .valuePostQuoted) (place := .keys) (value := false)
      (start' := pre.length) (state' := .start) (place' := .keys) (value' := false) (at_pre e4) (.inl rfl) (by
        rw [cdispatch]; simp only
        rw [if_neg (by simp [notBlank (blank_break he)]), if_pos (by simp [(isNl_iff e).2 he])])
    have := w1.trans (w2.trans (w3.trans w4))
    simpa [Nat.add_assoc] using this
  | @item v r c e hb hv h1 h2 h3 hr he =>
    refine ⟨pre.length, ?_⟩
    obtain ⟨x, r', hx, hf⟩ := hb
    have w1 := go_begin (src := src) (lists := lists) (start := start) (place := .list) (c := x) (pre := pre)
      (post := r' ++ r ++ [e] ++ post) (by simp) (by
        have : v ++ c :: r ++ [e] = (v ++ [c]) ++ (r ++ [e]) := by simp
        rw [hsrc, this, hx]; simp) hf
    have w2 := go_lead (src := src) (lists := lists) (start := pre.length) (place := .list) (state := .listStart) (v := v)
      (pre := pre) (post := c :: r ++ [e] ++ post) (.inr rfl) (by simp [hsrc]) (by simp) hv
    have w3 := go_rest (src := src) (lists := lists) (start := pre.length) (place := .list) (pre := pre ++ v)
      (post := post) (.inr ⟨rfl, rfl⟩) (by simp [hsrc]) h1 h2 h3 hr he
    have := w1.trans (w2.trans w3)
    simpa [Nat.add_assoc] using this
  | @quotedItem v t g e hb hv ht hg he =>
    refine ⟨pre.length, ?_⟩
    obtain ⟨x, r', hx, hf⟩ := hb
    have w1 := go_begin (src := src) (lists := lists) (start := start) (place := .list) (c := x) (pre := pre)
      (post := r' ++ (t ++ b!"\"" ++ g ++ [e] ++ post)) (by simp) (by
        have : v ++ b!"\"" ++ t ++ b!"\"" ++ g ++ [e] = (v ++ b!"\"") ++ (t ++ b!"\"" ++ g ++ [e]) := by simp
        rw [hsrc, this, hx]; simp) hf
    have w2 := go_lead (src := src) (lists := lists) (start := pre.length) (place := .list) (state := .listStart) (v := v)
      (pre := pre) (post := b!"\"" ++ t ++ b!"\"" ++ g ++ [e] ++ post) (.inr rfl) (by simp [hsrc])
      (by simp) hv
    have w3 := go_quoted (src := src) (lists := lists) (start := pre.length) (place := .list) (pre := pre ++ v)
      (post := [e] ++ post) (.inr ⟨rfl, rfl, rfl⟩) (by simp [hsrc]) (by simp) ht hg
    have e4 : src = (pre ++ v ++ (b!"\"" ++ t ++ b!"\"" ++ g)) ++ e :: post := by simp [hsrc]
    have w4 := go_one (src := src) (lists := lists) (start := pre.length) (state := .listPostQuoted) (place := .list) (value := false)
      (start' := pre.length) (state' := .start) (place' := .list) (value' := false) (at_pre e4) (.inl rfl) (by
        rw [cdispatch]; simp only
        rw [if_neg (by simp [notBlank (blank_break he)]), if_pos (by simp [(isNl_iff e).2 he])])
    have := w1.trans (w2.trans (w3.trans w4))
    simpa [Nat.add_assoc] using this

/-- Some lines. -/
theorem go_lines {p q : Place} {t : Str} (h : Lines lists p t q) :
    ∀ {pre post : Str} {start : Nat}, src = pre ++ t ++ post → post ≠ [] →
    ∃ start', Reach (cstep src lists) ⟨pre.length, start, .start, p, false, false⟩
      ⟨(pre ++ t).length, start', .start, q, false, false⟩ := by
  induction h with
  | nil => intro pre post start _ _; exact ⟨start, by simpa using Reach.refl _⟩
  | @snoc q r s t _ h2 ih =>
    intro pre post start hsrc hpost
    obtain ⟨s1, w1⟩ := ih (start := start) (pre := pre) (post := t ++ post) (by simp [hsrc]) (by simp [hpost])
    obtain ⟨s2, w2⟩ := go_line (src := src) (start := s1) (pre := pre ++ s) (by simpa using hsrc) hpost h2
    exact ⟨s2, by simpa using w1.trans w2⟩

/-- At a mistake. -/
theorem go_wrong {p : Place} {t pre : Str} {start : Nat} {why : Reason} {n : Nat} (hsrc : src = pre ++ t)
    (h : Mistake p t why n) :
    ∃ a, Reach (cstep src lists) ⟨pre.length, start, .start, p, false, false⟩ a ∧
      cstep src lists a = .done (.error (errorOf why, pre.length + n)) := by
  cases h with
  | @noSection c s hf =>
    refine ⟨_, Reach.refl _, ?_⟩
    obtain ⟨f1, f2, f3, f4, f5, f6⟩ := hf
    rw [cstep_at (at_pre hsrc) (.inl rfl), cdispatch]
    simp only
    rw [if_neg (by simp [f4, f5]), if_neg (by simp [f1, f2, notBreak f3]), if_neg (by simp [f6])]
    rfl
  | @brokenName _ c e n s hn he =>
    refine ⟨_, go_name (src := src) (lists := lists) (start := start) (place := p) (c := c) (post := e :: s) (by simp [hsrc])
      (by simp) hn, ?_⟩
    have e1 : src = (pre ++ (b!"[" ++ c :: n)) ++ e :: s := by simp [hsrc]
    rw [cstep_at (at_pre e1) (.inl rfl), cdispatch]
    simp only
    have he' : e ≠ c!"]" := by rcases he with rfl | rfl <;> decide
    rw [if_neg (by simp [he']), if_neg (by simp [(isNl_iff e).2 he])]
    simp [errorOf]
  | @noValue k s e hk hb he =>
    obtain ⟨c, r, hc, hf⟩ := hb
    have w1 := go_begin (src := src) (lists := lists) (start := start) (place := .keys) (c := c) (pre := pre)
      (post := r ++ e :: s) (by simp) (by rw [hsrc, hc]; simp) hf
    have w2 := go_over (src := src) (lists := lists) (P := fun c => c ≠ c!"=" ∧ ¬ Break c) (start := pre.length)
      (state := .key) (place := .keys) (by
        intro cur c hc hp
        rw [cdispatch]
        simp only
        rw [if_neg (by simp [hp.1]), if_pos (by simp [notBreak hp.2]; omega)]) k pre (e :: s) hk
        (by simp [hsrc]) (by simp)
    refine ⟨_, w1.trans w2, ?_⟩
    have e1 : src = (pre ++ k) ++ e :: s := by simp [hsrc]
    rw [cstep_at (at_pre e1) (.inl rfl), cdispatch]
    simp only
    have he' : e ≠ c!"=" := by rcases he with rfl | rfl <;> decide
    have hs : slice src pre.length (pre ++ k).length = k := by rw [e1]; simp [slice]
    rw [if_neg (by simp [he']), if_neg (by simp [(isNl_iff e).2 he])]
    simp only [(isNl_iff e).2 he, Bool.not_true, Bool.and_false, Bool.false_eq_true, if_false, hs]
    simp [errorOf]
  | @lastKey k c hk hb =>
    obtain ⟨x, r, hc, hf⟩ := hb
    have w1 := go_begin (src := src) (lists := lists) (start := start) (place := .keys) (c := x) (pre := pre)
      (post := r) (by simp) (by rw [hsrc, hc]) hf
    have w2 := go_over (src := src) (lists := lists) (P := fun c => c ≠ c!"=" ∧ ¬ Break c) (start := pre.length)
      (state := .key) (place := .keys) (by
        intro cur c hc hp
        rw [cdispatch]
        simp only
        rw [if_neg (by simp [hp.1]), if_pos (by simp [notBreak hp.2]; omega)]) k pre [c]
        (fun y hy => hk y (by simp [hy])) (by simp [hsrc]) (by simp)
    refine ⟨_, w1.trans w2, ?_⟩
    have e1 : src = (pre ++ k) ++ c :: [] := by simp [hsrc]
    obtain ⟨hk1, hk2⟩ := hk c (by simp)
    rw [cstep_at (at_pre e1) (.inl rfl), cdispatch]
    simp only
    have hl : ((pre ++ k).length + 1 == src.length) = true := by simp [e1, Nat.add_assoc]
    have hs : slice src pre.length src.length = k ++ [c] := by
      rw [slice, e1, List.append_assoc, List.drop_left, List.take_of_length_le (by simp)]
    rw [if_neg (by simp [hk1]), hl, notBreak hk2]
    simp only [Bool.not_false, Bool.not_true, Bool.and_false, Bool.false_eq_true, if_false, Bool.and_self, if_true, hs]
    simp [errorOf]
  | @afterValue k v t g s c d hk hb hv ht hg h1 h2 =>
    have w1 := go_key (src := src) (lists := lists) (start := start) (k := k) (pre := pre)
      (post := v ++ b!"\"" ++ t ++ b!"\"" ++ g ++ c :: d :: s) (by simp [hsrc]) (by simp) hk hb
    have w2 := go_lead (src := src) (lists := lists) (start := pre.length) (place := .keys) (state := .valueStart) (v := v)
      (pre := pre ++ (k ++ b!"=")) (post := b!"\"" ++ t ++ b!"\"" ++ g ++ c :: d :: s) (.inl rfl) (by simp [hsrc])
      (by simp) hv
    have w3 := go_quoted (src := src) (lists := lists) (start := pre.length) (place := .keys) (pre := pre ++ (k ++ b!"=") ++ v)
      (post := c :: d :: s) (.inl ⟨rfl, rfl, rfl⟩) (by simp [hsrc]) (by simp) ht hg
    refine ⟨_, w1.trans (w2.trans w3), ?_⟩
    have e4 : src = (pre ++ (k ++ b!"=") ++ v ++ (b!"\"" ++ t ++ b!"\"" ++ g)) ++ c :: (d :: s) := by simp [hsrc]
    rw [cstep_at (at_pre e4) (.inl rfl), cdispatch]
    simp only
    rw [if_neg (by simp [notBlank h1]), if_neg (by rw [e4]; simp [notBreak h2]; omega)]
    simp [errorOf, Nat.add_assoc]
  | @afterItem v t g s c d hb hv ht hg h1 h2 =>
    obtain ⟨x, r', hx, hf⟩ := hb
    have w1 := go_begin (src := src) (lists := lists) (start := start) (place := .list) (c := x) (pre := pre)
      (post := r' ++ (t ++ b!"\"" ++ g ++ c :: d :: s)) (by simp) (by
        have : v ++ b!"\"" ++ t ++ b!"\"" ++ g ++ c :: d :: s = (v ++ b!"\"") ++ (t ++ b!"\"" ++ g ++ c :: d :: s) := by
          simp
        rw [hsrc, this, hx]; simp) hf
    have w2 := go_lead (src := src) (lists := lists) (start := pre.length) (place := .list) (state := .listStart) (v := v)
      (pre := pre) (post := b!"\"" ++ t ++ b!"\"" ++ g ++ c :: d :: s) (.inr rfl) (by simp [hsrc]) (by simp) hv
    have w3 := go_quoted (src := src) (lists := lists) (start := pre.length) (place := .list) (pre := pre ++ v)
      (post := c :: d :: s) (.inr ⟨rfl, rfl, rfl⟩) (by simp [hsrc]) (by simp) ht hg
    refine ⟨_, w1.trans (w2.trans w3), ?_⟩
    have e4 : src = (pre ++ v ++ (b!"\"" ++ t ++ b!"\"" ++ g)) ++ c :: (d :: s) := by simp [hsrc]
    rw [cstep_at (at_pre e4) (.inl rfl), cdispatch]
    simp only
    rw [if_neg (by simp [notBlank h1]), if_neg (by rw [e4]; simp [notBreak h2]; omega)]
    simp [errorOf, Nat.add_assoc]

theorem mistake_ne {p : Place} {t : Str} {why : Reason} {n : Nat} (h : Mistake p t why n) : t ≠ [] := by
  cases h <;> simp

/-- A file with a mistake is refused. -/
theorem wrong_refused {why : Reason} {n : Nat} (h : Malformed lists src why n) :
    parse src lists = some (.ok (.error (errorOf why, n))) := by
  obtain ⟨s, t, p, k, rfl, h1, h2, rfl⟩ := h
  obtain ⟨s1, w1⟩ := go_lines (src := s ++ t) h1 (start := 0) (pre := []) (post := t) (by simp) (mistake_ne h2)
  obtain ⟨a, w2, hd⟩ := go_wrong (src := s ++ t) (lists := lists) (pre := s) (start := s1) rfl h2
  obtain ⟨m, hm⟩ := w1.trans w2
  refine (parse_control _).2 ⟨1 + m, ?_⟩
  have := runM_steps hm 1
  refine this.trans ?_
  rw [runM, hd]

end Blogc.Config
