import Verif.Lemmas.ContentEnds

/-!
# Block content: nested calls end, for texts with line endings of two characters

The text of a quotation is again such a text, except that its first line may start with the second
character of a line ending (if the first line of the quotation is a marker alone).
-/

namespace Blogc.Content

open Blogc

def Plain (s : Str) : Prop := ∀ c ∈ s, isNl c = false

/-- The two characters of a line ending. -/
structure Two (x y : Byte) : Prop where
  hx : isNl x = true
  hy : isNl y = true
  ne : x ≠ y

theorem Two.all {x y : Byte} (h : Two x y) {c : Byte} (hc : isNl c = true) : c = x ∨ c = y := by
  obtain ⟨hx, hy, hn⟩ := h
  simp only [isNl, Bool.or_eq_true, beq_iff_eq] at hx hy hc
  rcases hx with rfl | rfl <;> rcases hy with rfl | rfl <;> rcases hc with rfl | rfl <;> simp_all

theorem Two.pair {x y : Byte} (h : Two x y) : isPair x y = true := by
  obtain ⟨hx, hy, hn⟩ := h
  simp only [isNl, Bool.or_eq_true, beq_iff_eq] at hx hy
  rcases hx with rfl | rfl <;> rcases hy with rfl | rfl <;> simp_all [isPair]

theorem Two.pair_of {x y c : Byte} (h : Two x y) (hp : isPair y c = true) : c = x := by
  obtain ⟨hx, hy, hn⟩ := h
  simp only [isNl, Bool.or_eq_true, beq_iff_eq] at hx hy
  rcases hx with rfl | rfl <;> rcases hy with rfl | rfl <;> simp_all [isPair]

/-- All line endings are `x`, `y`. -/
inductive Pairs (x y : Byte) : Str → Prop
  | nil : Pairs x y []
  | char {c : Byte} {s : Str} : isNl c = false → Pairs x y s → Pairs x y (c :: s)
  | pair {s : Str} : Pairs x y s → Pairs x y (x :: y :: s)

theorem Pairs.after {x y : Byte} {s : Str} (ht : Two x y) (h : Pairs x y s) :
    ∀ i, s[i]? = some x → s[i + 1]? = some y := by
  induction h with
  | nil => intro i hi; cases hi
  | char hc _ ih =>
    intro i hi
    cases i with
    | zero =>
      injection hi with hi
      rw [hi, ht.hx] at hc
      cases hc
    | succ i => exact ih i hi
  | pair _ ih =>
    intro i hi
    match i with
    | 0 => rfl
    | 1 => injection hi with hi; exact absurd hi.symm ht.ne
    | i + 2 => exact ih i hi

theorem Pairs.before {x y : Byte} {s : Str} (ht : Two x y) (h : Pairs x y s) :
    ∀ i, s[i]? = some y → ∃ j, i = j + 1 ∧ s[j]? = some x := by
  induction h with
  | nil => intro i hi; cases hi
  | char hc _ ih =>
    intro i hi
    cases i with
    | zero =>
      injection hi with hi
      rw [hi, ht.hy] at hc
      cases hc
    | succ i =>
      obtain ⟨j, rfl, hj⟩ := ih i hi
      exact ⟨j + 1, rfl, hj⟩
  | pair _ ih =>
    intro i hi
    match i with
    | 0 => injection hi with hi; exact absurd hi ht.ne
    | 1 => exact ⟨0, rfl, rfl⟩
    | i + 2 =>
      obtain ⟨j, rfl, hj⟩ := ih i hi
      exact ⟨j + 2, rfl, hj⟩

theorem Pairs.plain_append {x y : Byte} {l s : Str} (hl : Plain l) (h : Pairs x y s) : Pairs x y (l ++ s) := by
  induction l with
  | nil => exact h
  | cons c l ih => exact .char (hl c (by simp)) (ih fun d hd => hl d (List.mem_cons_of_mem _ hd))

theorem Pairs.lines {x y : Byte} {ls : List Str} (h : ∀ l ∈ ls, Plain l) : Pairs x y (ls.flatMap (· ++ [x, y])) := by
  induction ls with
  | nil => exact .nil
  | cons l ls ih =>
    rw [List.flatMap_cons, List.append_assoc]
    exact .plain_append (h l (by simp)) (.pair (ih fun m hm => h m (List.mem_cons_of_mem _ hm)))

/-- The same, where the text may start with a single `y`. -/
structure Paired (x y : Byte) (s : Str) : Prop where
  after : ∀ i, s[i]? = some x → s[i + 1]? = some y
  before : ∀ i, s[i]? = some y → (i = 0 ∧ s[1]? ≠ some x) ∨ ∃ j, i = j + 1 ∧ s[j]? = some x

theorem Pairs.paired {x y : Byte} {s : Str} (ht : Two x y) (h : Pairs x y s) : Paired x y s :=
  ⟨h.after ht, fun i hi => .inr (h.before ht i hi)⟩

theorem Pairs.odd {x y : Byte} {s : Str} (ht : Two x y) (h : Pairs x y s) (h0 : s[0]? ≠ some x) :
    Paired x y (y :: s) := by
  refine ⟨fun i hi => ?_, fun i hi => ?_⟩
  · cases i with
    | zero => injection hi with hi; exact absurd hi.symm ht.ne
    | succ i => exact h.after ht i hi
  · cases i with
    | zero => exact .inl ⟨rfl, h0⟩
    | succ i =>
      obtain ⟨j, rfl, hj⟩ := h.before ht i hi
      exact .inr ⟨j + 1, rfl, hj⟩

/-- The lines of a quotation so far; `p` is its marker. -/
inductive Group (x y : Byte) (src p : Str) : List Str → Prop
  | plain {ls : List Str} : (∀ l ∈ ls, Plain l) → Group x y src p ls
  | odd {l : Str} : x ∈ p → x ∈ src → Plain l → Group x y src p [y :: l]

/-- The line of a quotation that is being read. -/
inductive QLine (x y : Byte) (src p : Str) : List Str → Str → Prop
  | plain {ls : List Str} {t : Str} : Group x y src p ls → Plain t → QLine x y src p ls t
  | odd {q l : Str} : p = q ++ [x] → Plain l → QLine x y src p [] (q ++ [x, y] ++ l)

theorem QLine.more {x y c : Byte} {src p t : Str} {ls : List Str} (h : QLine x y src p ls t) (hc : isNl c = false) :
    QLine x y src p ls (t ++ [c]) := by
  have key : ∀ t : Str, Plain t → Plain (t ++ [c]) := by
    intro t ht d hd
    rcases List.mem_append.1 hd with h | h
    · exact ht d h
    · rw [List.mem_singleton.1 h, hc]
  cases h with
  | plain hg ht => exact .plain hg (key t ht)
  | odd hp hl => rw [List.append_assoc]; exact .odd hp (key _ hl)

theorem startsWith_split {t p : Str} (h : startsWith t p = true) : t = p ++ t.drop p.length := by
  unfold startsWith at h
  split at h
  · cases h
  · have e := List.take_append_drop p.length t
    rw [beq_iff_eq.1 h] at e
    exact e.symm

theorem QLine.close {x y : Byte} {src p t : Str} {ls : List Str} (ht : Two x y) (h : QLine x y src p ls t)
    (hsub : ∀ c ∈ t, c ∈ src) (hs : startsWith t p = true) : Group x y src p (ls ++ [t.drop p.length]) := by
  have e := startsWith_split hs
  cases h with
  | plain hg hp =>
    cases hg with
    | plain hls =>
      refine .plain fun l hl => ?_
      rcases List.mem_append.1 hl with h | h
      · exact hls l h
      · rw [List.mem_singleton.1 h]
        exact fun c hc => hp c (List.mem_of_mem_drop hc)
    | odd hx =>
      have : isNl x = false := hp x (by rw [e]; exact List.mem_append_left _ hx)
      rw [ht.hx] at this
      cases this
  | @odd q l hp hl =>
    subst hp
    have : (q ++ [x, y] ++ l).drop (q ++ [x]).length = y :: l := by
      rw [show q ++ [x, y] ++ l = (q ++ [x]) ++ (y :: l) by simp, List.drop_left]
    rw [this]
    exact .odd (by simp) (hsub x (by simp)) hl

/-- What is known in a quotation after its first marker. -/
def Lined (x y : Byte) (src : Str) (st : BSt) : Prop :=
  ∃ p, st.pre = some p ∧ c!">" ∈ p ∧
    match st.state with
    | .blockquoteEnd => quotes st.lines.flatten + 1 ≤ quotes (src.take st.current) ∧ Group x y src p st.lines
    | _ => st.start2 < st.current ∧ quotes st.lines.flatten ≤ quotes (src.take st.start2) ∧
        QLine x y src p st.lines (slice src st.start2 st.current)

/-- The nested texts. -/
def NestedP (x y : Byte) (src s e : Str) : Prop :=
  quotes s < quotes src ∧ ((e = [x, y] ∧ (Paired x y s ∨ s = [y, x, y])) ∨ (e = b!"\n" ∧ Mono c!"\n" s))

/-- The line ending, when the character has been looked at. -/
def LDispP (x y : Byte) (src : Str) (st : BSt) (c : Byte) (isLast : Bool) : Prop :=
  st.lineEnding = [x, y] ∨ (st.lineEnding = b!"\n" ∧ isNl c = false ∧
    (isLast = true → ∀ c ∈ src, isNl c = false))

variable {src : Str} {w : Want} {st : BSt} {c : Byte} {isLast : Bool} {fx : Bool}
  {rec : Str → Str → Run Str} {x y : Byte}

theorem quotes_plain_end {e : Str} (he : Str) (h : ∀ c ∈ e, isNl c = true) (ls : List Str) :
    quotes (ls.flatMap (· ++ e)) = quotes ls.flatten := by
  induction ls with
  | nil => rfl
  | cons l ls ih =>
    rw [List.flatMap_cons, List.flatten_cons, quotes_append, quotes_append, quotes_append, ih]
    have : quotes e = 0 := by
      refine List.count_eq_zero.2 fun hm => ?_
      have := h _ hm
      exact absurd this (by decide)
    omega

theorem Group.nested {ls : List Str} {p : Str} (ht : Two x y) (h : Group x y src p ls) :
    Paired x y (ls.flatMap (· ++ [x, y])) ∨ ls.flatMap (· ++ [x, y]) = [y, x, y] := by
  cases h with
  | plain hp => exact .inl ((Pairs.lines hp).paired ht)
  | @odd l _ _ hl =>
    cases l with
    | nil => exact .inr rfl
    | cons c l =>
      left
      have : Pairs x y (c :: l ++ [x, y]) := .plain_append hl (.pair .nil)
      rw [show [y :: c :: l].flatMap (· ++ [x, y]) = y :: (c :: l ++ [x, y]) by simp]
      refine this.odd ht ?_
      intro h
      injection h with h
      have := hl c (by simp)
      rw [h, ht.hx] at this
      cases this

theorem blockquoteEnd_pair (hrec : ∀ s e, NestedP x y src s e → rec s e ≠ .out) (ht : Two x y)
    (hld : LDispP x y src st c isLast) {p : Str} (hp : st.pre = some p) (hgt : c!">" ∈ p)
    (hg : Group x y src p st.lines) (hc : src[st.current]? = some c)
    (hq : ends c isLast = true → quotes st.lines.flatten + 1 ≤ quotes src)
    (hq' : ends c isLast = false → quotes st.lines.flatten + 1 ≤ quotes (src.take st.current)) :
    Run.Fine True (Post (Lined x y src) src isLast st) (blockquoteEnd rec st c isLast) := by
  unfold blockquoteEnd
  split
  next he =>
    have hn : NestedP x y src (st.lines.flatMap (· ++ st.lineEnding)) st.lineEnding := by
      have h1 := hq he
      rcases hld with h | ⟨h, hc, hl⟩
      · rw [h]
        refine ⟨?_, .inl ⟨rfl, hg.nested ht⟩⟩
        rw [quotes_plain_end [] (by simp [ht.hx, ht.hy])]
        omega
      · rw [h]
        have hlast : isLast = true := by simpa [ends, hc] using he
        refine ⟨?_, .inr ⟨rfl, mono_lines ?_⟩⟩
        · rw [quotes_plain_end [] (by simp [isNl])]
          omega
        · clear hq hq' h1 he
          generalize st.lines = ls at hg ⊢
          cases hg with
          | plain hp =>
            intro l hl' d hd hn
            rw [hp l hl' d hd] at hn
            cases hn
          | odd _ hx =>
            have := hl hlast x hx
            rw [ht.hx] at this
            cases this
    have : Run.Fine True (fun _ => True) (rec (st.lines.flatMap (· ++ st.lineEnding)) st.lineEnding) := by
      have := hrec _ _ hn
      cases h : rec (st.lines.flatMap (· ++ st.lineEnding)) st.lineEnding
      · trivial
      · trivial
      · exact this h
    exact this.bind fun _ _ => ⟨.inl rfl, ⟨rfl, rfl, rfl⟩, rfl⟩
  next he =>
    have he : ends c isLast = false := by simpa using he
    have h1 := hq' he
    have hn : isNl c = false := by
      simp only [ends, Bool.or_eq_false_iff] at he
      exact he.1
    refine ⟨.inl rfl, ⟨rfl, rfl, rfl⟩, p, hp, hgt, Nat.lt_succ_self _, Nat.le_of_succ_le h1, .plain hg ?_⟩
    have hlt := (List.getElem?_eq_some_iff.1 hc)
    have : slice src st.current (st.current + 1) = [c] := by
      unfold slice
      rw [List.drop_eq_getElem_cons hlt.1, hlt.2, Nat.add_sub_cancel_left]
      rfl
    show Plain (slice src st.current (st.current + 1))
    rw [this]
    intro d hd
    rw [List.mem_singleton.1 hd, hn]

theorem slice_next (h : src[n]? = some c) (ha : a ≤ n) : slice src a (n + 1) = slice src a n ++ [c] := by
  unfold slice
  have hlt := List.getElem?_eq_some_iff.1 h
  rw [show n + 1 - a = (n - a) + 1 by omega, List.take_add_one, List.getElem?_drop,
    show a + (n - a) = n by omega, h]
  rfl

theorem slice_sub {a b : Nat} : ∀ c ∈ slice src a b, c ∈ src := fun _ h =>
  List.mem_of_mem_drop (List.mem_of_mem_take h)

/-- The end of a line of a quotation. -/
theorem blockquoteStart_line (hrec : ∀ s e, NestedP x y src s e → rec s e ≠ .out) (ht : Two x y)
    (hld : LDispP x y src st c isLast) (hs : st.state = .blockquoteStart) (hc : src[st.current]? = some c)
    (he : ends c isLast = true) {p : Str} (hp : st.pre = some p) (hgt : c!">" ∈ p)
    (hq : quotes st.lines.flatten ≤ quotes (src.take st.start2))
    (h1 : st.start2 ≤ lineStop src st c isLast) (h2 : lineStop src st c isLast ≤ st.current + 1)
    (hl : QLine x y src p st.lines (slice src st.start2 (lineStop src st c isLast))) :
    Run.Fine True (Post (Lined x y src) src isLast st) (blockquoteStart rec src st c isLast) := by
  have hlt := (List.getElem?_eq_some_iff.1 hc).1
  generalize hstop : lineStop src st c isLast = stop at *
  have hd : dup src st.start2 stop = .ok (slice src st.start2 stop) := by
    unfold dup
    rw [if_neg (by omega), if_pos h1]
  unfold blockquoteStart
  rw [if_pos he, hp]
  simp only [hstop, hd, Run.bind_ok]
  split
  next hsw =>
    obtain ⟨_, hcount⟩ := quoted_line hd h1 hsw hgt
    have hg := hl.close ht slice_sub hsw
    have hsum : quotes (st.lines ++ [(slice src st.start2 stop).drop p.length]).flatten + 1 ≤
        quotes (src.take stop) := by
      rw [List.flatten_append, quotes_append]
      simp only [List.flatten_cons, List.flatten_nil, List.append_nil]
      omega
    split
    next hlast =>
      refine Post.of (blockquoteEnd_pair hrec ht hld rfl hgt hg hc ?_ ?_) rfl (by simp [rank]) ⟨rfl, rfl, rfl⟩
      · intro _; exact Nat.le_trans hsum (quotes_take_le _ _)
      · intro h; rw [he] at h; cases h
    next hlast =>
      refine ⟨.inl rfl, ⟨rfl, rfl, rfl⟩, p, rfl, hgt, ?_, hg⟩
      refine Nat.le_trans hsum ?_
      exact (List.take_sublist_take_left h2).count_le _
  · split
    · exact ⟨.inr ⟨by assumption, rfl, by simp [hs, rank], rfl⟩, ⟨rfl, rfl, rfl⟩, rfl⟩
    · exact ⟨.inl rfl, ⟨rfl, rfl, rfl⟩, rfl⟩

theorem plain_snoc {t : Str} (h : Plain t) (hc : isNl c = false) : Plain (t ++ [c]) := by
  intro d hd
  rcases List.mem_append.1 hd with h' | h'
  · exact h d h'
  · rw [List.mem_singleton.1 h', hc]

theorem marker_mem (h : Marker src st) : c!">" ∈ slice src st.start2 st.current := by
  obtain ⟨_, _, hlt, hgt, _⟩ := h
  have hlt' := List.getElem?_eq_some_iff.1 hgt
  unfold slice
  rw [List.drop_eq_getElem_cons hlt'.1, hlt'.2]
  obtain ⟨k, hk⟩ : ∃ k, st.current - st.start2 = k + 1 := ⟨st.current - st.start2 - 1, by omega⟩
  rw [hk, List.take_succ_cons]
  exact List.mem_cons_self

theorem marker_plain (h : Marker src st) : Plain (slice src st.start2 st.current) := by
  intro d hd
  obtain ⟨i, hi, e⟩ := List.getElem_of_mem hd
  simp only [slice, List.length_take, List.length_drop] at hi
  refine h.plain (st.start2 + i) d (by omega) (by omega) ?_
  rw [← e]
  simp only [slice, List.getElem_take, List.getElem_drop]
  exact List.getElem?_eq_getElem (by omega)

/-- A character that ends no line. -/
theorem dispatch_char (hrec : ∀ s e, NestedP x y src s e → rec s e ≠ .out) (ht : Two x y)
    (hld : LDispP x y src st c isLast) (hq : QInv (Lined x y src) src st) (hc : src[st.current]? = some c)
    (hn : isNl c = false) (hlast : isLast = true → st.current + 1 = src.length) :
    Run.Fine True (Post (Lined x y src) src isLast st) (dispatch fx rec src w st c isLast) := by
  have hlt := (List.getElem?_eq_some_iff.1 hc).1
  refine dispatch_post (fun h => ?_) (fun h => ?_) (fun h => ?_) hq.idle hc
  · have hm := hq.marker h
    unfold takePrefix
    split
    next hsp =>
      refine ⟨.inl rfl, ⟨rfl, rfl, rfl⟩, ?_⟩
      rw [QInv]
      simp only [h]
      exact Marker.of (st := { st with current := st.current + 1 }) rfl rfl rfl rfl (hm.next hc hn)
    · obtain ⟨hl, h12, hlt', hgt, hp⟩ := id hm
      unfold dup
      rw [if_neg (by omega), if_pos (by omega)]
      refine ⟨.inl rfl, ⟨rfl, rfl, rfl⟩, _, rfl, ?_, Nat.lt_succ_of_lt hlt', ?_, .plain ?_ ?_⟩
      · rw [h12]; exact marker_mem hm
      · simp only [hl]; exact Nat.zero_le _
      · simp only [hl]; exact .plain (by simp)
      · show Plain (slice src st.start2 (st.current + 1))
        rw [slice_next hc (Nat.le_of_lt hlt')]
        exact plain_snoc (marker_plain hm) hn
  · obtain ⟨p, hp, hgt, hk⟩ := hq.quoted (.inl h)
    rw [h] at hk
    obtain ⟨h2, hle, hl⟩ := hk
    by_cases he : ends c isLast = true
    · have hlast' : isLast = true := by simpa [ends, hn] using he
      have hstop : lineStop src st c isLast = st.current + 1 := by
        rw [lineStop, if_pos ⟨hlast', hn⟩, hlast hlast']
      refine blockquoteStart_line hrec ht hld h hc he hp hgt hle (by omega) (by omega) ?_
      rw [hstop, slice_next hc (Nat.le_of_lt h2)]
      exact hl.more hn
    · unfold blockquoteStart
      rw [if_neg he]
      refine ⟨.inl rfl, ⟨rfl, rfl, rfl⟩, ?_⟩
      rw [QInv]
      simp only [h]
      refine ⟨p, hp, hgt, Nat.lt_succ_of_lt h2, hle, ?_⟩
      show QLine x y src p st.lines (slice src st.start2 (st.current + 1))
      rw [slice_next hc (Nat.le_of_lt h2)]
      exact hl.more hn
  · obtain ⟨p, hp, hgt, hk⟩ := hq.quoted (.inr h)
    rw [h] at hk
    exact blockquoteEnd_pair hrec ht hld hp hgt hk.2 hc (fun _ => Nat.le_trans hk.1 (quotes_take_le _ _))
      (fun _ => hk.1)

/-- A line ending. -/
theorem dispatch_pair (hrec : ∀ s e, NestedP x y src s e → rec s e ≠ .out) (ht : Two x y) {k : Nat}
    (hq : QInv (Lined x y src) src st) (hk : st.current = k) (hx : src[k]? = some x) (hy : src[k + 1]? = some y)
    (found : Bool) :
    Run.Fine True (Post (Lined x y src) src isLast { st with
        lineEnding := [x, y], lineEndingFound := found, realEnd := k, current := k + 1 })
      (dispatch fx rec src w { st with
        lineEnding := [x, y], lineEndingFound := found, realEnd := k, current := k + 1 } y isLast) := by
  have hlt := (List.getElem?_eq_some_iff.1 hy).1
  have he : ends y isLast = true := by simp [ends, ht.hy]
  subst hk
  refine dispatch_post (fun h => ?_) (fun h => ?_) (fun h => ?_) (hq.idle.of rfl rfl) hy
  · have hm := hq.marker h
    obtain ⟨hl, h12, hlt', hgt, hp⟩ := id hm
    have hsp : isSp y = false := by
      cases e : isSp y
      · rfl
      · have := notNl_of_isSp e
        rw [ht.hy] at this; cases this
    unfold takePrefix
    rw [hsp, if_neg (by decide)]
    unfold dup
    simp only
    rw [if_neg (by omega), if_pos (by omega), h12, slice_next hx (Nat.le_of_lt hlt')]
    refine ⟨.inl rfl, ⟨rfl, rfl, rfl⟩, _, rfl, List.mem_append_left _ (marker_mem hm), ?_, ?_, ?_⟩
    · show st.start2 < st.current + 1 + 1
      omega
    · simp only [hl]; exact Nat.zero_le _
    · show QLine x y src _ st.lines (slice src st.start2 (st.current + 1 + 1))
      rw [hl, slice_next hy (by omega), slice_next hx (Nat.le_of_lt hlt')]
      have := QLine.odd (x := x) (y := y) (src := src) (q := slice src st.start2 st.current) rfl
        (show Plain [] from by intro d hd; cases hd)
      simpa using this
  · obtain ⟨p, hp, hgt, hk⟩ := hq.quoted (.inl h)
    rw [show st.state = .blockquoteStart from h] at hk
    obtain ⟨h2, hle, hl⟩ := hk
    have hstop : lineStop src { st with
        lineEnding := [x, y], lineEndingFound := found, realEnd := st.current, current := st.current + 1 } y isLast =
        st.current := by
      unfold lineStop
      rw [ht.hy, if_neg (by simp)]
      simp only
      rw [if_pos (by omega)]
    refine blockquoteStart_line hrec ht (.inl rfl) h hy he hp hgt hle ?_ ?_ ?_
    · rw [hstop]; exact Nat.le_of_lt h2
    · rw [hstop]; exact Nat.le_succ_of_le (Nat.le_succ _)
    · rw [hstop]; exact hl
  · obtain ⟨p, hp, hgt, hk⟩ := hq.quoted (.inr h)
    rw [show st.state = .blockquoteEnd from h] at hk
    exact blockquoteEnd_pair hrec ht (.inl rfl) hp hgt hk.2 hy
      (fun _ => Nat.le_trans hk.1 (quotes_take_le _ _)) (fun h' => by rw [he] at h'; cases h')

/-- The end of a line again, or the single character at the start. -/
theorem dispatch_lone (hs : st.state = .startLine ∨ quiet st.state = true) (hq : Idle st)
    (hc : src[st.current]? = some c) :
    Run.Fine True (Post (Lined x y src) src isLast st) (dispatch fx rec src w st c isLast) := by
  refine dispatch_post (fun h => ?_) (fun h => ?_) (fun h => ?_) hq hc <;>
    (rw [h] at hs; rcases hs with hs | hs <;> cases hs)

structure PInv (x y : Byte) (src : Str) (st : BSt) : Prop where
  le : (st.lineEnding = [x, y] ∧ st.lineEndingFound = true) ∨ (st.lineEndingFound = false ∧ st.lineEnding = b!"\n" ∧
    ∀ c ∈ src.take st.current, isNl c = false)
  first : src[0]? = some y → st.lineEndingFound = true
  lone : src[st.current]? = some y → (st.current = 0 ∧ st.state = .startLine) ∨
    (st.current + 1 = src.length ∧ quiet st.state = true)
  q : QInv (Lined x y src) src st

theorem pair_step {st' : BSt} (h : st.current < src.length) (h1 : st.current ≤ st'.current)
    (h2 : st'.state = st.state) (hf : st.lineEndingFound = true → st'.lineEndingFound = true)
    (hi : src[0]? = some y → st.lineEndingFound = true)
    (h3 : src[st'.current + 1]? ≠ some y) (hlast : isLast = true → st'.current + 1 = src.length)
    (h4 : (st'.lineEnding = [x, y] ∧ st'.lineEndingFound = true) ∨ (st'.lineEndingFound = false ∧ st'.lineEnding = b!"\n" ∧
      ∀ c ∈ src.take (st'.current + 1), isNl c = false))
    (r : BSt ⊕ BSt) (hr : Post (Lined x y src) src isLast st' r) :
    StepFine (PInv x y src) (bmeasure src) (fun _ => True) st r := by
  cases r with
  | inr _ => trivial
  | inl s =>
    obtain ⟨hs, ⟨k1, k2, _⟩, hq⟩ := hr
    refine ⟨⟨?_, ?_, ?_, hq⟩, decreases_of_shape h h1 h2 (.inl s) hs.shape⟩
    · rcases h4 with h4 | ⟨a, b, d⟩
      · exact .inl ⟨by rw [k1, h4.1], by rw [k2, h4.2]⟩
      · refine .inr ⟨by rw [k2, a], by rw [k1, b], fun c hc => d c ?_⟩
        have : s.current ≤ st'.current + 1 := by
          rcases hs with hs | ⟨_, hs, _⟩ <;> omega
        exact (List.take_sublist_take_left this).subset hc
    · intro h0
      rw [k2]
      exact hf (hi h0)
    · intro hy
      rcases hs with hs | ⟨hl, hs, _, hqt⟩
      · rw [hs] at hy; exact absurd hy h3
      · exact .inr ⟨by rw [hs]; exact hlast hl, hqt⟩

theorem blockStep_pinv (hrec : ∀ s e, NestedP x y src s e → rec s e ≠ .out) (ht : Two x y) (hp : Paired x y src)
    (hI : PInv x y src st) :
    Run.Fine True (StepFine (PInv x y src) (bmeasure src) (fun _ => True) st) (blockStep fx rec src w st) := by
  obtain ⟨hle, hfirst, hlone, hq⟩ := hI
  -- no second character after the current one, unless it is the first character
  have next : ∀ k c, src[k]? = some c → c ≠ x → src[k + 1]? ≠ some y := by
    intro k c hk hc hy
    rcases hp.before _ hy with ⟨h, _⟩ | ⟨j, hj, hj'⟩
    · omega
    · obtain rfl : k = j := by omega
      rw [hk] at hj'
      injection hj' with hj'
      exact hc hj'
  have found : src[st.current]? = some y → st.lineEnding = [x, y] ∧ st.lineEndingFound = true := by
    intro hy
    rcases hle with h | ⟨h, _, hpl⟩
    · exact h
    · exfalso
      rcases hp.before _ hy with ⟨h', _⟩ | ⟨j, hj, hj'⟩
      · rw [h'] at hy
        rw [hfirst hy] at h
        cases h
      · have : x ∈ src.take st.current := by
          rw [List.mem_iff_getElem?]
          exact ⟨j, by rw [List.getElem?_take_of_lt (by omega), hj']⟩
        have := hpl x this
        rw [ht.hx] at this
        cases this
  unfold blockStep
  split
  · trivial
  next c hc =>
    have hlt := (List.getElem?_eq_some_iff.1 hc).1
    split
    next h =>
      rcases ht.all h with rfl | rfl
      · -- the first character of a line ending
        have hy := hp.after _ hc
        rw [hy]
        simp only [ht.pair, if_true]
        have hle' : (if st.lineEndingFound = true then st.lineEnding else [c, y]) = [c, y] := by
          split
          next hf =>
            rcases hle with h | ⟨h, _⟩
            · exact h.1
            · rw [hf] at h; cases h
          · rfl
        rw [hle']
        have hly := (List.getElem?_eq_some_iff.1 hy).1
        refine (dispatch_pair hrec ht hq rfl hc hy true).mono id fun r hr => ?_
        refine pair_step hlt ?_ ?_ (fun _ => ?_) hfirst ?_ ?_ ?_ r hr
        · exact Nat.le_succ _
        · rfl
        · rfl
        · exact next _ _ hy (Ne.symm ht.ne)
        · intro hl
          have : st.current + 1 = src.length - 1 := beq_iff_eq.1 hl
          show st.current + 1 + 1 = src.length
          omega
        · exact .inl ⟨rfl, rfl⟩
      · -- the second character, on its own
        obtain ⟨f1, f2⟩ := found hc
        have hnext := next _ _ hc (Ne.symm ht.ne)
        have hs : st.state = .startLine ∨ quiet st.state = true :=
          (hlone hc).imp (fun h => h.2) (fun h => h.2)
        have hst : { st with lineEnding := (if st.lineEndingFound = true then st.lineEnding else [c]),
                             lineEndingFound := true } = st := by
          cases st; simp_all
        split
        next c' hc' =>
          have hnp : isPair c c' = false := by
            cases e : isPair c c'
            · rfl
            · exfalso
              have := ht.pair_of e
              subst this
              rcases hlone hc with ⟨h0, _⟩ | ⟨h0, _⟩
              · rcases hp.before _ hc with ⟨_, h1⟩ | ⟨j, hj, _⟩
                · rw [h0] at hc'; exact h1 hc'
                · omega
              · have := (List.getElem?_eq_some_iff.1 hc').1
                omega
          simp only [hnp, Bool.false_eq_true, if_false]
          rw [hst]
          refine (dispatch_lone (x := x) (y := c) hs hq.idle hc).mono id fun r hr => ?_
          exact pair_step hlt (Nat.le_refl _) rfl id hfirst hnext (by simp) (.inl ⟨f1, f2⟩) r hr
        next hc' =>
          rw [hst]
          refine (dispatch_lone (x := x) (y := c) hs hq.idle hc).mono id fun r hr => ?_
          refine pair_step hlt (Nat.le_refl _) rfl id hfirst hnext (fun _ => ?_) (.inl ⟨f1, f2⟩) r hr
          have := List.getElem?_eq_none_iff.1 hc'
          omega
    next h =>
      have hn : isNl c = false := by simpa using h
      have hcx : c ≠ x := by
        intro e
        rw [e, ht.hx] at hn
        cases hn
      have hlast : (st.current == src.length - 1) = true → st.current + 1 = src.length := by
        intro hl
        have : st.current = src.length - 1 := beq_iff_eq.1 hl
        omega
      refine (dispatch_char hrec ht ?_ hq hc hn hlast).mono id fun r hr => ?_
      · rcases hle with h | ⟨a, b, d⟩
        · exact .inl h.1
        · refine .inr ⟨b, hn, fun hl => ?_⟩
          have := take_succ_nl hc hn d
          rwa [hlast hl, List.take_length] at this
      · refine pair_step hlt (Nat.le_refl _) rfl id hfirst (next _ _ hc hcx) hlast ?_ r hr
        rcases hle with h | ⟨a, b, d⟩
        · exact .inl h
        · exact .inr ⟨a, b, take_succ_nl hc hn d⟩

/-- The text of an empty quotation. -/
theorem empty_ends (fx : Bool) (ht : Two x y) (d : Nat) :
    parseBlocks fx (d + 1) [y, x, y] ⟨false, false, false, false⟩ (some [x, y]) ≠ .out := by
  obtain ⟨hx, hy, hn⟩ := ht
  simp only [isNl, Bool.or_eq_true, beq_iff_eq] at hx hy
  rcases hx with rfl | rfl <;> rcases hy with rfl | rfl <;>
    first | exact absurd rfl hn | (intro h; cases h)

/-- Nested calls end when all line endings are the same two characters. -/
theorem parseBlocks_pairs (fx : Bool) (ht : Two x y) : ∀ (depth : Nat) (src : Str) (w : Want)
    (endl : Option Str), Paired x y src → ((endl = none ∧ src[0]? ≠ some y) ∨ endl = some [x, y]) →
    quotes src < depth → parseBlocks fx depth src w endl ≠ .out := by
  intro depth
  induction depth with
  | zero => intro src w endl _ _ h; omega
  | succ d ih =>
    intro src w endl hp he hd
    rw [parseBlocks]
    refine (runL_fine (A := True) (I := PInv x y src) (μ := bmeasure src) (P := fun _ => True)
      (fun s hs => blockStep_pinv ?_ ht hp hs) (2 * src.length + 2) (BSt.init endl) ?_ ?_).ne_out
    · intro s e hn hout
      have key : parseBlocks fx d s ⟨false, false, false, false⟩ (some e) ≠ .out := by
        obtain ⟨hlt, ⟨rfl, hs | rfl⟩ | ⟨rfl, hs⟩⟩ := hn
        · exact ih s _ _ hs (.inr rfl) (by omega)
        · cases d with
          | zero => omega
          | succ d => exact empty_ends fx ht d
        · exact parseBlocks_ends fx c!"\n" rfl d s _ _ hs (.inr rfl) (by omega)
      cases hp : parseBlocks fx d s ⟨false, false, false, false⟩ (some e) with
      | out => exact key hp
      | ok r => rw [hp] at hout; cases hout
      | ub => rw [hp] at hout; cases hout
    · rcases he with ⟨rfl, h0⟩ | rfl
      · exact ⟨.inr ⟨rfl, rfl, by simp [BSt.init]⟩, fun h => absurd h h0, fun _ => .inl ⟨rfl, rfl⟩, rfl⟩
      · exact ⟨.inl ⟨rfl, rfl⟩, fun _ => rfl, fun _ => .inl ⟨rfl, rfl⟩, rfl⟩
    · simp [bmeasure, BSt.init, rank]

end Blogc.Content
