import Verif.Model.DateTime
import Verif.Spec.DateTime

/-!
# C32: date parsing accepts exactly the documented formats
-/

namespace Blogc.C32

open Blogc Blogc.DateTime Blogc.Spec.DateTime

theorem inRange_iff (c hi : Byte) : inRange c hi = true ↔ 48 ≤ c.toNat ∧ c.toNat ≤ hi.toNat := by
  simp [inRange, UInt8.le_iff_toNat_le]

/-- A byte is a digit. -/
theorem digit_eq (n : Nat) (c : Byte) (hn : n < 10) : UInt8.ofNat (48 + n) = c ↔ c.toNat = 48 + n := by
  constructor
  · rintro rfl
    simp; omega
  · intro h
    apply UInt8.toNat_inj.1
    simp [h]; omega

theorem dd_eq (n : Nat) (a b : Byte) (hn : n < 100) :
    dd n = [a, b] ↔ a.toNat = 48 + n / 10 ∧ b.toNat = 48 + n % 10 := by
  simp only [dd, List.cons.injEq, and_true]
  rw [digit_eq _ _ (by omega), digit_eq _ _ (by omega)]

theorem dd_cons (n : Nat) (r : Str) (s : Str) (hn : n < 100) :
    s = dd n ++ r ↔ ∃ a b, s = a :: b :: r ∧ a.toNat = 48 + n / 10 ∧ b.toNat = 48 + n % 10 := by
  constructor
  · rintro rfl
    refine ⟨UInt8.ofNat (48 + n / 10), UInt8.ofNat (48 + n % 10), rfl, ?_, ?_⟩ <;> simp <;> omega
  · rintro ⟨a, b, rfl, h1, h2⟩
    have := (dd_eq n a b hn).2 ⟨h1, h2⟩
    rw [this]; rfl

/-- Two bytes in digit range are `dd` of their value. -/
theorem eq_dd {a b : Byte} {h : Nat} (ha : 48 ≤ a.toNat ∧ a.toNat ≤ 57) (hb : 48 ≤ b.toNat ∧ b.toNat ≤ 57)
    (hh : h = (a.toNat - 48) * 10 + (b.toNat - 48)) : [a, b] = dd h := by
  rw [eq_comm, dd_eq h a b (by omega)]
  omega

theorem loop_done (s : Str) (tmp : Int) (t : Tm) : loop s .done tmp t = some t := by
  induction s generalizing tmp t with
  | nil => rfl
  | cons c s ih => simp [loop, step, ih]

theorem digits_of_pair (n : Nat) (a b : Byte) (r r' : Str) (hn : n < 100) :
    a :: b :: r = dd n ++ r' ↔
      r = r' ∧ (48 ≤ a.toNat ∧ a.toNat ≤ 57) ∧ (48 ≤ b.toNat ∧ b.toNat ≤ 57) ∧
        n = (a.toNat - 48) * 10 + (b.toNat - 48) := by
  rw [dd_cons n r' _ hn]
  constructor
  · rintro ⟨a', b', hs, h1, h2⟩
    simp only [List.cons.injEq] at hs
    obtain ⟨rfl, rfl, rfl⟩ := hs
    refine ⟨rfl, ?_, ?_, ?_⟩ <;> omega
  · rintro ⟨rfl, ha, hb, hn⟩
    refine ⟨a, b, rfl, ?_, ?_⟩ <;> omega

/-- A separator and a two digit field. -/
theorem loop_field {sep d1 d2 nxt : State} {sepc hi : Byte} {lo max : Nat} {bad : Int → Prop}
    [DecidablePred bad] {val : Int → Int} {set : Tm → Int → Tm}
    (h1 : ∀ tmp t c, step sep tmp t c = if c == sepc then some (d1, 0, t) else none)
    (h2 : ∀ tmp t c, step d1 tmp t c =
      if inRange c hi then some (d2, tmp + dig c * 10, t) else none)
    (h3 : ∀ tmp t c, step d2 tmp t c =
      if inRange c c!"9" then
        (if bad (tmp + dig c) then none else some (nxt, val (tmp + dig c), set t (tmp + dig c)))
      else none)
    (f1 : d1.final = false) (f2 : d2.final = false)
    (hbad : ∀ n : Nat, bad (n : Int) ↔ ¬ (lo ≤ n ∧ n ≤ max))
    (hhi : max / 10 + 48 = hi.toNat) (hhi' : hi.toNat ≤ 57) (s : Str) (tmp : Int) (t t' : Tm) :
    loop s sep tmp t = some t' ↔ (s = [] ∧ sep.final = true ∧ t' = t) ∨
      ∃ n r, lo ≤ n ∧ n ≤ max ∧ s = sepc :: (dd n ++ r) ∧
        loop r nxt (val n) (set t n) = some t' := by
  have hmax : max < 100 := by omega
  rcases s with _ | ⟨c, s⟩
  · simp only [loop]
    by_cases hf : sep.final = true
    · simp only [hf, if_true, Option.some.injEq]
      constructor
      · rintro rfl; simp
      · rintro (⟨-, -, rfl⟩ | ⟨n, r, -, -, h, -⟩)
        · rfl
        · simp at h
    · simp [hf]
  by_cases hc : c = sepc
  rotate_left
  · have hc' : (c == sepc) = false := by simp [hc]
    simp [loop, h1, hc']
    intro n _ _ r hs
    exact absurd hs hc
  subst hc
  simp only [loop, h1, beq_self_eq_true, if_true, List.cons_ne_nil, false_and, false_or,
    List.cons.injEq, true_and]
  rcases s with _ | ⟨a, _ | ⟨b, r⟩⟩
  · simp [loop, f1, dd]
  · by_cases ha : inRange a hi = true <;> simp [loop, h2, ha, f2, dd]
  · have key : (∃ n r', lo ≤ n ∧ n ≤ max ∧ a :: b :: r = dd n ++ r' ∧
          loop r' nxt (val n) (set t n) = some t') ↔
        (48 ≤ a.toNat ∧ a.toNat ≤ 57) ∧ (48 ≤ b.toNat ∧ b.toNat ≤ 57) ∧
          ∃ n : Nat, n = (a.toNat - 48) * 10 + (b.toNat - 48) ∧ lo ≤ n ∧ n ≤ max ∧
            loop r nxt (val n) (set t n) = some t' := by
      constructor
      · rintro ⟨n, r', hlo, hn, hs, hl⟩
        obtain ⟨rfl, ha, hb, he⟩ := (digits_of_pair n a b r r' (by omega)).1 hs
        exact ⟨ha, hb, n, he, hlo, hn, hl⟩
      · rintro ⟨ha, hb, n, he, hlo, hn, hl⟩
        exact ⟨n, r, hlo, hn, (digits_of_pair n a b r r (by omega)).2 ⟨rfl, ha, hb, he⟩, hl⟩
    rw [key]
    simp only [loop, h2]
    by_cases ha : inRange a hi = true
    · simp only [ha, if_true, h3]
      rw [inRange_iff] at ha
      by_cases hb : inRange b c!"9" = true
      · simp only [hb, if_true]
        rw [inRange_iff] at hb
        simp only [UInt8.reduceToNat] at hb
        have e : (0 : Int) + dig a * 10 + dig b =
            (((a.toNat - 48) * 10 + (b.toNat - 48) : Nat) : Int) := by
          unfold dig; omega
        rw [e]
        generalize hn : (a.toNat - 48) * 10 + (b.toNat - 48) = n
        by_cases hr : lo ≤ n ∧ n ≤ max
        · rw [if_neg (by rw [hbad]; exact fun h => h hr)]
          constructor
          · intro h
            exact ⟨⟨ha.1, by omega⟩, hb, n, rfl, hr.1, hr.2, h⟩
          · rintro ⟨-, -, m, rfl, -, -, h⟩
            exact h
        · rw [if_pos (by rw [hbad]; exact hr)]
          simp only [reduceCtorEq, false_iff]
          rintro ⟨-, -, m, rfl, h1, h2, -⟩
          exact hr ⟨h1, h2⟩
      · simp only [hb, Bool.false_eq_true, if_false, reduceCtorEq, false_iff]
        rintro ⟨-, h, -⟩
        exact hb ((inRange_iff _ _).2 h)
    · simp only [ha, Bool.false_eq_true, if_false, reduceCtorEq, false_iff]
      rintro ⟨h, -, n, hn, -, h2, -⟩
      refine ha ((inRange_iff _ _).2 ⟨h.1, ?_⟩)
      omega

theorem loop_colon2 (s : Str) (tmp : Int) (t t' : Tm) :
    loop s .colon2 tmp t = some t' ↔ (s = [] ∧ t' = t) ∨
      ∃ n junk, n ≤ 60 ∧ s = c!":" :: (dd n ++ junk) ∧ t' = { t with sec := n } := by
  rw [loop_field (sep := .colon2) (d1 := .second1) (d2 := .second2) (nxt := .done) (sepc := c!":")
    (hi := c!"6") (lo := 0) (max := 60) (bad := fun x => x < 0 ∨ x > 60) (val := id)
    (set := fun t x => { t with sec := x }) (fun _ _ _ => rfl) (fun _ _ _ => rfl)
    (fun _ _ _ => rfl) rfl rfl (by intro n; omega) (by decide) (by decide)]
  simp [loop_done, State.final, eq_comm]

theorem loop_colon1 (s : Str) (tmp : Int) (t t' : Tm) :
    loop s .colon1 tmp t = some t' ↔ (s = [] ∧ t' = t) ∨
      ∃ n r, n ≤ 59 ∧ s = c!":" :: (dd n ++ r) ∧
        loop r .colon2 n { t with min := n } = some t' := by
  rw [loop_field (sep := .colon1) (d1 := .minute1) (d2 := .minute2) (nxt := .colon2) (sepc := c!":")
    (hi := c!"5") (lo := 0) (max := 59) (bad := fun x => x < 0 ∨ x > 59) (val := id)
    (set := fun t x => { t with min := x }) (fun _ _ _ => rfl) (fun _ _ _ => rfl)
    (fun _ _ _ => rfl) rfl rfl (by intro n; omega) (by decide) (by decide)]
  simp [State.final]

theorem loop_space (s : Str) (tmp : Int) (t t' : Tm) :
    loop s .space tmp t = some t' ↔ (s = [] ∧ t' = t) ∨
      ∃ n r, n ≤ 23 ∧ s = c!" " :: (dd n ++ r) ∧
        loop r .colon1 n { t with hour := n } = some t' := by
  rw [loop_field (sep := .space) (d1 := .hour1) (d2 := .hour2) (nxt := .colon1) (sepc := c!" ")
    (hi := c!"2") (lo := 0) (max := 23) (bad := fun x => x < 0 ∨ x > 23) (val := id)
    (set := fun t x => { t with hour := x }) (fun _ _ _ => rfl) (fun _ _ _ => rfl)
    (fun _ _ _ => rfl) rfl rfl (by intro n; omega) (by decide) (by decide)]
  simp [State.final]

theorem loop_hyphen2 (s : Str) (tmp : Int) (t t' : Tm) :
    loop s .hyphen2 tmp t = some t' ↔
      ∃ n r, 1 ≤ n ∧ n ≤ 31 ∧ s = c!"-" :: (dd n ++ r) ∧
        loop r .space n { t with mday := n } = some t' := by
  rw [loop_field (sep := .hyphen2) (d1 := .day1) (d2 := .day2) (nxt := .space) (sepc := c!"-")
    (hi := c!"3") (lo := 1) (max := 31) (bad := fun x => x < 1 ∨ x > 31) (val := id)
    (set := fun t x => { t with mday := x }) (fun _ _ _ => rfl) (fun _ _ _ => rfl)
    (fun _ _ _ => rfl) rfl rfl (by intro n; omega) (by decide) (by decide)]
  simp [State.final]

theorem loop_hyphen1 (s : Str) (tmp : Int) (t t' : Tm) :
    loop s .hyphen1 tmp t = some t' ↔
      ∃ n r, 1 ≤ n ∧ n ≤ 12 ∧ s = c!"-" :: (dd n ++ r) ∧
        loop r .hyphen2 (n - 1) { t with mon := n - 1 } = some t' := by
  rw [loop_field (sep := .hyphen1) (d1 := .month1) (d2 := .month2) (nxt := .hyphen2) (sepc := c!"-")
    (hi := c!"1") (lo := 1) (max := 12) (bad := fun x => x - 1 < 0 ∨ x - 1 > 11)
    (val := fun x => x - 1)
    (set := fun t x => { t with mon := x - 1 }) (fun _ _ _ => rfl) (fun _ _ _ => rfl)
    (fun tmp t c => by simp only [step, Int.add_sub_assoc])
    rfl rfl (by intro n; omega) (by decide) (by decide)]
  simp [State.final]

theorem loop_year (s : Str) (t t' : Tm) :
    loop s .year1 0 t = some t' ↔
      ∃ n r, 1900 ≤ n ∧ n ≤ 9999 ∧ s = dddd n ++ r ∧
        loop r .hyphen1 (n - 1900 : Int) { t with year := (n - 1900 : Int) } = some t' := by
  have hpair : ∀ (n : Nat) (a b c d : Byte) (r r' : Str), n ≤ 9999 →
      (a :: b :: c :: d :: r = dddd n ++ r' ↔ r = r' ∧ (48 ≤ a.toNat ∧ a.toNat ≤ 57) ∧
        (48 ≤ b.toNat ∧ b.toNat ≤ 57) ∧ (48 ≤ c.toNat ∧ c.toNat ≤ 57) ∧
        (48 ≤ d.toNat ∧ d.toNat ≤ 57) ∧ n = (a.toNat - 48) * 1000 + (b.toNat - 48) * 100 +
          (c.toNat - 48) * 10 + (d.toNat - 48)) := by
    intro n a b c d r r' hn
    rw [dddd, List.append_assoc, digits_of_pair _ _ _ _ _ (by omega),
      digits_of_pair _ _ _ _ _ (by omega)]
    constructor
    · rintro ⟨⟨rfl, hc, hd, e1⟩, ha, hb, e2⟩
      exact ⟨rfl, ha, hb, hc, hd, by omega⟩
    · rintro ⟨rfl, ha, hb, hc, hd, e⟩
      exact ⟨⟨rfl, hc, hd, by omega⟩, ha, hb, by omega⟩
  have hlen : ∀ (n : Nat) (r : Str), (dddd n ++ r).length = 4 + r.length := by
    intro n r; simp [dddd, dd]; omega
  constructor
  · intro h
    rcases s with _ | ⟨a, s⟩
    · simp [loop, State.final] at h
    by_cases ha : inRange a c!"9" = true
    rotate_left
    · simp [loop, step, ha] at h
    rcases s with _ | ⟨b, s⟩
    · simp [loop, step, ha, State.final] at h
    by_cases hb : inRange b c!"9" = true
    rotate_left
    · simp [loop, step, ha, hb] at h
    rcases s with _ | ⟨c, s⟩
    · simp [loop, step, ha, hb, State.final] at h
    by_cases hc : inRange c c!"9" = true
    rotate_left
    · simp [loop, step, ha, hb, hc] at h
    rcases s with _ | ⟨d, s⟩
    · simp [loop, step, ha, hb, hc, State.final] at h
    by_cases hd : inRange d c!"9" = true
    rotate_left
    · simp [loop, step, ha, hb, hc, hd] at h
    simp only [loop, step, ha, hb, hc, hd, if_true] at h
    rw [inRange_iff] at ha hb hc hd
    simp only [UInt8.reduceToNat] at ha hb hc hd
    obtain ⟨n, hn⟩ : ∃ n, n = (a.toNat - 48) * 1000 + (b.toNat - 48) * 100 +
          (c.toNat - 48) * 10 + (d.toNat - 48) := ⟨_, rfl⟩
    have e : (0 : Int) + dig a * 1000 + dig b * 100 + dig c * 10 + (dig d - 1900) = (n : Int) - 1900 := by
      unfold dig; omega
    rw [e] at h
    by_cases hlt : (n : Int) - 1900 < 0
    · simp [hlt] at h
    · rw [if_neg hlt] at h
      exact ⟨n, s, by omega, by omega, (hpair n a b c d s s (by omega)).2 ⟨rfl, ha, hb, hc, hd, hn⟩, h⟩
  · rintro ⟨n, r, h1, h2, hs, h⟩
    have hl := congrArg List.length hs
    rw [hlen] at hl
    rcases s with _ | ⟨a, _ | ⟨b, _ | ⟨c, _ | ⟨d, s⟩⟩⟩⟩
    · simp at hl; omega
    · simp at hl; omega
    · simp at hl; omega
    · simp at hl; omega
    obtain ⟨rfl, ha, hb, hc, hd, hn⟩ := (hpair n a b c d s r h2).1 hs
    have ha' : inRange a c!"9" = true := (inRange_iff _ _).2 ha
    have hb' : inRange b c!"9" = true := (inRange_iff _ _).2 hb
    have hc' : inRange c c!"9" = true := (inRange_iff _ _).2 hc
    have hd' : inRange d c!"9" = true := (inRange_iff _ _).2 hd
    have e : (0 : Int) + dig a * 1000 + dig b * 100 + dig c * 10 + (dig d - 1900) = (n : Int) - 1900 := by
      unfold dig; omega
    simp only [loop, step, ha', hb', hc', hd', if_true, e]
    rw [if_neg (by omega)]
    exact h

/-- The fields that a written date and time stand for. -/
def fields (d : Date) (w : Time) : Tm :=
  ⟨d.year - 1900, d.month - 1, d.day, w.hms.1, w.hms.2.1, w.hms.2.2⟩

/-- The property: a string is accepted exactly when it is a date, or a date and
an hour, or with minutes, or with seconds, every field within its range, and
then the fields decoded are those written. -/
def Exact : Prop :=
  ∀ (s : Str) (t : Tm), DateTime.parse s = some t ↔
    ∃ d w, Date.Ok d ∧ Time.Ok w ∧ s = d.render ++ w.render ∧ t = fields d w

/-- The strings really accepted: as above, but anything at all may follow the
seconds. -/
theorem accepted_iff (s : Str) (t : Tm) : DateTime.parse s = some t ↔
    ∃ d w junk, Date.Ok d ∧ Time.Ok w ∧ s = d.render ++ w.render ++ junk ∧ t = fields d w ∧
      ((∀ h m s, w ≠ .second h m s) → junk = []) := by
  unfold DateTime.parse
  rw [loop_year]
  constructor
  · rintro ⟨y, r, y1, y2, rfl, h⟩
    rw [loop_hyphen1] at h
    obtain ⟨mo, r, m1, m2, rfl, h⟩ := h
    rw [loop_hyphen2] at h
    obtain ⟨da, r, d1, d2, rfl, h⟩ := h
    rw [loop_space] at h
    rcases h with ⟨rfl, rfl⟩ | ⟨ho, r, h1, rfl, h⟩
    · exact ⟨⟨y, mo, da⟩, .none, [], ⟨y1, y2, m1, m2, d1, d2⟩, trivial,
        by simp [Date.render, Time.render], by simp [fields, Time.hms, Tm.zero], fun _ => rfl⟩
    rw [loop_colon1] at h
    rcases h with ⟨rfl, rfl⟩ | ⟨mi, r, i1, rfl, h⟩
    · exact ⟨⟨y, mo, da⟩, .hour ho, [], ⟨y1, y2, m1, m2, d1, d2⟩, h1,
        by simp [Date.render, Time.render], by simp [fields, Time.hms, Tm.zero], fun _ => rfl⟩
    rw [loop_colon2] at h
    rcases h with ⟨rfl, rfl⟩ | ⟨se, r, s1, rfl, rfl⟩
    · exact ⟨⟨y, mo, da⟩, .minute ho mi, [], ⟨y1, y2, m1, m2, d1, d2⟩, ⟨h1, i1⟩,
        by simp [Date.render, Time.render], by simp [fields, Time.hms, Tm.zero], fun _ => rfl⟩
    · exact ⟨⟨y, mo, da⟩, .second ho mi se, r, ⟨y1, y2, m1, m2, d1, d2⟩, ⟨h1, i1, s1⟩,
        by simp [Date.render, Time.render], by simp [fields, Time.hms],
        fun h => absurd rfl (h ho mi se)⟩
  · rintro ⟨⟨y, mo, da⟩, w, junk, ⟨y1, y2, m1, m2, d1, d2⟩, hw, rfl, rfl, hj⟩
    refine ⟨y, _, y1, y2, by simp only [Date.render, List.append_assoc]; rfl, ?_⟩
    rw [loop_hyphen1]
    refine ⟨mo, _, m1, m2, rfl, ?_⟩
    rw [loop_hyphen2]
    refine ⟨da, _, d1, d2, rfl, ?_⟩
    rw [loop_space]
    cases w with
    | none =>
      have := hj (by simp)
      subst this
      left
      exact ⟨rfl, by simp [fields, Time.hms, Tm.zero]⟩
    | hour ho =>
      have := hj (by simp)
      subst this
      right
      refine ⟨ho, [], hw, by simp [Time.render], ?_⟩
      rw [loop_colon1]
      left
      exact ⟨rfl, by simp [fields, Time.hms, Tm.zero]⟩
    | minute ho mi =>
      have := hj (by simp)
      subst this
      right
      refine ⟨ho, _, hw.1, by simp only [Time.render, List.append_assoc]; rfl, ?_⟩
      rw [loop_colon1]
      right
      refine ⟨mi, [], hw.2, by simp, ?_⟩
      rw [loop_colon2]
      left
      exact ⟨rfl, by simp [fields, Time.hms, Tm.zero]⟩
    | second ho mi se =>
      right
      refine ⟨ho, _, hw.1, by simp only [Time.render, List.append_assoc]; rfl, ?_⟩
      rw [loop_colon1]
      right
      refine ⟨mi, _, hw.2.1, rfl, ?_⟩
      rw [loop_colon2]
      right
      exact ⟨se, junk, hw.2.2, rfl, by simp [fields, Time.hms]⟩

theorem render_length (d : Date) : d.render.length = 10 := by
  simp [Date.render, dddd, dd]

/-- Proved part: strings no longer than `yyyy-mm-dd hh:mm:ss` are accepted
exactly as documented. Missing: longer strings, see `exact_violated`. -/
theorem exact_partial (s : Str) (hs : s.length ≤ 19) (t : Tm) : DateTime.parse s = some t ↔
    ∃ d w, Date.Ok d ∧ Time.Ok w ∧ s = d.render ++ w.render ∧ t = fields d w := by
  rw [accepted_iff]
  constructor
  · rintro ⟨d, w, junk, hd, hw, rfl, rfl, hj⟩
    have : junk = [] := by
      cases w with
      | none => exact hj (by simp)
      | hour h => exact hj (by simp)
      | minute h m => exact hj (by simp)
      | second h m s =>
        simp [render_length, Time.render, dd] at hs
        apply List.eq_nil_of_length_eq_zero
        omega
    subst this
    exact ⟨d, w, hd, hw, by simp, rfl⟩
  · rintro ⟨d, w, hd, hw, rfl, rfl⟩
    exact ⟨d, w, [], hd, hw, by simp, rfl, fun _ => rfl⟩

/-- Every date in the documented format is accepted, with its fields. -/
theorem documented_accepted (d : Date) (w : Time) (hd : d.Ok) (hw : w.Ok) :
    DateTime.parse (d.render ++ w.render) = some (fields d w) :=
  (accepted_iff _ _).2 ⟨d, w, [], hd, hw, by simp, rfl, fun _ => rfl⟩

/-- The property is violated: text after the seconds is accepted. -/
theorem exact_violated : ¬ Exact := by
  intro h
  have hp : DateTime.parse b!"2015-01-31 10:20:30 or so" = some ⟨115, 0, 31, 10, 20, 30⟩ := by decide
  obtain ⟨d, w, -, -, hs, -⟩ := (h _ _).1 hp
  have hl := congrArg List.length hs
  rw [List.length_append, render_length] at hl
  cases w <;> simp [Time.render, dd] at hl

example : DateTime.parse b!"2015-01-31 10:20" = some ⟨115, 0, 31, 10, 20, 0⟩ := by decide
example : DateTime.parse b!"2015-13-31" = none := by decide
example : (Date.mk 2015 1 31).Ok ∧ (Time.minute 10 20).Ok ∧ b!"2015-01-31 10:20".length ≤ 19 := by
  simp [Date.Ok, Time.Ok]

end Blogc.C32
