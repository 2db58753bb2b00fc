import Verif.Lemmas.Run
import Verif.Model.Inline
import Verif.Props.C05

/-!
# Inline markup: termination and safety

One invariant and one measure for the loop of the inline parser.
-/

namespace Blogc.Content

open Blogc Blogc.Spec

/-- Not ending in the middle of an escape, or nothing but backslashes. -/
def Safe (s : Str) : Prop := ¬ Dangling s ∨ ∀ c ∈ s, c = c!"\\"

/-- Number of backslashes at the end. -/
def tail (s : Str) : Nat := (s.reverse.takeWhile (· == 0x5c)).length

theorem dangling_iff (s : Str) : Dangling s ↔ tail s % 2 = 1 := by
  unfold Dangling backslashRun tail; rw [List.take_length]

theorem tail_append_cons (a b : Str) (c : Byte) (hc : c ≠ 0x5c) : tail (a ++ c :: b) = tail b := by
  unfold tail
  rw [List.reverse_append, List.reverse_cons, List.append_assoc, List.takeWhile_append]
  split
  · next h =>
    rw [List.singleton_append, List.takeWhile_cons_of_neg (by simpa using hc)]
    simp only [List.append_nil, h]
  · rfl

theorem tail_append_all (a b : Str) (h : ∀ c ∈ b, c = 0x5c) : tail (a ++ b) = tail a + b.length := by
  unfold tail
  rw [List.reverse_append, List.takeWhile_append_of_pos, List.length_append, List.length_reverse]
  · omega
  · intro c hc
    simpa using h c (by simpa using hc)

theorem all_or_split (s : Str) :
    (∀ c ∈ s, c = c!"\\") ∨ ∃ a c b, s = a ++ c :: b ∧ c ≠ c!"\\" ∧ ∀ d ∈ b, d = c!"\\" := by
  induction s with
  | nil => left; simp
  | cons x s ih =>
    rcases ih with h | ⟨a, c, b, rfl, hc, hb⟩
    · by_cases hx : x = c!"\\"
      · left; intro c hc; rcases List.mem_cons.1 hc with rfl | hc
        · exact hx
        · exact h c hc
      · right; exact ⟨[], x, s, rfl, hx, h⟩
    · right; exact ⟨x :: a, c, b, rfl, hc, hb⟩

/-- After a character other than a backslash, a safe text does not end in an escape. -/
theorem Safe.after {a b : Str} {c : Byte} (h : Safe (a ++ c :: b)) (hc : c ≠ c!"\\") :
    ¬ Dangling b := by
  rcases h with h | h
  · rw [dangling_iff, tail_append_cons _ _ _ hc] at h
    rwa [dangling_iff]
  · exact absurd (h c (by simp)) hc

theorem Safe.suffix {a b : Str} (h : Safe (a ++ b)) : Safe b := by
  rcases all_or_split b with hb | ⟨x, c, y, rfl, hc, hy⟩
  · exact .inr hb
  · left
    rw [← List.append_assoc] at h
    have := h.after hc
    rw [dangling_iff] at this ⊢
    rwa [tail_append_cons _ _ _ hc]

theorem Safe.drop {s : Str} (h : Safe s) (n : Nat) : Safe (s.drop n) := by
  have : s = s.take n ++ s.drop n := (List.take_append_drop n s).symm
  rw [this] at h
  exact h.suffix

theorem Safe.drop_after {s : Str} (h : Safe s) (n : Nat) (c : Byte) (hc : c ≠ c!"\\")
    (hn : s[n]? = some c) : ¬ Dangling (s.drop (n + 1)) := by
  obtain ⟨hlt, he⟩ := List.getElem?_eq_some_iff.1 hn
  have e : s = s.take n ++ c :: s.drop (n + 1) := by
    rw [← he, List.getElem_cons_drop, List.take_append_drop]
  rw [e] at h
  exact h.after hc

/-- One character in front of a text that ends outside an escape. -/
theorem Safe.cons {c : Byte} {s : Str} (h : ¬ Dangling s) : Safe (c :: s) := by
  rcases all_or_split s with hs | ⟨a, d, b, rfl, hd, hb⟩
  · by_cases hc : c = c!"\\"
    · right
      intro d hd
      rcases List.mem_cons.1 hd with rfl | hd
      · exact hc
      · exact hs d hd
    · left
      rw [dangling_iff] at h ⊢
      rwa [← List.nil_append (c :: s), tail_append_cons _ _ _ hc]
  · left
    rw [dangling_iff] at h ⊢
    rw [tail_append_cons _ _ _ hd] at h
    rwa [← List.cons_append, tail_append_cons _ _ _ hd]

theorem nulFree_drop {s : Str} (h : NulFree s) (n : Nat) : NulFree (s.drop n) :=
  fun b hb => h b (List.mem_of_mem_drop hb)

theorem nulFree_slice {s : Str} (h : NulFree s) (i j : Nat) : NulFree (slice s i j) :=
  fun b hb => h b (List.mem_of_mem_drop (List.mem_of_mem_take hb))

theorem length_slice_le (s : Str) (i j : Nat) : (slice s i j).length ≤ s.length - i := by
  unfold Blogc.slice
  rw [List.length_take, List.length_drop]
  omega

/-- A text the parser handles within bounds. -/
def Good (s : Str) : Prop := NulFree s ∧ Safe s

theorem Good.drop {s : Str} (h : Good s) (n : Nat) : Good (s.drop n) :=
  ⟨nulFree_drop h.1 n, h.2.drop n⟩

theorem findLoop_get {c : Byte} : ∀ (n : Nat) (m : Str) (i k : Nat), m.length ≤ n →
    findLoop c m i = .ok (some k) → i ≤ k ∧ m[k - i]? = some c := by
  intro n
  induction n with
  | zero =>
    intro m i k hn h
    have : m = [] := List.length_eq_zero_iff.1 (by omega)
    subst this
    simp [findLoop] at h
  | succ n ih =>
    intro m i k hn h
    cases m with
    | nil => simp [findLoop] at h
    | cons b r =>
      rw [List.length_cons] at hn
      rw [findLoop.eq_def] at h
      simp only at h
      split at h
      · simp at h
      · split at h
        · split at h
          · simp at h
          · next x r' =>
            rw [List.length_cons] at hn
            obtain ⟨h1, h2⟩ := ih r' (i + 2) k (by omega) h
            refine ⟨by omega, ?_⟩
            rw [show k - i = k - (i + 2) + 1 + 1 by omega]
            simpa using h2
        · split at h
          · next hbc =>
            simp only [Res.ok.injEq, Option.some.injEq] at h
            subst h
            simp [hbc]
          · obtain ⟨h1, h2⟩ := ih r (i + 1) k (by omega) h
            refine ⟨by omega, ?_⟩
            rw [show k - i = k - (i + 1) + 1 by omega]
            simpa using h2

theorem find_get {c : Byte} (h0 : c ≠ 0) {s : Str} {k : Nat} (h : find s c = .ok (some k)) :
    s[k]? = some c := by
  rw [find, if_neg h0] at h
  have := (findLoop_get _ _ 0 k (Nat.le_refl _) h).2
  rw [Nat.sub_zero] at this
  have hlt := (List.getElem?_eq_some_iff.1 this).1
  simp only [List.length_append, List.length_cons, List.length_nil] at hlt
  by_cases hk : k < s.length
  · rwa [List.getElem?_append_left hk] at this
  · have : k = s.length := by omega
    subst this
    simp at this
    exact absurd this.symm h0

theorem find_fine {mem : Str} {c : Byte} (pos : Nat) (h0 : c ≠ 0) (hc : c ≠ 0x5c) :
    Run.Fine (NulFree mem → Dangling (mem.drop pos))
      (fun o => ∀ k, o = some k → mem[pos + k]? = some c) (Run.ofRes (find (mem.drop pos) c)) := by
  cases h : find (mem.drop pos) c with
  | ub =>
    intro hn
    have := C05.find_outcome _ c (nulFree_drop hn pos) h0 hc
    rw [h] at this
    exact this.2
  | ok o =>
    intro k hk
    subst hk
    have := find_get h0 h
    rwa [List.getElem?_drop] at this

/-- The position is just after a character other than a backslash. -/
def After (mem : Str) (pos : Nat) : Prop := ∃ c, c ≠ c!"\\" ∧ 1 ≤ pos ∧ mem[pos - 1]? = some c

theorem After.not_dangling {mem : Str} {pos : Nat} (h : After mem pos) (hs : Safe mem) :
    ¬ Dangling (mem.drop pos) := by
  obtain ⟨c, hc, h1, hg⟩ := h
  have := hs.drop_after (pos - 1) c hc hg
  rwa [Nat.sub_add_cancel h1] at this

theorem findSingle_fine {mem : Str} {len pos : Nat} {c : Byte} (h0 : c ≠ 0)
    (hc : c ≠ 0x5c) (ha : After mem pos) :
    Run.Fine (¬ Good mem) (fun o => ∀ k, o = some k → pos ≤ k ∧ k < len)
      (findSingle mem len c pos) := by
  unfold findSingle
  refine Run.Fine.bind (P := fun _ => True)
    ((find_fine pos h0 hc).mono (fun hd hs => ha.not_dangling hs.2 (hd hs.1)) (fun _ _ => trivial)) ?_
  intro o _
  cases o with
  | none => intro k hk; simp at hk
  | some off =>
    show Run.Fine _ _ (if _ then _ else _)
    split
    · intro k hk; simp at hk
    · intro k hk
      simp only [Option.some.injEq] at hk
      omega

theorem findDouble_fine {mem : Str} {len : Nat} {c : Byte} (h0 : c ≠ 0)
    (hc : c ≠ 0x5c) : ∀ (n pos : Nat), mem.length < n + pos → pos ≤ mem.length → After mem pos →
    Run.Fine (¬ Good mem) (fun o => ∀ k, o = some k → pos ≤ k ∧ k < len)
      (findDouble mem len c n pos) := by
  intro n
  induction n with
  | zero => intro pos h1 h2; omega
  | succ n ih =>
    intro pos h1 h2 ha
    rw [findDouble]
    refine Run.Fine.bind
      ((find_fine pos h0 hc).mono (fun hd hs => ha.not_dangling hs.2 (hd hs.1)) (fun _ h => h)) ?_
    intro o ho
    cases o with
    | none => intro k hk; simp at hk
    | some off =>
      have hk := ho off rfl
      have hlt := (List.getElem?_eq_some_iff.1 hk).1
      show Run.Fine _ _ (if _ then _ else _)
      split
      · intro k hk
        simp only [Option.some.injEq] at hk
        omega
      · split
        · refine (ih (pos + off + 1) (by omega) (by omega) ⟨c, hc, by omega, hk⟩).mono id ?_
          intro o ho k hk
          have := ho k hk
          omega
        · intro k hk; simp at hk

/-! ## The loop -/

/-- Progress: every iteration increases it, except inside a link or an image,
where `current` grows. -/
def key (st : ISt) : Nat :=
  match st.state with
  | .start => 4 * st.current + 3
  | .linkStart | .imageStart => 4 * st.current
  | .linkContent | .linkUrlStart | .linkUrl => 4 * st.startLink + 1
  | .imageAlt | .imageUrlStart | .imageUrl => 4 * st.startLink + 1
  | _ => 4 * st.current + 2

def measure (len : Nat) (st : ISt) : Nat :=
  (4 * (len + 3) - key st) * (len + 3) + (len + 2 - st.current)

/-- Facts specific to a state. -/
def StInv (mem : Str) (len : Nat) (st : ISt) : Prop :=
  match st.state with
  | .asterisk | .asteriskDouble | .underscore | .underscoreDouble | .backticks | .backticksDouble
  | .linkAuto => After mem st.current
  | .linkStart => After mem st.current
  | .imageStart => st.current < len
  | .linkContent => 1 ≤ st.startLink ∧ st.startLink < st.current ∧ st.startLink < len ∧
      (st.current ≤ len →
        Unescaped (mem.drop (st.startLink + 1)) (st.current - (st.startLink + 1)))
  | .linkUrlStart | .linkUrl => 1 ≤ st.startLink ∧ st.startLink < st.current ∧ st.startLink < len ∧
      Safe st.link1 ∧ (NulFree mem → NulFree st.link1) ∧ st.link1.length < mem.length
  | .imageAlt | .imageUrlStart | .imageUrl => 1 ≤ st.startLink ∧ st.startLink ≤ st.current ∧
      st.startLink ≤ len
  | _ => True

def Inv (mem : Str) (len : Nat) (st : ISt) : Prop := st.current ≤ len + 1 ∧ StInv mem len st

theorem measure_lt {len : Nat} {st st' : ISt} (h1 : key st' ≤ 4 * (len + 2))
    (h : key st < key st') : measure len st' < measure len st := by
  unfold measure
  have : (4 * (len + 3) - key st') + 1 ≤ 4 * (len + 3) - key st := by omega
  have := Nat.mul_le_mul_right (len + 3) this
  rw [Nat.add_mul] at this
  omega

theorem measure_lt' {len : Nat} {st st' : ISt} (h : key st = key st') (h1 : st.current < len)
    (h2 : st.current < st'.current) : measure len st' < measure len st := by
  unfold measure
  rw [h]
  omega

/-- The nested calls are fine. -/
def RecFine (mem : Str) (rec : Str → Nat → Run Str) : Prop :=
  ∀ m l, m.length < mem.length → l ≤ m.length →
    Run.Fine (¬ Good m) (fun _ => True) (rec m l)

abbrev StepOk (mem : Str) (len : Nat) (st : ISt) (x : Run (ISt ⊕ Str)) : Prop :=
  Run.Fine (¬ Good mem) (StepFine (Inv mem len) (measure len) (fun _ => True) st) x

theorem RecFine.drop {mem : Str} {rec : Str → Nat → Run Str} (h : RecFine mem rec) (pos l : Nat) (h1 : 1 ≤ pos) (hl : pos + l ≤ mem.length)
    (_hp : 0 < mem.length) :
    Run.Fine (¬ Good mem) (fun _ => True) (rec (mem.drop pos) l) :=
  (h _ _ (by rw [List.length_drop]; omega) (by rw [List.length_drop]; omega)).mono
    (fun hd hs => hd (hs.drop pos)) (fun _ h => h)

variable {mem : Str} {len : Nat} {rec : Str → Nat → Run Str} {st : ISt} {c : Byte}

theorem start_ok (hlen : len ≤ mem.length) (hst : st.state = .start) (hcur : st.current < len)
    (hc : mem[st.current]? = some c) :
    StepOk mem len st (inlineStart mem st c (st.current == len - 1)) := by
  have hk : key st = 4 * st.current + 3 := by simp [key, hst]
  unfold inlineStart
  split
  · refine ⟨⟨by simp [ISt.add]; omega, by simp [ISt.add, StInv, hst]⟩, measure_lt ?_ ?_⟩ <;>
      simp [key, ISt.add, hst] <;> omega
  next hl =>
  have hl : st.current ≠ len - 1 := by simpa using hl
  have hnext : (mem[st.current + 1]?) = some (mem[st.current + 1]'(by omega)) :=
    List.getElem?_eq_getElem _
  split
  · rw [hnext]
    refine ⟨⟨by simp [ISt.add]; omega, by simp [ISt.add, StInv, hst]⟩, measure_lt ?_ ?_⟩ <;>
      simp [key, ISt.add, hst] <;> omega
  next hbs =>
  have ha : After mem (st.current + 1) := ⟨c, hbs, by omega, by simpa using hc⟩
  repeat' split
  all_goals
    refine ⟨⟨?_, ?_⟩, measure_lt ?_ ?_⟩ <;>
      simp [key, ISt.add, ISt.goto, StInv, hst] <;> first | exact ha | omega

theorem em_ok (hrec : RecFine mem rec) (hlen : len ≤ mem.length) (delim : Byte)
    (s s' : IState) (hs : (s = .asterisk ∧ s' = .asteriskDouble ∧ delim = c!"*") ∨
      (s = .underscore ∧ s' = .underscoreDouble ∧ delim = c!"_")) (hst : st.state = s)
    (hcur : st.current < len) (hc : mem[st.current]? = some c) (hI : Inv mem len st) :
    StepOk mem len st (inlineEm rec mem len st c delim s') := by
  have hd : delim ≠ 0 ∧ delim ≠ 0x5c := by
    rcases hs with ⟨_, _, rfl⟩ | ⟨_, _, rfl⟩ <;> decide
  have hk : key st = 4 * st.current + 2 := by
    rcases hs with ⟨rfl, _⟩ | ⟨rfl, _⟩ <;> simp [key, hst]
  have ha : After mem st.current := by
    have := hI.2
    rcases hs with ⟨rfl, _⟩ | ⟨rfl, _⟩ <;> simpa [StInv, hst] using this
  unfold inlineEm
  split
  next hcd =>
    have ha' : After mem (st.current + 1) := ⟨c, hcd ▸ hd.2, by omega, by simpa using hc⟩
    refine ⟨⟨?_, ?_⟩, measure_lt ?_ ?_⟩ <;> rcases hs with ⟨rfl, rfl, _⟩ | ⟨rfl, rfl, _⟩ <;>
      simp [key, ISt.goto, StInv, hst] <;> first | exact ha' | omega
  · refine Run.Fine.bind (findSingle_fine hd.1 hd.2 ha) ?_
    intro o ho
    cases o with
    | none =>
      refine ⟨⟨?_, ?_⟩, measure_lt ?_ ?_⟩ <;> simp [key, ISt.add, ISt.goto, StInv] <;>
        first | omega | (rcases hs with ⟨rfl, _⟩ | ⟨rfl, _⟩ <;> simp [hst])
    | some k =>
      obtain ⟨h1, h2⟩ := ho k rfl
      obtain ⟨_, _, hp, _⟩ := ha
      refine Run.Fine.bind (hrec.drop _ _ hp (by omega) (by omega)) ?_
      intro inner _
      refine ⟨⟨?_, ?_⟩, measure_lt ?_ ?_⟩
      · simp [ISt.add]; omega
      · simp [ISt.add, StInv]
      · simp [key, ISt.add]; omega
      · rw [hk]; simp [key, ISt.add]; omega

theorem fine_double (hlen : len ≤ mem.length) {delim : Byte} (h0 : delim ≠ 0)
    (hd : delim ≠ 0x5c) (hcur : st.current < len) (ha : After mem st.current) :
    Run.Fine (¬ Good mem) (fun o => ∀ k, o = some k → st.current ≤ k ∧ k < len)
      (findDouble mem len delim (mem.length + 1) st.current) :=
  findDouble_fine h0 hd _ _ (by omega) (by omega) ha

theorem to_start {st' : ISt} (hs : st'.state = .start) (hc : st'.current ≤ len + 1)
    (hk : key st < 4 * st'.current + 3) : StepOk mem len st (.ok (.inl st')) := by
  have hk' : key st' = 4 * st'.current + 3 := by simp [key, hs]
  exact ⟨⟨hc, by simp [StInv, hs]⟩, measure_lt (by omega) (by omega)⟩

theorem strong_ok (hrec : RecFine mem rec) (hlen : len ≤ mem.length)
    (delim : Byte) (hs : (st.state = .asteriskDouble ∧ delim = c!"*") ∨
      (st.state = .underscoreDouble ∧ delim = c!"_"))
    (hcur : st.current < len) (hI : Inv mem len st) :
    StepOk mem len st (inlineStrong rec mem len st delim) := by
  have hd : delim ≠ 0 ∧ delim ≠ 0x5c := by
    rcases hs with ⟨_, rfl⟩ | ⟨_, rfl⟩ <;> decide
  have hk : key st = 4 * st.current + 2 := by
    rcases hs with ⟨h, _⟩ | ⟨h, _⟩ <;> simp [key, h]
  have ha : After mem st.current := by
    have := hI.2
    rcases hs with ⟨h, _⟩ | ⟨h, _⟩ <;> simpa [StInv, h] using this
  unfold inlineStrong
  refine Run.Fine.bind (fine_double hlen hd.1 hd.2 hcur ha) ?_
  intro o ho
  cases o with
  | none => exact to_start rfl (by simp [ISt.add, ISt.goto]; omega) (by simp [ISt.add, ISt.goto]; omega)
  | some k =>
    obtain ⟨h1, h2⟩ := ho k rfl
    obtain ⟨_, _, hp, _⟩ := ha
    refine Run.Fine.bind (hrec.drop _ _ hp (by omega) (by omega)) ?_
    intro inner _
    exact to_start rfl (by simp [ISt.add]; omega) (by simp [ISt.add]; omega)

theorem code_ok (hst : st.state = .backticks) (hcur : st.current < len)
    (hc : mem[st.current]? = some c) (hI : Inv mem len st) :
    StepOk mem len st (inlineCode mem len st c) := by
  have hk : key st = 4 * st.current + 2 := by simp [key, hst]
  have ha : After mem st.current := by simpa [StInv, hst] using hI.2
  unfold inlineCode
  split
  next hcd =>
    have ha' : After mem (st.current + 1) := ⟨c, by rw [hcd]; decide, by omega, by simpa using hc⟩
    refine ⟨⟨?_, ?_⟩, measure_lt ?_ ?_⟩ <;>
      simp [key, ISt.goto, StInv, hst] <;> first | exact ha' | omega
  · refine Run.Fine.bind (findSingle_fine (by decide) (by decide) ha) ?_
    intro o ho
    cases o with
    | none => exact to_start rfl (by simp [ISt.add, ISt.goto]; omega) (by simp [ISt.add, ISt.goto]; omega)
    | some k =>
      obtain ⟨h1, h2⟩ := ho k rfl
      exact to_start rfl (by simp [ISt.add]; omega) (by simp [ISt.add]; omega)

theorem codeDouble_ok (hlen : len ≤ mem.length) (hst : st.state = .backticksDouble)
    (hcur : st.current < len) (hI : Inv mem len st) :
    StepOk mem len st (inlineCodeDouble mem len st) := by
  have hk : key st = 4 * st.current + 2 := by simp [key, hst]
  have ha : After mem st.current := by simpa [StInv, hst] using hI.2
  unfold inlineCodeDouble
  refine Run.Fine.bind (fine_double hlen (by decide) (by decide) hcur ha) ?_
  intro o ho
  cases o with
  | none => exact to_start rfl (by simp [ISt.add, ISt.goto]; omega) (by simp [ISt.add, ISt.goto]; omega)
  | some k =>
    obtain ⟨h1, h2⟩ := ho k rfl
    exact to_start rfl (by simp [ISt.add]; omega) (by simp [ISt.add]; omega)

theorem linkAuto_ok (hlen : len ≤ mem.length) (hst : st.state = .linkAuto)
    (hcur : st.current < len) (hI : Inv mem len st) :
    StepOk mem len st (inlineLinkAuto mem len st) := by
  have hk : key st = 4 * st.current + 2 := by simp [key, hst]
  have ha : After mem st.current := by simpa [StInv, hst] using hI.2
  unfold inlineLinkAuto
  refine Run.Fine.bind (fine_double hlen (by decide) (by decide) hcur ha) ?_
  intro o ho
  cases o with
  | none => exact to_start rfl (by simp [ISt.add, ISt.goto]; omega) (by simp [ISt.add, ISt.goto]; omega)
  | some k =>
    obtain ⟨h1, h2⟩ := ho k rfl
    exact to_start rfl (by simp [ISt.add]; omega) (by simp [ISt.add]; omega)

theorem dash_ok (hst : st.state = .endash ∨ st.state = .emdash ∨ st.state = .lineBreakStart ∨
      st.state = .lineBreak) (hcur : st.current < len) :
    StepOk mem len st (inlineDash st c (st.current == len - 1)) := by
  have hk : key st = 4 * st.current + 2 := by
    rcases hst with h | h | h | h <;> simp [key, h]
  have hcnt : ∀ (s : IState) (n : Nat), s = .emdash ∨ s = .lineBreak →
      StepOk mem len st (ISt.brk { st with state := s, count := n }) := by
    intro s n hs
    refine ⟨⟨?_, ?_⟩, measure_lt ?_ (hk ▸ ?_)⟩ <;> rcases hs with rfl | rfl <;>
      simp [key, StInv] <;> omega
  unfold inlineDash
  rcases hst with h | h | h | h <;> simp only [h]
  · repeat' split
    · exact to_start rfl (by simp [ISt.add, ISt.goto]; omega) (by simp [ISt.add, ISt.goto]; omega)
    · exact hcnt _ _ (.inl rfl)
    · exact to_start rfl (by simp [ISt.add, ISt.goto]; omega) (by simp [ISt.add, ISt.goto]; omega)
  · repeat' split
    all_goals
      exact to_start rfl (by simp [ISt.add, ISt.goto]; omega) (by simp [ISt.add, ISt.goto]; omega)
  · repeat' split
    · exact to_start rfl (by simp [ISt.add, ISt.goto]; omega) (by simp [ISt.add, ISt.goto]; omega)
    · exact hcnt _ _ (.inr rfl)
    · exact to_start rfl (by simp [ISt.add, ISt.goto]; omega) (by simp [ISt.add, ISt.goto]; omega)
  · repeat' split
    · exact to_start rfl (by simp [ISt.add, ISt.goto]; omega) (by simp [ISt.add, ISt.goto]; omega)
    · exact hcnt .lineBreak (st.count + 1) (.inr rfl)
    · exact to_start rfl (by simp [ISt.add, ISt.goto]; omega) (by simp [ISt.add, ISt.goto]; omega)
    · exact to_start rfl (by simp [ISt.add, ISt.goto]; omega) (by simp [ISt.add, ISt.goto]; omega)

theorem to_same {st' : ISt} (hk : key st = key st') (h1 : st.current < len)
    (h2 : st.current < st'.current) (hI : Inv mem len st') : StepOk mem len st (.ok (.inl st')) :=
  ⟨hI, measure_lt' hk h1 h2⟩

theorem link_ok (hrec : RecFine mem rec) (hlen : len ≤ mem.length)
    (hst : st.state = .linkStart ∨ st.state = .linkContent ∨ st.state = .linkUrlStart ∨
      st.state = .linkUrl) (hcur : st.current < len) (hc : mem[st.current]? = some c)
    (hI : Inv mem len st) : StepOk mem len st (inlineLink rec mem st c) := by
  have h2 := hI.2
  unfold inlineLink
  rcases hst with h | h | h | h <;> simp only [h] <;> simp only [StInv, h] at h2
  · have hk : key st = 4 * st.current := by simp [key, h]
    split
    next hb =>
      have ha' : After mem (st.current + 1) := ⟨c, by rw [hb]; decide, by omega, by simpa using hc⟩
      refine ⟨⟨?_, ?_⟩, measure_lt ?_ (hk ▸ ?_)⟩ <;> simp [key, StInv, ISt.goto] <;>
        first | exact ha' | omega
    · obtain ⟨_, _, hp, _⟩ := h2
      refine ⟨⟨?_, ?_⟩, measure_lt ?_ (hk ▸ ?_)⟩
      · show st.current + 1 ≤ len + 1; omega
      · refine ⟨hp, ?_, hcur, fun _ => ?_⟩
        · show st.current < st.current + 1; omega
        · show Unescaped _ (st.current + 1 - (st.current + 1))
          rw [Nat.sub_self]
          simp [Unescaped, backslashRun]
      · simp [key]; omega
      · simp [key]
  · obtain ⟨hp, hlt, hsl, hun⟩ := h2
    have hk : key st = 4 * st.startLink + 1 := by simp [key, h]
    have hun := hun (by omega)
    have hg : (mem.drop (st.startLink + 1))[st.current - (st.startLink + 1)]? = some c := by
      rw [List.getElem?_drop, ← hc]; congr 1; omega
    have hr := C05.run_succ _ _ _ hg
    unfold Unescaped at hun
    have e1 : st.current - (st.startLink + 1) + 1 = st.current + 1 - (st.startLink + 1) := by omega
    split
    next hb =>
      refine to_same (by simp [key, h]) hcur (by simp; omega) ⟨by simp; omega, ?_⟩
      refine ⟨hp, by simp; omega, hsl, ?_⟩
      show st.current + 1 + 1 ≤ len → Unescaped _ (st.current + 1 + 1 - (st.startLink + 1))
      intro hle
      rw [if_pos hb] at hr
      have hg' : (mem.drop (st.startLink + 1))[st.current - (st.startLink + 1) + 1]? =
          some (mem[st.current + 1]'(by omega)) := by
        rw [List.getElem?_drop, ← List.getElem?_eq_getElem]; congr 1; omega
      have hr' := C05.run_succ _ _ _ hg'
      unfold Unescaped
      rw [show st.current + 1 + 1 - (st.startLink + 1) = st.current - (st.startLink + 1) + 1 + 1 by
        omega, hr']
      split <;> omega
    next hb =>
    rw [if_neg hb] at hr
    have hun' : Unescaped (mem.drop (st.startLink + 1)) (st.current + 1 - (st.startLink + 1)) := by
      unfold Unescaped; rw [← e1, hr]
    have hsame : ∀ n, StepOk mem len st (ISt.brk { st with count := n }) := by
      intro n
      refine to_same (by simp [key, h]) hcur (by simp) ⟨by simp; omega, ?_⟩
      rw [h]
      exact ⟨hp, by simp; omega, hsl, fun _ => hun'⟩
    split
    · rw [← h]; exact hsame _
    split
    · split
      · refine to_same (by simp [key, h]) hcur (by simp) ⟨by simp; omega, hp, by simp; omega, hsl, ?_⟩
        refine ⟨?_, fun hn => nulFree_slice hn _ _, ?_⟩
        · have hsl' : slice mem st.startLink st.current =
              mem[st.startLink]'(by omega) :: slice mem (st.startLink + 1) st.current := by
            unfold Blogc.slice
            rw [List.drop_eq_getElem_cons (by omega),
              show st.current - st.startLink = st.current - (st.startLink + 1) + 1 by omega,
              List.take_succ_cons]
          show Safe (slice mem st.startLink st.current)
          rw [hsl']
          apply Safe.cons
          rw [dangling_iff]
          unfold backslashRun at hun
          unfold tail Blogc.slice
          omega
        · show (slice mem st.startLink st.current).length < _
          have := length_slice_le mem st.startLink st.current
          omega
      · rw [← h]; exact hsame _
    · exact hsame st.count
  · obtain ⟨hp, hlt, hsl, hsafe⟩ := h2
    have hk : key st = 4 * st.startLink + 1 := by simp [key, h]
    split
    · refine to_same (by simp [key, h]) hcur (by simp) ⟨by simp; omega, ?_⟩
      simp only [StInv, h]
      exact ⟨hp, by omega, hsl, hsafe⟩
    · split
      · refine to_same (by simp [key, h]) hcur (by simp) ⟨by simp; omega, ?_⟩
        exact ⟨hp, by simp; omega, hsl, hsafe⟩
      · exact to_start rfl (by simp [ISt.add]; omega) (by simp [ISt.add]; omega)
  · obtain ⟨hp, hlt, hsl, hsafe, hnf, hll⟩ := h2
    have hk : key st = 4 * st.startLink + 1 := by simp [key, h]
    split
    · refine to_same (by simp [key, h]) hcur (by simp; omega) ⟨by simp; omega, ?_⟩
      simp only [StInv]
      exact ⟨hp, by omega, hsl, hsafe, hnf, hll⟩
    split
    · refine Run.Fine.bind ((hrec _ _ hll (Nat.le_refl _)).mono (fun hx hg => hx ⟨hnf hg.1, hsafe⟩)
        (fun _ h => h)) ?_
      intro text _
      exact to_start rfl (by simp [ISt.add]; omega) (by simp [ISt.add]; omega)
    · refine to_same (by simp [key, h]) hcur (by simp) ⟨by simp; omega, ?_⟩
      simp only [StInv, h]
      exact ⟨hp, by omega, hsl, hsafe, hnf, hll⟩

theorem image_ok (hst : st.state = .imageStart ∨ st.state = .imageAlt ∨ st.state = .imageUrlStart ∨
      st.state = .imageUrl) (hcur : st.current < len) (hI : Inv mem len st) :
    StepOk mem len st (inlineImage mem st c) := by
  have h2 := hI.2
  unfold inlineImage
  rcases hst with h | h | h | h <;> simp only [h] <;> simp only [StInv, h] at h2
  · have hk : key st = 4 * st.current := by simp [key, h]
    split
    · refine ⟨⟨?_, ?_⟩, measure_lt ?_ (hk ▸ ?_)⟩ <;> simp [key, StInv] <;> omega
    · exact to_start rfl (by simp [ISt.add, ISt.goto]; omega) (by simp [ISt.add, ISt.goto]; omega)
  all_goals
    obtain ⟨hp, hlt, hsl⟩ := h2
    have hk : key st = 4 * st.startLink + 1 := by simp [key, h]
    repeat' split
    all_goals first
      | exact to_start rfl (by simp [ISt.add]; omega) (by simp [ISt.add]; omega)
      | (refine to_same (by simp [key, h]) hcur (by simp <;> omega) ⟨by simp; omega, ?_⟩
         simp only [StInv, h]
         exact ⟨hp, by simp; omega, hsl⟩)
      | (refine to_same (by simp [key, h]) hcur (by simp <;> omega) ⟨by simp; omega, ?_⟩
         simp only [StInv, h]
         exact ⟨hp, by omega, hsl⟩)
      | (refine to_same (by simp [key, h]) hcur (by simp <;> omega) ⟨by simp; omega, ?_⟩
         exact ⟨hp, by simp; omega, hsl⟩)

theorem end_ok (hrec : RecFine mem rec) (hlen : len ≤ mem.length)
    (hcur : ¬ st.current < len) (hI : Inv mem len st) :
    Run.Fine (¬ Good mem) (fun _ => True) (inlineEnd rec mem st) := by
  have h2 := hI.2
  have key : 1 ≤ st.startLink → st.startLink ≤ len → ∀ p : Str,
      Run.Fine (¬ Good mem) (fun _ => True) (if st.startLink > mem.length then .ub else do
        let s ← rec (mem.drop st.startLink) (mem.length - st.startLink)
        pure (st.rv ++ p ++ appendEscapedLoop false s) : Run Str) := by
    intro h1 hle p
    rw [if_neg (by omega)]
    exact Run.Fine.bind (hrec.drop _ _ h1 (by omega) (by omega)) (fun _ _ => trivial)
  unfold inlineEnd
  cases h : st.state <;> simp only [StInv, h] at h2 <;> simp only
  case imageStart => omega
  case imageAlt | imageUrlStart | imageUrl => exact key h2.1 h2.2.2 _
  case linkContent | linkUrlStart | linkUrl => exact key h2.1 (by omega) _
  all_goals trivial

theorem step_ok (hrec : RecFine mem rec) (hlen : len ≤ mem.length)
    (hI : Inv mem len st) : StepOk mem len st (inlineStep rec mem len st) := by
  unfold inlineStep
  split
  next hcur =>
    have hg : mem[st.current]? = some (mem[st.current]'(by omega)) := List.getElem?_eq_getElem _
    rw [hg]
    generalize hb : mem[st.current]'(by omega) = c at hg ⊢
    simp only
    cases h : st.state
    case start => exact start_ok hlen h hcur hg
    case asterisk => exact em_ok hrec hlen _ _ _ (.inl ⟨rfl, rfl, rfl⟩) h hcur hg hI
    case asteriskDouble => exact strong_ok hrec hlen _ (.inl ⟨h, rfl⟩) hcur hI
    case underscore => exact em_ok hrec hlen _ _ _ (.inr ⟨rfl, rfl, rfl⟩) h hcur hg hI
    case underscoreDouble => exact strong_ok hrec hlen _ (.inr ⟨h, rfl⟩) hcur hI
    case backticks => exact code_ok h hcur hg hI
    case backticksDouble => exact codeDouble_ok hlen h hcur hI
    case linkAuto => exact linkAuto_ok hlen h hcur hI
    case linkStart | linkContent | linkUrlStart | linkUrl =>
      exact link_ok hrec hlen (by simp [h]) hcur hg hI
    case imageStart | imageAlt | imageUrlStart | imageUrl => exact image_ok (by simp [h]) hcur hI
    case endash | emdash | lineBreakStart | lineBreak => exact dash_ok (by simp [h]) hcur
  next hcur => exact Run.Fine.bind (end_ok hrec hlen hcur hI) (fun _ _ => trivial)

/-- The inline parser ends; it is undefined only on unsafe texts. -/
theorem inlineInternal_fine : ∀ (d : Nat) (mem : Str) (len : Nat), mem.length < d →
    len ≤ mem.length →
    Run.Fine (¬ Good mem) (fun _ => True) (inlineInternal d mem len) := by
  intro d
  induction d with
  | zero => intro mem len h; omega
  | succ d ih =>
    intro mem len hd hlen
    rw [inlineInternal]
    refine runL_fine (I := Inv mem len) (μ := measure len) (fun st hI => ?_) _ _ ⟨?_, trivial⟩ ?_
    · exact step_ok (fun m l h1 h2 => ih m l (by omega) h2) hlen hI
    · exact Nat.zero_le _
    · show measure len ISt.init < inlineFuel len
      simp only [measure, inlineFuel, ISt.init, key]
      have := Nat.mul_le_mul_right (len + 3) (show 4 * (len + 3) - (4 * 0 + 3) + 1 ≤ 4 * (len + 3) by omega)
      rw [Nat.add_mul] at this ⊢
      omega

theorem parseInline_fine (s : Str) :
    Run.Fine (¬ Good s) (fun _ => True) (parseInline s) :=
  inlineInternal_fine _ _ _ (by omega) (Nat.le_refl _)

end Blogc.Content
