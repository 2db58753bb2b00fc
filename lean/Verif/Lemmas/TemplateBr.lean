import Verif.Spec.Template

/-!
# The bracket automaton of the template parser

What the parser remembers about open statements, one statement at a time, and why a list of
statements accepted by it is well bracketed.
-/

namespace Blogc.Template

open Blogc

/-- Open conditionals; the open block, with the conditionals and the iterator that were open
when it began; the open iterator. -/
structure A where
  ifs : Nat := 0
  blk : Option (Nat × Bool) := none
  fe : Bool := false

namespace A

def base (a : A) : Nat :=
  match a.blk with
  | none => 0
  | some (n, _) => n

def held (a : A) : Bool :=
  match a.blk with
  | none => false
  | some (_, f) => f

def next (a : A) (k : NodeType) : Option A :=
  match k with
  | .ifdef | .ifndef | .if_ => some { a with ifs := a.ifs + 1 }
  | .else_ => if a.base < a.ifs then some a else none
  | .endif => if a.base < a.ifs then some { a with ifs := a.ifs - 1 } else none
  | .foreach => if a.fe = false then some { a with fe := true } else none
  | .endforeach => if a.fe = true ∧ a.held = false then some { a with fe := false } else none
  | .block => if a.blk = none then some { a with blk := some (a.ifs, a.fe) } else none
  | .endblock =>
    if a.blk ≠ none ∧ a.ifs = a.base ∧ ¬ (a.held = false ∧ a.fe = true) then some { a with blk := none }
    else none
  | .variable | .content => some a

def run (a : A) : List NodeType → Option A
  | [] => some a
  | k :: ks => (a.next k).bind (run · ks)

theorem run_append (a : A) (xs ys : List NodeType) :
    a.run (xs ++ ys) = (a.run xs).bind (run · ys) := by
  induction xs generalizing a with
  | nil => rfl
  | cons k ks ih =>
    simp only [List.cons_append, run]
    cases a.next k with
    | none => rfl
    | some b => simp only [Option.bind_some]; exact ih b

theorem run_split {a c : A} {xs ys : List NodeType} (h : a.run (xs ++ ys) = some c) :
    ∃ b, a.run xs = some b ∧ b.run ys = some c := by
  rw [run_append] at h
  cases hb : a.run xs with
  | none => rw [hb] at h; cases h
  | some b => rw [hb] at h; exact ⟨b, rfl, h⟩

theorem run_single {a c : A} {k : NodeType} (h : a.run [k] = some c) : a.next k = some c := by
  simp only [run] at h
  cases hb : a.next k with
  | none => rw [hb] at h; cases h
  | some b => rw [hb] at h; exact h

/-- The conditionals of a block are counted from those open when it began. -/
structure Ok (a : A) : Prop where
  le : a.base ≤ a.ifs
  fe : a.held = true → a.fe = true

def n (b : Bool) : Nat := if b then 1 else 0

/-- What one statement changes. -/
structure Delta (a : A) (ks : List NodeType) (b : A) : Prop where
  ok : b.Ok
  ifs : a.ifs + ks.countP isIf = b.ifs + ks.countP (· == .endif)
  fe : n a.fe + ks.countP (· == .foreach) = n b.fe + ks.countP (· == .endforeach)
  blk : n a.blk.isSome + ks.countP (· == .block) = n b.blk.isSome + ks.countP (· == .endblock)

theorem next_delta {a b : A} {k : NodeType} (ha : a.Ok) (h : a.next k = some b) : Delta a [k] b := by
  obtain ⟨h1, h2⟩ := ha
  obtain ⟨ifs, blk, fe⟩ := a
  cases k <;> simp only [next] at h
  case ifdef | ifndef | if_ =>
    injection h with h; subst h
    refine ⟨⟨?_, h2⟩, ?_, rfl, rfl⟩
    · exact Nat.le_trans h1 (Nat.le_succ _)
    · rfl
  case else_ =>
    split at h
    · injection h with h; subst h; exact ⟨⟨h1, h2⟩, rfl, rfl, rfl⟩
    · cases h
  case endif =>
    split at h
    · rename_i hlt
      injection h with h; subst h
      refine ⟨⟨?_, h2⟩, ?_, rfl, rfl⟩
      · simp only [base] at hlt ⊢; omega
      · simp only [List.countP_cons, List.countP_nil, isIf]; simp; omega
    · cases h
  case foreach =>
    split at h
    · rename_i hf
      injection h with h; subst h; subst hf
      exact ⟨⟨h1, fun _ => rfl⟩, rfl, rfl, rfl⟩
    · cases h
  case endforeach =>
    split at h
    · rename_i hf
      injection h with h; subst h; obtain ⟨hf, hh⟩ := hf; subst hf
      refine ⟨⟨h1, fun hx => ?_⟩, rfl, rfl, rfl⟩
      have : (A.held ⟨ifs, blk, false⟩) = A.held ⟨ifs, blk, true⟩ := rfl
      rw [this, hh] at hx; cases hx
    · cases h
  case block =>
    split at h
    · rename_i hb
      injection h with h; subst h; subst hb
      exact ⟨⟨Nat.le_refl _, fun hx => hx⟩, rfl, rfl, rfl⟩
    · cases h
  case endblock =>
    split at h
    · rename_i hb
      obtain ⟨hb, _⟩ := hb
      injection h with h; subst h
      cases blk with
      | none => exact absurd rfl hb
      | some p => exact ⟨⟨Nat.zero_le _, fun hx => nomatch hx⟩, rfl, rfl, rfl⟩
    · cases h
  case «variable» | content =>
    injection h with h; subst h; exact ⟨⟨h1, h2⟩, rfl, rfl, rfl⟩

theorem run_delta {a c : A} {ks : List NodeType} (ha : a.Ok) (h : a.run ks = some c) :
    Delta a ks c := by
  induction ks generalizing a with
  | nil => injection h with h; subst h; exact ⟨ha, rfl, rfl, rfl⟩
  | cons k ks ih =>
    simp only [run] at h
    cases hb : a.next k with
    | none => rw [hb] at h; cases h
    | some b =>
      rw [hb] at h
      have d1 := next_delta ha hb
      have d2 := ih d1.ok h
      have e : k :: ks = [k] ++ ks := rfl
      rw [e]
      refine ⟨d2.ok, ?_, ?_, ?_⟩ <;> rw [List.countP_append, List.countP_append]
      · have := d1.ifs; have := d2.ifs; omega
      · have := d1.fe; have := d2.fe; omega
      · have := d1.blk; have := d2.blk; omega

/-- Without `endblock` the open block stays open. -/
theorem run_blk {a c : A} {ks : List NodeType} (hb : a.blk ≠ none) (hk : .endblock ∉ ks)
    (h : a.run ks = some c) : c.blk = a.blk := by
  induction ks generalizing a with
  | nil => injection h with h; subst h; rfl
  | cons k ks ih =>
    simp only [run] at h
    cases hn : a.next k with
    | none => rw [hn] at h; cases h
    | some b =>
      rw [hn] at h
      have e : b.blk = a.blk := by
        cases k <;> simp only [next] at hn
        case ifdef | ifndef | if_ | «variable» | content => injection hn with hn; subst hn; rfl
        case endblock => exact absurd List.mem_cons_self hk
        case block => rw [if_neg hb] at hn; cases hn
        all_goals
          split at hn
          · injection hn with hn; subst hn; rfl
          · cases hn
      rw [← e]
      exact ih (by rw [e]; exact hb) (fun hm => hk (List.mem_cons_of_mem _ hm)) h

/-- Nothing is open. -/
def Empty (a : A) : Prop := a.ifs = 0 ∧ a.blk = none ∧ a.fe = false

theorem prefix_run {a c : A} {p ks : List NodeType} (hp : p <+: ks) (h : a.run ks = some c) :
    ∃ b, a.run p = some b := by
  obtain ⟨r, rfl⟩ := hp
  obtain ⟨b, hb, _⟩ := run_split h
  exact ⟨b, hb⟩

/-- The part of a run within which the conditionals never fall below those open at its start. -/
theorem closed_of_run {a c : A} {ks : List NodeType} (ha : a.Ok) (hbase : a.ifs = a.base)
    (hfe : a.held = true ∨ a.fe = false) (hstay : ∀ p b, p <+: ks → a.run p = some b → b.blk = a.blk ∨ a.blk = none)
    (h : a.run ks = some c) (hc : c.ifs = a.ifs) (hcf : c.fe = a.fe) : Closed ks := by
  have key : ∀ p b, p <+: ks → a.run p = some b → a.ifs ≤ b.ifs ∧ n a.fe ≤ n b.fe ∧
      (a.blk = none ∨ b.base = a.ifs ) := by
    intro p b hp hb
    have d := run_delta ha hb
    rcases hstay p b hp hb with e | e
    · have e1 : b.base = a.base := by simp only [base, e]
      have e2 : b.held = a.held := by simp only [held, e]
      refine ⟨by rw [hbase, ← e1]; exact d.ok.le, ?_, Or.inr (by rw [e1, hbase])⟩
      rcases hfe with hf | hf
      · have := d.ok.fe (by rw [e2]; exact hf)
        rw [this]; cases a.fe <;> decide
      · rw [hf]; exact Nat.zero_le _
    · have hb0 : a.base = 0 := by simp only [base, e]
      have hh : a.held = false := by simp only [held, e]
      refine ⟨by rw [hbase, hb0]; exact Nat.zero_le _, ?_, Or.inl e⟩
      rcases hfe with hf | hf
      · rw [hh] at hf; cases hf
      · rw [hf]; exact Nat.zero_le _
  have d := run_delta ha h
  refine ⟨⟨fun p hp => ?_, ?_⟩, ⟨fun p hp => ?_, ?_⟩, fun p hp => ?_⟩
  · obtain ⟨b, hb⟩ := prefix_run hp h
    have := (run_delta ha hb).ifs; have := (key p b hp hb).1; omega
  · have := d.ifs; omega
  · obtain ⟨b, hb⟩ := prefix_run hp h
    have := (run_delta ha hb).fe; have := (key p b hp hb).2.1; omega
  · have := d.fe; rw [hcf] at this; omega
  · obtain ⟨b, hb⟩ := prefix_run hp h
    obtain ⟨b', hb', hn⟩ := run_split hb
    have hn := run_single hn
    have hp' : p <+: ks := List.IsPrefix.trans (List.prefix_append _ _) hp
    have d' := (run_delta ha hb').ifs
    have k := key p b' hp' hb'
    simp only [next] at hn
    split at hn
    · rename_i hlt
      rcases k.2.2 with e | e
      · have hb0 : a.base = 0 := by simp only [base, e]
        omega
      · omega
    · cases hn

theorem wellBracketed_of_run {a c : A} {ks : List NodeType} (ha : a.Empty) (h : a.run ks = some c)
    (hc : c.Empty) : WellBracketed ks := by
  obtain ⟨h1, h2, h3⟩ := ha
  obtain ⟨c1, c2, c3⟩ := hc
  have b0 : a.base = 0 := by simp only [base, h2]
  have e0 : a.held = false := by simp only [held, h2]
  have ok : a.Ok := ⟨by omega, by rw [e0]; exact fun hx => nomatch hx⟩
  have d := run_delta ok h
  refine ⟨closed_of_run ok (by omega) (Or.inr h3) (fun _ _ _ _ => Or.inr h2) h (by omega) (by rw [c3, h3]),
    ⟨fun p hp => ?_, ?_⟩, fun p hp => ?_, ?_⟩
  · obtain ⟨b, hb⟩ := prefix_run hp h
    have := (run_delta ok hb).blk; rw [h2] at this; simp only [n, Option.isSome_none] at this
    simp at this; omega
  · have := d.blk; rw [h2, c2] at this; simp only [n, Option.isSome_none] at this
    simp at this; omega
  · obtain ⟨b, hb⟩ := prefix_run hp h
    have := (run_delta ok hb).blk; rw [h2] at this; simp only [n, Option.isSome_none] at this
    simp at this; split at this <;> omega
  · intro x body y hks hno
    subst hks
    obtain ⟨a4, h4, _⟩ := run_split h
    obtain ⟨a3, h3', h4⟩ := run_split h4
    obtain ⟨a2, h2', h3''⟩ := run_split h3'
    obtain ⟨a1, h1', h2''⟩ := run_split h2'
    have ok1 := (run_delta ok h1').ok
    have hn := run_single h2''
    have ok2 := (next_delta ok1 hn).ok
    have e2 : a2 = { a1 with blk := some (a1.ifs, a1.fe) } := by
      simp only [next] at hn
      split at hn
      · injection hn with hn; exact hn.symm
      · cases hn
    have ebase : a2.ifs = a2.base := by rw [e2]; rfl
    have eheld : a2.held = a2.fe := by rw [e2]; rfl
    have eblk : a2.blk ≠ none := by rw [e2]; simp
    have eb3 := run_blk eblk hno h3''
    have hend := run_single h4
    simp only [next] at hend
    split at hend
    · rename_i hcond
      obtain ⟨_, hi, hf⟩ := hcond
      have e3b : a3.base = a2.base := by simp only [base, eb3]
      have e3h : a3.held = a2.held := by simp only [held, eb3]
      refine closed_of_run ok2 ebase ?_ (fun p b hp hb => Or.inl ?_) h3'' (by omega) ?_
      · rw [eheld]; cases a2.fe <;> simp
      · exact run_blk eblk (fun hm => hno (hp.subset hm)) hb
      · rw [e3h, eheld] at hf
        cases hx : a2.fe with
        | false => rw [hx] at hf; cases hy : a3.fe with
          | false => rfl
          | true => exact absurd ⟨rfl, hy⟩ hf
        | true => exact (run_delta ok2 h3'').ok.fe (by rw [e3h, eheld]; exact hx)
    · cases hend

end A

end Blogc.Template
