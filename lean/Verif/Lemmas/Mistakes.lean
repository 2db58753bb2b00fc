import Verif.Spec.Mistakes
import Verif.Lemmas.TemplateRound

/-!
# Templates with mistakes
-/

namespace Blogc.Template

open Blogc Blogc.Doc Blogc.Tokens Blogc.Spec.Mistakes

/-! ### Characters -/

theorem space_iff {c : Byte} : Space c ↔ isSpace c = true := by
  simp only [Space, isSpace, Bool.or_eq_true, beq_iff_eq]
  constructor
  · intro h
    simp only [List.mem_cons, List.not_mem_nil, or_false] at h
    rcases h with rfl | rfl | rfl | rfl | rfl | rfl <;> decide
  · rintro (((((rfl | rfl) | rfl) | rfl) | rfl) | rfl) <;> decide

theorem not_space {c : Byte} (h : ¬ Space c) : isSpace c = false := by
  rw [space_iff] at h; simpa using h

theorem lower_iff {c : Byte} : Lower c ↔ isLower c = true := by simp [Lower, isLower]
theorem not_lower {c : Byte} (h : ¬ Lower c) : isLower c = false := by rw [lower_iff] at h; simpa using h
theorem upper_iff {c : Byte} : Upper c ↔ isUpper c = true := by simp [Upper, isUpper]
theorem not_upper {c : Byte} (h : ¬ Upper c) : isUpper c = false := by rw [upper_iff] at h; simpa using h
theorem inName_iff {c : Byte} : InName c ↔ isName c = true := by
  simp [InName, isName, upper_iff, or_assoc]
theorem not_inName {c : Byte} (h : ¬ InName c) : isName c = false := by rw [inName_iff] at h; simpa using h

/-! ### The place in a template -/

section
@[simp] theorem block_isBlock (k : Str) : (Opened.block k).isBlock = true := rfl
@[simp] theorem block_isCond (k : Str) : (Opened.block k).isCond = false := rfl
@[simp] theorem block_isLoop (k : Str) : (Opened.block k).isLoop = false := rfl
@[simp] theorem cond_isBlock (e : Bool) : (Opened.cond e).isBlock = false := rfl
@[simp] theorem cond_isCond (e : Bool) : (Opened.cond e).isCond = true := rfl
@[simp] theorem cond_isLoop (e : Bool) : (Opened.cond e).isLoop = false := rfl
@[simp] theorem loop_isBlock : Opened.loop.isBlock = false := rfl
@[simp] theorem loop_isCond : Opened.loop.isCond = false := rfl
@[simp] theorem loop_isLoop : Opened.loop.isLoop = true := rfl
end

/-- What is open around the current block. -/
def outer (o : List Opened) : List Opened := (o.dropWhile fun x => !x.isBlock).tail

theorem parts (o : List Opened) (h : o.any Opened.isBlock = true) :
    ∃ k, o = (o.takeWhile fun x => !x.isBlock) ++ .block k :: outer o := by
  induction o with
  | nil => cases h
  | cons x o ih =>
    cases hx : x.isBlock with
    | true =>
      cases x with
      | block k => exact ⟨k, by simp [outer, List.takeWhile, List.dropWhile]⟩
      | cond e => cases hx
      | loop => cases hx
    | false =>
      have h' : o.any Opened.isBlock = true := by simpa [hx] using h
      obtain ⟨k, e⟩ := ih h'
      refine ⟨k, ?_⟩
      have h1 : outer (x :: o) = outer o := by simp [outer, List.dropWhile, hx]
      rw [h1]
      simp only [List.takeWhile, hx, Bool.not_false, List.cons_append]
      rw [← e]

theorem no_parts (o : List Opened) (h : o.any Opened.isBlock = false) :
    (o.takeWhile fun x => !x.isBlock) = o := by
  induction o with
  | nil => rfl
  | cons x o ih =>
    simp only [List.any_cons, Bool.or_eq_false_iff] at h
    simp [List.takeWhile, h.1, ih h.2]

/-- The counters say what is open. -/
structure Agrees (p : Place) (br : Br) : Prop where
  ifs : br.ifCount = p.opened.countP Opened.isCond
  block : br.blockOpen = p.inBlock
  loops : br.foreachOpen = p.opened.any Opened.isLoop
  blockIfs : p.inBlock = true → br.blockIfCount = (outer p.opened).countP Opened.isCond
  blockLoops : p.inBlock = true → br.blockForeachOpen = (outer p.opened).any Opened.isLoop
  else_ : br.elseOpen = p.elseLast
  elseTop : p.elseLast = true → p.opened.find? Opened.isCond = some (.cond true)
  oneBlock : p.opened.countP Opened.isBlock ≤ 1
  oneLoop : p.opened.countP Opened.isLoop ≤ 1

theorem agrees_start : Agrees {} {} := by
  constructor <;> simp [Place.inBlock]

section
variable {p : Place} {br : Br}

theorem countP_any {o : List Opened} {f : Opened → Bool} : o.any f = true ↔ 0 < o.countP f := by
  simp [List.countP_pos_iff]

theorem any_false {o : List Opened} {f : Opened → Bool} : o.any f = false ↔ o.countP f = 0 := by
  rw [← Bool.not_eq_true, countP_any]; omega

theorem Agrees.inner_ifs (h : Agrees p br) :
    br.ifCount - (if br.blockOpen = true then br.blockIfCount else 0) = p.inner.countP Opened.isCond ∧
      (if br.blockOpen = true then br.blockIfCount else 0) ≤ br.ifCount := by
  rw [h.ifs, h.block]
  cases hb : p.inBlock with
  | true =>
    obtain ⟨k, e⟩ := parts p.opened hb
    have : p.opened.countP Opened.isCond = p.inner.countP Opened.isCond + (outer p.opened).countP Opened.isCond := by
      conv => lhs; rw [e]
      simp [List.countP_append, List.countP_cons, Place.inner]
    rw [if_pos rfl, h.blockIfs hb]; omega
  | false =>
    rw [if_neg (by decide), Place.inner, no_parts _ hb]; simp

theorem Agrees.ifOpen (h : Agrees p br) : br.ifOpen ↔ p.inner.any Opened.isCond = true := by
  have := h.inner_ifs
  rw [countP_any, ← this.1, Br.ifOpen]
  cases hb : br.blockOpen <;> rw [hb] at this <;> simp at this ⊢ <;> omega

theorem Agrees.foreachIn (h : Agrees p br) : br.foreachIn ↔ p.inner.any Opened.isLoop = true := by
  rw [Br.foreachIn, h.block, h.loops]
  cases hb : p.inBlock with
  | true =>
    obtain ⟨k, e⟩ := parts p.opened hb
    have hc : p.opened.countP Opened.isLoop = p.inner.countP Opened.isLoop + (outer p.opened).countP Opened.isLoop := by
      conv => lhs; rw [e]
      simp [List.countP_append, List.countP_cons, Place.inner]
    have := h.oneLoop
    rw [h.blockLoops hb, any_false, countP_any, countP_any, hc]
    simp only [true_and, Bool.true_eq_false, false_and, or_false]; omega
  | false => rw [Place.inner, no_parts _ hb]; simp

theorem outer_cons {x : Opened} {o : List Opened} (hx : x.isBlock = false) : outer (x :: o) = outer o := by
  simp [outer, List.dropWhile, hx]

theorem outer_cond (e : Bool) (o : List Opened) : outer (.cond e :: o) = outer o := rfl
theorem outer_loop (o : List Opened) : outer (.loop :: o) = outer o := rfl
theorem outer_block (k : Str) (o : List Opened) : outer (.block k :: o) = o := rfl

/-- A statement that can stand at a place is accepted. -/
theorem Agrees.next (h : Agrees p br) {s : Stmt} {p' : Place} (hf : follow p s = some p') :
    ∃ br', brNext br s.node.type = some br' ∧ Agrees p' br' := by
  obtain ⟨o, el⟩ := p
  have hif := h.ifOpen
  have hin := h.inner_ifs
  have hfe := h.foreachIn
  obtain ⟨h1, h2, h3, h4, h5, h6, h7, h8, h9⟩ := h
  simp only [Place.inBlock, Place.inner] at h1 h2 h3 h4 h5 h6 h7 h8 h9 hif hin hfe
  have cond : ∀ s : Stmt, follow ⟨o, el⟩ s = some ⟨.cond false :: o, false⟩ →
      brNext br s.node.type = some { br with ifCount := br.ifCount + 1, elseOpen := false } →
      ∃ br', brNext br s.node.type = some br' ∧ Agrees ⟨.cond false :: o, false⟩ br' := by
    intro s _ hb
    refine ⟨_, hb, ?_⟩
    (clear hif hin hfe; constructor) <;> simp_all [Place.inBlock, List.countP_cons, outer_cond, outer_loop] <;> assumption
  cases s with
  | block a k b =>
    by_cases hc : Place.inBlock ⟨o, el⟩ = true
    · rw [follow, if_pos hc] at hf; cases hf
    · rw [follow, if_neg hc] at hf
      have hc : o.any Opened.isBlock = false := by simpa [Place.inBlock] using hc
      injection hf with hf; subst hf
      refine ⟨_, by simp only [Stmt.node, brNext]; rw [if_pos (h2.trans hc)], ?_⟩
      have := any_false.mp hc
      constructor <;>
        simp_all [Place.inBlock, List.countP_cons, outer_block] <;> assumption
  | endblock a =>
    simp only [follow] at hf
    split at hf
    · rename_i k o'
      injection hf with hf; subst hf
      have hc : br.blockOpen = true := by rw [h2]; simp
      have ho : outer (.block k :: o') = o' := by simp [outer, List.dropWhile]
      have hz : o'.countP Opened.isBlock = 0 := by
        rw [List.countP_cons] at h8
        simp at h8
        simpa [List.countP_eq_zero] using h8
      have hz' := any_false.mpr hz
      have hz1 := Nat.le_trans (Nat.le_of_eq hz) (Nat.zero_le 1)
      clear hz
      have h4' := h4 (by simp)
      have h5' := h5 (by simp)
      rw [ho] at h4' h5'
      refine ⟨{ br with blockOpen := false }, ?_, ?_⟩
      · simp only [Stmt.node, mark, brNext]
        rw [if_pos]
        refine ⟨hc, ?_, ?_⟩
        · rw [h1, h4']; simp [List.countP_cons]
        · rw [h5', h3]; simp
      · (clear hif hin hfe; constructor) <;> simp_all [Place.inBlock, List.countP_cons, outer_cond, outer_loop] <;> assumption
    · cases hf
  | ifdef a n b => simp only [follow, Option.some.injEq] at hf; subst hf; exact cond _ rfl rfl
  | ifndef a n b => simp only [follow, Option.some.injEq] at hf; subst hf; exact cond _ rfl rfl
  | if_ a n b op c r d => simp only [follow, Option.some.injEq] at hf; subst hf; exact cond _ rfl rfl
  | else_ a =>
    simp only [follow] at hf
    split at hf
    · rename_i o'
      injection hf with hf; subst hf
      have hel : el = false := by
        cases el with
        | false => rfl
        | true => have := h7 rfl; simp at this
      refine ⟨{ br with elseOpen := true }, ?_, ?_⟩
      · simp only [Stmt.node, mark, brNext]
        rw [if_pos]
        exact ⟨hif.mpr (by simp), by rw [h6, hel]⟩
      · (clear hif hin hfe; constructor) <;> simp_all [Place.inBlock, List.countP_cons, outer_cond, outer_loop] <;> assumption
    · cases hf
  | endif a =>
    simp only [follow] at hf
    split at hf
    · rename_i e o'
      injection hf with hf; subst hf
      refine ⟨{ br with ifCount := br.ifCount - 1, elseOpen := false }, ?_, ?_⟩
      · simp only [Stmt.node, mark, brNext]
        rw [if_pos]
        exact hif.mpr (by simp)
      · (clear hif hin hfe; constructor) <;> simp_all [Place.inBlock, List.countP_cons, outer_cond, outer_loop] <;> assumption
    · cases hf
  | foreach a n b =>
    by_cases hc : o.any Opened.isLoop = true
    · rw [follow, if_pos hc] at hf; cases hf
    · rw [follow, if_neg hc] at hf
      have hc : o.any Opened.isLoop = false := by simpa using hc
      injection hf with hf; subst hf
      refine ⟨_, by simp only [Stmt.node, brNext]; rw [if_pos (h3.trans hc)], ?_⟩
      have := any_false.mp hc
      (clear hif hin hfe; constructor) <;> simp_all [Place.inBlock, List.countP_cons, outer_cond, outer_loop] <;> assumption
  | endforeach a =>
    simp only [follow] at hf
    split at hf
    · rename_i o'
      injection hf with hf; subst hf
      have hz : o'.countP Opened.isLoop = 0 := by
        rw [List.countP_cons] at h9
        simp at h9
        simpa [List.countP_eq_zero] using h9
      have hz' := any_false.mpr hz
      have hz1 := Nat.le_trans (Nat.le_of_eq hz) (Nat.zero_le 1)
      clear hz
      refine ⟨{ br with foreachOpen := false }, ?_, ?_⟩
      · simp only [Stmt.node, mark, brNext]
        rw [if_pos]
        exact hfe.mpr (by simp)
      · (clear hif hin hfe; constructor) <;> simp_all [Place.inBlock, List.countP_cons, outer_cond, outer_loop] <;> assumption
    · cases hf

end

end Blogc.Template
