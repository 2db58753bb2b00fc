import Verif.Spec.RemoveAccount

/-!
# The account of a removal: lemmas
-/

namespace Blogc.RemoveMem

open Blogc Blogc.Remove Blogc.Spec.RemoveAccount

theorem erase {d : Nat} {x : Part} {fs fs' : FS} {o : Out} {ev : List Event} (h : RmM d x fs fs' o ev) :
    Rm x fs fs' o := by
  induction h with
  | failed d x fs => exact .failed x fs
  | noUnlink => exact .failed _ _
  | stopped h1 _ h3 ih => exact .stopped h1 ih h3
  | done h1 _ h3 ih => exact .done h1 ih h3
  | notEmpty h1 _ h3 ih => exact .notEmpty h1 ih h3
  | late h1 _ ih => exact .late h1 ih
  | nil d fs p => exact .nil fs p
  | refused h => exact .refused h
  | file h1 _ ih => exact .file h1 ih
  | sub h1 _ _ ih1 ih2 => exact .sub h1 ih1 ih2
  | subStopped h1 _ h3 ih => exact .subStopped h1 ih h3

theorem accounted {x : Part} {fs fs' : FS} {o : Out} (h : Rm x fs fs' o) (d : Nat) :
    ∃ ev, RmM d x fs fs' o ev := by
  induction h generalizing d with
  | failed x fs => exact ⟨_, .failed d x fs⟩
  | stopped h1 _ h3 ih => obtain ⟨ev, h⟩ := ih d; exact ⟨_, .stopped h1 h h3⟩
  | done h1 _ h3 ih => obtain ⟨ev, h⟩ := ih d; exact ⟨_, .done h1 h h3⟩
  | notEmpty h1 _ h3 ih => obtain ⟨ev, h⟩ := ih d; exact ⟨_, .notEmpty h1 h h3⟩
  | late h1 _ ih => obtain ⟨ev, h⟩ := ih d; exact ⟨_, .late h1 h⟩
  | nil fs p => exact ⟨_, .nil d fs p⟩
  | refused h => exact ⟨_, .refused h⟩
  | file h1 _ ih => obtain ⟨ev, h⟩ := ih d; exact ⟨_, .file h1 h⟩
  | sub h1 _ _ ih1 ih2 =>
    obtain ⟨ev, h⟩ := ih1 (d + 1)
    obtain ⟨ev', h'⟩ := ih2 d
    exact ⟨_, .sub h1 h h'⟩
  | subStopped h1 _ h3 ih => obtain ⟨ev, h⟩ := ih (d + 1); exact ⟨_, .subStopped h1 h h3⟩

/-! ## The account -/

theorem inUse_append (a b : List Event) (l : InUse) :
    inUse (a ++ b) l = (inUse a l).bind (inUse b) := by
  induction a generalizing l with
  | nil => rfl
  | cons e a ih =>
    simp only [List.cons_append, inUse]
    cases account l e with
    | none => rfl
    | some l' => exact ih l'

theorem dirName_ok (d s : Nat) : inUse (dirName d) (onTheWay s d) = some (onTheWay s d) := by
  cases d <;> simp [dirName, inUse, account, onTheWay]

theorem opening_ok (d : Nat) : inUse (opening d) (onTheWay d d) = some (onTheWay (d + 1) d) := by
  rw [opening, inUse_append, dirName_ok]
  simp only [Option.bind_some, inUse, account, onTheWay, Nat.lt_irrefl, decide_false, Bool.false_eq_true,
    if_false, Option.some.injEq]
  funext x
  cases x with
  | stream k => simp only [mark, onTheWay, Thing.stream.injEq]; grind
  | name k => simp [mark, onTheWay]

theorem closing_ok (d : Nat) : inUse (closing d) (onTheWay (d + 1) d) = some (onTheWay d d) := by
  have h : onTheWay (d + 1) d (.stream d) = true := by simp [onTheWay]
  simp only [closing, inUse, account, h, if_true, Option.bind_some, Option.some.injEq]
  funext x
  cases x with
  | stream k => simp only [mark, onTheWay, Thing.stream.injEq]; grind
  | name k => simp [mark, onTheWay]

theorem nextEntry_ok (d : Nat) : inUse (nextEntry d) (onTheWay (d + 1) d) = some (onTheWay (d + 1) (d + 1)) := by
  have h : onTheWay (d + 1) d (.stream d) = true := by simp [onTheWay]
  have hn : onTheWay (d + 1) d (.name d) = false := by simp [onTheWay]
  rw [nextEntry, inUse_append, inUse_append]
  simp only [inUse, account, h, if_true, Option.bind_some]
  rw [dirName_ok]
  simp only [Option.bind_some, hn, Bool.false_eq_true, if_false, mark, if_true, Option.some.injEq]
  funext x
  cases x with
  | stream k => simp [mark, onTheWay]
  | name k => simp only [mark, onTheWay, Thing.name.injEq]; grind

theorem release_ok (d : Nat) :
    inUse [.release (.name d)] (onTheWay (d + 1) (d + 1)) = some (onTheWay (d + 1) d) := by
  have h : onTheWay (d + 1) (d + 1) (.name d) = true := by simp [onTheWay]
  simp only [inUse, account, h, if_true, Option.bind_some, Option.some.injEq]
  funext x
  cases x with
  | stream k => simp [mark, onTheWay]
  | name k => simp only [mark, onTheWay, Thing.name.injEq]; grind

theorem unlink_ok (d : Nat) :
    inUse [.use (.name d), .release (.name d)] (onTheWay (d + 1) (d + 1)) = some (onTheWay (d + 1) d) := by
  have h : onTheWay (d + 1) (d + 1) (.name d) = true := by simp [onTheWay]
  rw [← release_ok]
  simp [inUse, account, h]

/-- What is in use when a part begins. -/
def before (d : Nat) : Part → InUse
  | .dir _ _ => onTheWay d d
  | .entries _ _ => onTheWay (d + 1) d

/-- What may be in use when a part ends. -/
def after (d : Nat) (x : Part) (o : Out) (l : InUse) : Prop :=
  (o = .done → l = before d x) ∧ ∃ s n, n ≤ s ∧ s ≤ n + 1 ∧ l = onTheWay s n

theorem after_done {d : Nat} {x : Part} : after d x .done (before d x) := by
  refine ⟨fun _ => rfl, ?_⟩
  cases x
  · exact ⟨d, d, by omega, by omega, rfl⟩
  · exact ⟨d + 1, d, by omega, by omega, rfl⟩

theorem after_stop {d : Nat} {x : Part} {o : Out} (ho : o ≠ .done) {s n : Nat} (h1 : n ≤ s) (h2 : s ≤ n + 1) :
    after d x o (onTheWay s n) := ⟨fun h => absurd h ho, s, n, h1, h2, rfl⟩

theorem part_account {d : Nat} {x : Part} {fs fs' : FS} {o : Out} {ev : List Event} (h : RmM d x fs fs' o ev) :
    ∃ l, inUse ev (before d x) = some l ∧ after d x o l := by
  induction h with
  | failed d x fs =>
    refine ⟨_, rfl, ?_⟩
    have := (after_done (d := d) (x := x)).2
    exact ⟨fun h => (by cases h), this⟩
  | @noUnlink d fs p n ns =>
    refine ⟨_, ?_, after_stop (s := d + 1) (n := d) (by simp) (by omega) (by omega)⟩
    rw [inUse_append, before, nextEntry_ok, Option.bind_some, unlink_ok]
  | @stopped d fs fs' p linked names o ev h1 _ h3 ih =>
    obtain ⟨l, e, ha⟩ := ih
    refine ⟨l, ?_, fun h => absurd h h3, ha.2⟩
    rw [inUse_append, before, opening_ok]
    exact e
  | @done d fs fs' p names ev h1 _ h3 ih =>
    obtain ⟨l, e, ha⟩ := ih
    have := ha.1 rfl
    subst this
    refine ⟨_, ?_, after_done⟩
    rw [inUse_append, inUse_append, inUse_append]
    simp only [before] at e ⊢
    rw [opening_ok, Option.bind_some, e, Option.bind_some, closing_ok, Option.bind_some, dirName_ok]
  | @notEmpty d fs fs' p linked names ev h1 _ h3 ih =>
    obtain ⟨l, e, ha⟩ := ih
    have := ha.1 rfl
    subst this
    refine ⟨_, ?_, after_stop (s := d) (n := d) (by simp) (by omega) (by omega)⟩
    rw [inUse_append, inUse_append, inUse_append]
    simp only [before] at e ⊢
    rw [opening_ok, Option.bind_some, e, Option.bind_some, closing_ok, Option.bind_some, dirName_ok]
  | @late d fs fs' p linked names ev h1 _ ih =>
    obtain ⟨l, e, ha⟩ := ih
    have := ha.1 rfl
    subst this
    refine ⟨_, ?_, after_stop (s := d) (n := d) (by simp) (by omega) (by omega)⟩
    rw [inUse_append, inUse_append, inUse_append]
    simp only [before] at e ⊢
    rw [opening_ok, Option.bind_some, e, Option.bind_some, closing_ok, Option.bind_some, dirName_ok]
  | nil d fs p => exact ⟨_, rfl, after_done⟩
  | @refused d fs p n ns h =>
    refine ⟨_, ?_, after_stop (s := d + 1) (n := d) (by simp) (by omega) (by omega)⟩
    rw [inUse_append, before, nextEntry_ok, Option.bind_some, release_ok]
  | @file d fs fs' p q n ns o ev h1 _ ih =>
    obtain ⟨l, e, ha⟩ := ih
    refine ⟨l, ?_, ha⟩
    rw [inUse_append, inUse_append, before, nextEntry_ok, Option.bind_some, unlink_ok]
    exact e
  | @sub d fs fs1 fs' p q n ns o ev ev' h1 _ _ ih1 ih2 =>
    obtain ⟨l1, e1, ha1⟩ := ih1
    obtain ⟨l2, e2, ha2⟩ := ih2
    have := ha1.1 rfl
    subst this
    refine ⟨l2, ?_, ha2⟩
    simp only [before] at e1 e2 ⊢
    rw [inUse_append, inUse_append, inUse_append, nextEntry_ok, Option.bind_some, e1, Option.bind_some, release_ok]
    exact e2
  | @subStopped d fs fs' p q n ns o ev h1 _ h3 ih =>
    obtain ⟨l, e, ha⟩ := ih
    refine ⟨l, ?_, fun h => absurd h h3, ha.2⟩
    simp only [before] at e ⊢
    rw [inUse_append, nextEntry_ok]
    exact e

theorem onTheWay_zero : onTheWay 0 0 = nothing := by
  funext x
  cases x <;> simp [onTheWay, nothing]

end Blogc.RemoveMem
