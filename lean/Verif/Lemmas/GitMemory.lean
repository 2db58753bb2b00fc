import Verif.Spec.GitAccount

/-!
# Lemmas about what the git receiver has in use
-/

namespace Blogc.GitMem

open Blogc Blogc.GitMem.MProg Blogc.Spec.GitAccount
open Blogc.Config (Config)

variable {C α : Type}

/-- Every execution of the program is one with memory. -/
theorem runs_of_exec (p : MProg C α) (t : List (C × Bool)) (a : α) (h : p.erase.Exec t a) :
    ∃ ev, p.Runs t ev a := by
  induction p generalizing t with
  | ret b =>
    cases h
    exact ⟨[], .ret a⟩
  | call c k ih =>
    cases h with
    | call h =>
      obtain ⟨ev, hr⟩ := ih _ _ h
      exact ⟨ev, .call hr⟩
  | mem e k ih =>
    obtain ⟨ev, hr⟩ := ih _ h
    exact ⟨e :: ev, .mem hr⟩

/-- Whatever the system answers, all events are allowed, and `Q` holds at the end. -/
def Kept (Q : α → List Thing → Prop) : MProg C α → List Thing → Prop
  | .ret a, l => Q a l
  | .call _ k, l => ∀ ok, Kept Q (k ok) l
  | .mem e k, l => ∃ l', account l e = some l' ∧ Kept Q k l'

theorem runs_kept {Q : α → List Thing → Prop} {p : MProg C α} {l : List Thing} {t : List (C × Bool)}
    {ev : List Event} {a : α} (hk : Kept Q p l) (hr : p.Runs t ev a) :
    ∃ l', inUse ev l = some l' ∧ Q a l' := by
  induction hr generalizing l with
  | ret a => exact ⟨l, rfl, hk⟩
  | call _ ih => exact ih (hk _)
  | mem _ ih =>
    obtain ⟨l1, h1, h2⟩ := hk
    obtain ⟨l2, h3, h4⟩ := ih h2
    refine ⟨l2, ?_, h4⟩
    show (account l _).bind _ = _
    rw [h1]
    exact h3

variable {Q : α → List Thing → Prop} {k : MProg C α} {l : List Thing} {x : Thing}

theorem acq_ok (h : x ∉ l) (hk : Kept Q k (x :: l)) : Kept Q (acq x k) l :=
  ⟨x :: l, if_neg h, hk⟩

theorem rel_ok (h : x ∈ l) (hk : Kept Q k (l.erase x)) : Kept Q (rel x k) l :=
  ⟨l.erase x, if_pos h, hk⟩

theorem use_ok (h : x ∈ l) (hk : Kept Q k l) : Kept Q (use x k) l :=
  ⟨l, if_pos h, hk⟩

theorem call_ok {c : C} {k : Bool → MProg C α} (h0 : Kept Q (k false) l) (h1 : Kept Q (k true) l) :
    Kept Q (.call c k) l := fun ok => match ok with
  | false => h0
  | true => h1

/-- What is taken last is released first. -/
theorem erase_top (x : Thing) (l : List Thing) : (x :: l).erase x = l := by simp

/-- What is taken before it. -/
theorem erase_second (x y : Thing) (l : List Thing) (h : y ≠ x) : (y :: x :: l).erase x = y :: l := by
  rw [List.erase_cons_tail (by simpa using h), erase_top]

/-- Go through the events of a program. -/
macro "events" : tactic => `(tactic| repeat first
  | refine acq_ok (by decide) ?_
  | refine rel_ok (by decide) ?_
  | refine use_ok (by decide) ?_)

end Blogc.GitMem
