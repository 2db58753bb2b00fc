import Verif.Basic

/-!
# Programs that make system calls

Each call either succeeds or fails; the environment decides.
-/

namespace Blogc

/-- A program that makes system calls. -/
inductive Prog (C : Type) (α : Type) where
  | ret (a : α)
  | call (c : C) (k : Bool → Prog C α)

namespace Prog

variable {C α : Type}

/-- `if (call) ...`: continue on success, else stop with `fail`. -/
def require (c : C) (fail : α) (k : Prog C α) : Prog C α :=
  .call c fun ok => if ok then k else .ret fail

/-- The executions of a program: the calls it makes with their outcomes, in
order, and what it returns. -/
inductive Exec : Prog C α → List (C × Bool) → α → Prop where
  | ret (a : α) : Exec (.ret a) [] a
  | call {c : C} {k : Bool → Prog C α} {ok : Bool} {t : List (C × Bool)} {a : α} :
      Exec (k ok) t a → Exec (.call c k) ((c, ok) :: t) a

/-- Every execution, after the calls `h`, ends with `Q`. -/
def Ensures (Q : List (C × Bool) → α → Prop) : Prog C α → List (C × Bool) → Prop
  | .ret a, h => Q h a
  | .call c k, h => ∀ ok, Ensures Q (k ok) (h ++ [(c, ok)])

theorem exec_of_ensures {Q : List (C × Bool) → α → Prop} {p : Prog C α} {h t : List (C × Bool)}
    {a : α} (he : p.Ensures Q h) (hx : p.Exec t a) : Q (h ++ t) a := by
  induction hx generalizing h with
  | ret a => simpa [Ensures] using he
  | call _ ih =>
    have := ih (he _)
    simpa using this

theorem ensures_require {Q : List (C × Bool) → α → Prop} {c : C} {f : α} {k : Prog C α}
    {h : List (C × Bool)} (h0 : Q (h ++ [(c, false)]) f) (h1 : k.Ensures Q (h ++ [(c, true)])) :
    (require c f k).Ensures Q h := by
  intro ok
  cases ok with
  | false => exact h0
  | true => exact h1

theorem ensures_call {Q : List (C × Bool) → α → Prop} {c : C} {k : Bool → Prog C α}
    {h : List (C × Bool)} (h0 : (k false).Ensures Q (h ++ [(c, false)]))
    (h1 : (k true).Ensures Q (h ++ [(c, true)])) : (Prog.call c k).Ensures Q h := by
  intro ok
  cases ok with
  | false => exact h0
  | true => exact h1

end Prog

end Blogc
