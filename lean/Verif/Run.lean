import Verif.Basic

/-!
# Computations that may not terminate

Functions that call themselves, and loops that can go backwards, are modelled
with fuel. `out` (fuel exhausted) is never confused with a result.
-/

namespace Blogc

/-- A value, undefined behaviour, or fuel exhausted. -/
inductive Run (α : Type u) where
  | ok (a : α)
  | ub
  | out
  deriving Repr, DecidableEq

namespace Run

def bind {α : Type u} {β : Type v} : Run α → (α → Run β) → Run β
  | .ok a, f => f a
  | .ub, _ => .ub
  | .out, _ => .out

instance : Monad Run where
  pure := Run.ok
  bind := Run.bind

@[simp] theorem bind_ok {α β : Type u} (a : α) (f : α → Run β) : (Run.ok a >>= f) = f a := rfl
@[simp] theorem bind_ub {α β : Type u} (f : α → Run β) : ((Run.ub : Run α) >>= f) = Run.ub := rfl
@[simp] theorem bind_out {α β : Type u} (f : α → Run β) : ((Run.out : Run α) >>= f) = Run.out := rfl
@[simp] theorem pure_eq {α : Type u} (a : α) : (pure a : Run α) = Run.ok a := rfl

/-- A computation without loops. -/
def ofRes {α : Type u} : Res α → Run α
  | .ok a => .ok a
  | .ub => .ub

@[simp] theorem ofRes_ok {α : Type u} (a : α) : ofRes (.ok a) = Run.ok a := rfl

end Run

/-- Iterate a loop body: `inl` goes on, `inr` leaves the loop. -/
def runL {σ : Type u} {ρ : Type v} (step : σ → Run (σ ⊕ ρ)) : Nat → σ → Run ρ
  | 0, _ => .out
  | n + 1, s =>
    match step s with
    | .ok (.inl s') => runL step n s'
    | .ok (.inr r) => .ok r
    | .ub => .ub
    | .out => .out

end Blogc
