import Verif.Prog

/-!
# Lemmas about programs that make system calls
-/

namespace Blogc.Prog

variable {C α : Type}

/-- Whenever the program makes a call `c`, after the calls `h`, `P h c` holds. -/
def Calls (P : List (C × Bool) → C → Prop) : Prog C α → List (C × Bool) → Prop
  | .ret _, _ => True
  | .call c k, h => P h c ∧ ∀ ok, Calls P (k ok) (h ++ [(c, ok)])

theorem exec_of_calls {P : List (C × Bool) → C → Prop} {p : Prog C α} {h t : List (C × Bool)} {a : α}
    (hc : p.Calls P h) (hx : p.Exec t a) :
    ∀ pre c b post, t = pre ++ (c, b) :: post → P (h ++ pre) c := by
  induction hx generalizing h with
  | ret a => intro pre c b post e; simp at e
  | @call c' k ok t a _ ih =>
    intro pre c b post e
    cases pre with
    | nil =>
      simp only [List.nil_append, List.cons.injEq, Prod.mk.injEq] at e
      obtain ⟨⟨rfl, -⟩, -⟩ := e
      simpa using hc.1
    | cons x pre =>
      simp only [List.cons_append, List.cons.injEq] at e
      obtain ⟨rfl, e⟩ := e
      have := ih (hc.2 ok) pre c b post e
      simpa using this

theorem calls_call {P : List (C × Bool) → C → Prop} {c : C} {k : Bool → Prog C α} {h : List (C × Bool)}
    (h0 : P h c) (hf : (k false).Calls P (h ++ [(c, false)])) (ht : (k true).Calls P (h ++ [(c, true)])) :
    (Prog.call c k).Calls P h :=
  ⟨h0, fun ok => by cases ok <;> assumption⟩

theorem calls_require {P : List (C × Bool) → C → Prop} {c : C} {f : α} {k : Prog C α} {h : List (C × Bool)}
    (h0 : P h c) (h1 : k.Calls P (h ++ [(c, true)])) : (require c f k).Calls P h :=
  calls_call h0 (by simp [Calls]) (by simpa using h1)

end Blogc.Prog
