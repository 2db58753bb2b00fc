import Verif.Spec.Leaky
import Verif.Spec.Template
import Verif.Lemmas.Run
import Verif.Props.C28

/-!
# The flat renderer follows the structure of the template
-/

namespace Blogc.Render

open Blogc Blogc.Template Blogc.Doc

variable {G L : Type}

/-- Rounds of the loop. -/
inductive Steps (E : Evaluator G L) (ctx : Ctx L) : St G L → St G L → Prop
  | refl (a : St G L) : Steps E ctx a a
  | step {a b c : St G L} (h : step E ctx a = .ok (.inl b)) (hs : Steps E ctx b c) : Steps E ctx a c

theorem Steps.trans {E : Evaluator G L} {ctx : Ctx L} {a b c : St G L} (h : Steps E ctx a b)
    (h' : Steps E ctx b c) : Steps E ctx a c := by
  induction h with
  | refl => exact h'
  | step h1 _ ih => exact .step h1 (ih h')

theorem Steps.run {E : Evaluator G L} {ctx : Ctx L} {a b : St G L} (h : Steps E ctx a b) (hb : b.tmp = []) :
    ∃ n, runL (Render.step E ctx) n a = .ok b.out := by
  induction h with
  | refl a =>
    refine ⟨1, ?_⟩
    have : Render.step E ctx a = .ok (.inr a.out) := by simp only [Render.step, hb]
    rw [runL, this]
  | step h1 _ ih =>
    obtain ⟨n, hn⟩ := ih hb
    exact ⟨n + 1, by rw [runL, h1]; exact hn⟩

theorem seq_ok {S : Type} {a : Res (Str × S)} {f : S → Res (Str × S)} {o : Str} {s : S}
    (h : seq a f = .ok (o, s)) : ∃ o1 s1 o2, a = .ok (o1, s1) ∧ f s1 = .ok (o2, s) ∧ o = o1 ++ o2 := by
  cases a with
  | ub => cases h
  | ok p =>
    obtain ⟨o1, s1⟩ := p
    simp only [seq, Res.bind] at h
    cases hf : f s1 with
    | ub => rw [hf] at h; cases h
    | ok q =>
      rw [hf] at h
      injection h with h
      injection h with h1 h2
      exact ⟨o1, s1, q.1, rfl, by rw [hf, ← h2], h1.symm⟩

theorem map_ok {α β : Type} {a : Res α} {f : α → β} {b : β} (h : a.map f = .ok b) :
    ∃ x, a = .ok x ∧ f x = b := by
  cases a with
  | ub => cases h
  | ok x => injection h with h; exact ⟨x, rfl, h⟩

theorem bind_ok' {α β : Type} {a : Res α} {f : α → Res β} {b : β} (h : a.bind f = .ok b) :
    ∃ x, a = .ok x ∧ f x = .ok b := by
  cases a with
  | ub => cases h
  | ok x => exact ⟨x, rfl, h⟩

open Classical in
/-- Conditions. -/
theorem condition_eq {E : Evaluator G L} {st : St G L} {c : Cond} (hc : c.Ok) {b : Bool} {e : Doc.Env G L}
    (h : c.value E st.local st.item ⟨st.entries, st.global⟩ = .ok (b, e)) :
    condition E st c.node = .ok (e.global, b) ∧ e.entries = st.entries := by
  cases c with
  | defined n =>
    obtain ⟨⟨v, s⟩, h1, h2⟩ := map_ok h
    obtain ⟨⟨g, w⟩, h3, h4⟩ := map_ok h1
    injection h2 with h2 h5; injection h4 with h4 h6
    subst h2 h4 h5 h6
    refine ⟨?_, rfl⟩
    simp only [condition, Cond.node, valueOf]
    rw [show E.value st.global st.local st.item n = .ok (g, w) from h3]
    rfl
  | undefined n =>
    obtain ⟨⟨v, s⟩, h1, h2⟩ := map_ok h
    obtain ⟨⟨g, w⟩, h3, h4⟩ := map_ok h1
    injection h2 with h2 h5; injection h4 with h4 h6
    subst h2 h4 h5 h6
    refine ⟨?_, rfl⟩
    simp only [condition, Cond.node, valueOf]
    rw [show E.value st.global st.local st.item n = .ok (g, w) from h3]
    rfl
  | compare n op rhs =>
    obtain ⟨⟨v, s⟩, h1, h2⟩ := bind_ok' h
    obtain ⟨⟨g, w⟩, h3, h4⟩ := map_ok h1
    injection h4 with h4 h6
    subst h4 h6
    obtain ⟨⟨v', s'⟩, h5, h7⟩ := map_ok h2
    injection h7 with h7 h8
    subst h8
    obtain ⟨_, hop, hr⟩ := hc
    cases rhs with
    | text t =>
      injection h5 with h5
      injection h5 with h5 h6
      subst h5 h6
      obtain ⟨b', e1, e2⟩ := C28.if_text E st n op t hop g w h3
      refine ⟨?_, rfl⟩
      simp only [Cond.node, Operand.data]
      rw [e1]
      have : b' = b := by
        rw [← h7, Bool.eq_iff_iff, e2, decide_eq_true_iff, Holds]
        constructor
        · rintro ⟨x, rfl, hx⟩; exact ⟨x, t, rfl, rfl, hx⟩
        · rintro ⟨x, y, rfl, hy, hx⟩; injection hy with hy; exact ⟨x, rfl, hy ▸ hx⟩
      rw [this]
    | var m =>
      obtain ⟨⟨g', w'⟩, h9, h10⟩ := map_ok h5
      injection h10 with h10 h11
      subst h10 h11
      have hq : quoted m = none := by
        rw [quoted, if_neg]
        rintro ⟨_, hx, _⟩
        exact hr.2 hx
      obtain ⟨b', e1, e2⟩ := C28.if_variable E st n op m hop hq g g' w w' h3 h9
      refine ⟨?_, rfl⟩
      simp only [Cond.node, Operand.data]
      rw [e1]
      have : b' = b := by
        rw [← h7, Bool.eq_iff_iff, e2, decide_eq_true_iff, Holds]
      rw [this]

theorem node_isIf (c : Cond) : isIf c.node.type = true := by cases c <;> rfl

/-- Skipping from an `if` passes over whole templates. -/
theorem skipIf_nodes (b : Bool) (t : T) (k : List Node) (n : Nat) :
    skipIf b (nodes t ++ k) n = skipIf b k n := by
  have hif : ∀ (c : Cond) (l : List Node) (n : Nat), skipIf b (c.node :: l) n = skipIf b l (n + 1) := by
    intro c l n
    rw [skipIf.eq_def]
    simp only
    rw [if_pos (by cases c <;> simp [Cond.node])]
  have hend : ∀ (l : List Node) (n : Nat), skipIf b (mark .endif :: l) (n + 1) = skipIf b l n := by
    intro l n
    rw [skipIf.eq_def]
    simp [mark]
  have helse : ∀ (l : List Node) (n : Nat), skipIf b (mark .else_ :: l) (n + 1) = skipIf b l (n + 1) := by
    intro l n
    rw [skipIf.eq_def]
    simp [mark]
  have hother : ∀ (x : Node) (l : List Node) (n : Nat), isIf x.type = false → x.type ≠ .else_ → x.type ≠ .endif →
      skipIf b (x :: l) n = skipIf b l n := by
    intro x l n h1 h2 h3
    rw [skipIf.eq_def]
    simp only
    rw [if_neg, if_neg, if_neg h3]
    · exact fun h => h2 h.2.1
    · rintro (h | h | h) <;> rw [h] at h1 <;> cases h1
  induction t generalizing k n with
  | done => rfl
  | text s rest ih => rw [nodes, List.cons_append, hother _ _ _ rfl (by simp) (by simp), ih]
  | var m rest ih => rw [nodes, List.cons_append, hother _ _ _ rfl (by simp) (by simp), ih]
  | cond c yes rest ih1 ih2 =>
    simp only [nodes, List.cons_append, List.append_assoc]
    rw [hif, ih1, hend, ih2]
  | condElse c yes no rest ih1 ih2 ih3 =>
    simp only [nodes, List.cons_append, List.append_assoc]
    rw [hif, ih1, helse, ih2, hend, ih3]
  | foreach m body rest ih1 ih2 =>
    simp only [nodes, List.cons_append, List.append_assoc]
    rw [hother _ _ _ rfl (by simp) (by simp), ih1, hother _ _ _ rfl (by simp [mark]) (by simp [mark]), ih2]
  | block m body rest ih1 ih2 =>
    simp only [nodes, List.cons_append, List.append_assoc]
    rw [hother _ _ _ rfl (by simp) (by simp), ih1, hother _ _ _ rfl (by simp [mark]) (by simp [mark]), ih2]

theorem skipIf_else (t : T) (k : List Node) :
    skipIf true (nodes t ++ mark .else_ :: k) 0 = .ok (mark .else_ :: k, 0) := by
  rw [skipIf_nodes, skipIf.eq_def]; simp [mark]

theorem skipIf_endif (b : Bool) (t : T) (k : List Node) :
    skipIf b (nodes t ++ mark .endif :: k) 0 = .ok (mark .endif :: k, 0) := by
  rw [skipIf_nodes, skipIf.eq_def]; simp [mark]

/-- Skipping to the end of a block or iterator. -/
theorem skipTo_nodes (kind : NodeType) (l k : List Node) (h : ∀ x ∈ l, x.type ≠ kind) :
    skipTo kind (l ++ mark kind :: k) = .ok k := by
  induction l with
  | nil => simp [skipTo, mark]
  | cons x l ih =>
    rw [List.cons_append, skipTo, if_neg (h x (by simp))]
    exact ih fun y hy => h y (List.mem_cons_of_mem _ hy)

theorem no_endblock {f : Bool} {t : T} (h : Ok true f t) : ∀ x ∈ nodes t, x.type ≠ .endblock := by
  induction t generalizing f with
  | done => simp [nodes]
  | text s rest ih => simp only [nodes, List.mem_cons, forall_eq_or_imp]; exact ⟨by simp, ih h⟩
  | var n rest ih => simp only [nodes, List.mem_cons, forall_eq_or_imp]; exact ⟨by simp, ih h.2⟩
  | cond c yes rest ih1 ih2 =>
    simp only [nodes, List.cons_append, List.mem_cons, List.mem_append]
    rintro x (rfl | hx | rfl | hx)
    · cases c <;> simp [Cond.node]
    · exact ih1 h.2.1 x hx
    · simp [mark]
    · exact ih2 h.2.2 x hx
  | condElse c yes no rest ih1 ih2 ih3 =>
    simp only [nodes, List.cons_append, List.mem_cons, List.mem_append, List.append_assoc]
    rintro x (rfl | hx | rfl | hx | rfl | hx)
    · cases c <;> simp [Cond.node]
    · exact ih1 h.2.1 x hx
    · simp [mark]
    · exact ih2 h.2.2.1 x hx
    · simp [mark]
    · exact ih3 h.2.2.2 x hx
  | foreach n body rest ih1 ih2 =>
    simp only [nodes, List.cons_append, List.mem_cons, List.mem_append]
    rintro x (rfl | hx | rfl | hx)
    · simp
    · exact ih1 h.2.2.1 x hx
    · simp [mark]
    · exact ih2 h.2.2.2 x hx
  | block n body rest ih1 ih2 => exact absurd h.2.1 (by simp)

theorem no_endforeach {b : Bool} {t : T} (h : Ok b true t) : ∀ x ∈ nodes t, x.type ≠ .endforeach := by
  induction t generalizing b with
  | done => simp [nodes]
  | text s rest ih => simp only [nodes, List.mem_cons, forall_eq_or_imp]; exact ⟨by simp, ih h⟩
  | var n rest ih => simp only [nodes, List.mem_cons, forall_eq_or_imp]; exact ⟨by simp, ih h.2⟩
  | cond c yes rest ih1 ih2 =>
    simp only [nodes, List.cons_append, List.mem_cons, List.mem_append]
    rintro x (rfl | hx | rfl | hx)
    · cases c <;> simp [Cond.node]
    · exact ih1 h.2.1 x hx
    · simp [mark]
    · exact ih2 h.2.2 x hx
  | condElse c yes no rest ih1 ih2 ih3 =>
    simp only [nodes, List.cons_append, List.mem_cons, List.mem_append, List.append_assoc]
    rintro x (rfl | hx | rfl | hx | rfl | hx)
    · cases c <;> simp [Cond.node]
    · exact ih1 h.2.1 x hx
    · simp [mark]
    · exact ih2 h.2.2.1 x hx
    · simp [mark]
    · exact ih3 h.2.2.2 x hx
  | block n body rest ih1 ih2 =>
    simp only [nodes, List.cons_append, List.mem_cons, List.mem_append]
    rintro x (rfl | hx | rfl | hx)
    · simp
    · exact ih1 h.2.2.1 x hx
    · simp [mark]
    · exact ih2 h.2.2.2 x hx
  | foreach n body rest ih1 ih2 => exact absurd h.2.1 (by simp)

end Blogc.Render
