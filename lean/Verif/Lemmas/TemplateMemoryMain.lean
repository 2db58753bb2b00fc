import Verif.Lemmas.TemplateMemoryNested
import Verif.Spec.Semantics

/-!
# The memory of a template and its page, from beginning to end
-/

namespace Blogc.TmplMem

open Blogc Blogc.Template Blogc.Render Blogc.Spec.TmplAccount

/-- What is left of an iterator. -/
def rests (m : Nat) (b : Bool) : InUse
  | .word k | .wordLink k => k < m
  | .name => b
  | _ => false

theorem inv_start (ctx : Ctx Table) (ns : List Node) (entries : List (Option Table)) (g : Table) :
    Render.Inv ctx ns { tmp := ns, entries := entries, global := g } :=
  ⟨List.suffix_refl _, (fun _ h => nomatch h), (fun _ h => nomatch h), fun _ => rfl, .inl ⟨rfl, rfl, rfl⟩⟩

theorem nest_start (ctx : Ctx Table) {ns : List Node} (entries : List (Option Table)) (g : Table)
    (h : Nested [] (ns.map Node.type)) : Nest ctx [] { tmp := ns, entries := entries, global := g } :=
  ⟨h, by simp, by simp, ⟨fun _ => by simp, fun _ e => nomatch e⟩, fun _ e => nomatch e⟩

/-- Rendering, writing and releasing: some words of an iterator may be left, none if the template is properly nested. -/
theorem page_memory {sys : Sys} {fuel : Nat} {ns : List Node} {ctx : Ctx Table} {entries : List (Option Table)} {g : Table}
    {out : Str} (h : render (evaluator sys) fuel ns ctx entries g = .ok out) :
    ∃ m b, inUse (renderEvents sys fuel ns ctx entries g ++
        (if ns = [] then [] else [Event.use .page, .release .page]) ++ freeAst ns) (ofTemplate ns) = some (rests m b) ∧
      (Nested [] (ns.map Node.type) → m = 0 ∧ b = false) := by
  by_cases hns : ns = []
  · subst hns
    refine ⟨0, false, nil_ok fun x => ?_, fun _ => ⟨rfl, rfl⟩⟩
    cases x <;> simp [ofTemplate, rests]
  · obtain ⟨st', h1, h2, h3, h4⟩ := rounds_ok fuel _ out (inv_start ctx ns entries g) rfl h
    refine ⟨st'.foreachVarStart.length, st'.foreachName.isSome, ?_, fun hN => ?_⟩
    · simp only [renderEvents, if_neg hns]
      have e0 : put (ofTemplate ns) .text true = now ns { tmp := ns, entries := entries, global := g } := by
        funext x
        cases x <;> simp [put, now, during, ofTemplate]
      have e1 : inUse (Event.acquire .text :: roundsEvents sys ctx ns.length fuel
          { tmp := ns, entries := entries, global := g }) (ofTemplate ns) = some (after ns st') :=
        acquire_ok rfl (by rw [e0]; exact h1)
      refine then_ok (then_ok e1 (use_ok rfl (release_ok rfl rfl))) ?_
      have hh : Has (put (after ns st') .page false) ns := fun k => ⟨rfl, rfl, rfl, rfl⟩
      rw [freeAst_ok hh]
      congr 1
      funext x
      cases x <;> simp [less, put, after, now, during, rests, ofTemplate]
    · have e := reached_nested h3 (inv_start ctx ns entries g) ⟨[], nest_start ctx entries g hN⟩ h4
      have hn := h2
      simp only [NameOk, e, List.isEmpty_nil, Bool.not_true] at hn
      exact ⟨by rw [e]; rfl, hn⟩

theorem rests_nothing : rests 0 false = nothing := by
  funext x
  cases x <;> simp [rests, nothing]

theorem run_memory {sys : Sys} {fuel : Nat} {src : Str} {ns : List Node} {ctx : Ctx Table} {entries : List (Option Table)}
    {g : Table} {out : Str} (hp : parse src = .ok (.ok ns)) (h : render (evaluator sys) fuel ns ctx entries g = .ok out) :
    ∃ m b, inUse (runEvents sys fuel src ctx entries g) nothing = some (rests m b) ∧
      (Nested [] (ns.map Node.type) → m = 0 ∧ b = false) := by
  obtain ⟨m, b, h1, h2⟩ := page_memory h
  refine ⟨m, b, ?_, h2⟩
  have hr := parse_memory src
  rw [hp] at hr
  simp only [runEvents, hp]
  exact then_ok hr h1

theorem inUse_prefix {p evs : List Event} {l r : InUse} (hp : p <+: evs) (h : inUse evs l = some r) :
    ∃ l', inUse p l = some l' := by
  obtain ⟨q, rfl⟩ := hp
  rw [inUse_append] at h
  cases hi : inUse p l with
  | none => rw [hi] at h; cases h
  | some l' => exact ⟨l', rfl⟩

open Blogc.Doc in
/-- The nodes of a tree are properly nested. -/
theorem nodes_nested (t : T) : ∀ (inB inF : Bool) (S : List Open) (ks : List NodeType), Ok inB inF t →
    (inB = false → Open.block ∉ S) → (inF = false → Open.iterator ∉ S) → Nested S ks →
    Nested S ((nodes t).map Node.type ++ ks) := by
  have hc : ∀ (c : Cond) (S : List Open) (ks : List NodeType), Nested (.conditional :: S) ks →
      Nested S (c.node.type :: ks) := by
    intro c S ks h
    cases c <;> exact h
  induction t with
  | done => intro inB inF S ks _ _ _ h; exact h
  | text s rest ih => intro inB inF S ks ho hb hf h; exact ih inB inF S ks ho hb hf h
  | var n rest ih => intro inB inF S ks ho hb hf h; exact ih inB inF S ks ho.2 hb hf h
  | cond c yes rest ihy ih =>
    intro inB inF S ks ho hb hf h
    simp only [nodes, List.map_append, List.map_cons, List.append_assoc, List.cons_append]
    refine hc c S _ (ihy inB inF _ _ ho.2.1 (fun e => ?_) (fun e => ?_) ⟨rfl, ih inB inF S ks ho.2.2 hb hf h⟩)
    · simpa using hb e
    · simpa using hf e
  | condElse c yes no rest ihy ihn ih =>
    intro inB inF S ks ho hb hf h
    simp only [nodes, List.map_append, List.map_cons, List.append_assoc, List.cons_append]
    refine hc c S _ (ihy inB inF _ _ ho.2.1 (fun e => ?_) (fun e => ?_) ⟨rfl, ihn inB inF _ _ ho.2.2.1 (fun e => ?_)
      (fun e => ?_) ⟨rfl, ih inB inF S ks ho.2.2.2 hb hf h⟩⟩)
    · simpa using hb e
    · simpa using hf e
    · simpa using hb e
    · simpa using hf e
  | foreach n body rest ihb ih =>
    intro inB inF S ks ho hb hf h
    simp only [nodes, List.map_append, List.map_cons, List.append_assoc, List.cons_append]
    refine ⟨hf ho.2.1, ihb inB true _ _ ho.2.2.1 (fun e => ?_) (fun e => nomatch e)
      ⟨rfl, ih inB inF S ks ho.2.2.2 hb hf h⟩⟩
    simpa using hb e
  | block k body rest ihb ih =>
    intro inB inF S ks ho hb hf h
    simp only [nodes, List.map_append, List.map_cons, List.append_assoc, List.cons_append]
    refine ⟨hb ho.2.1, ihb true inF _ _ ho.2.2.1 (fun e => nomatch e) (fun e => ?_)
      ⟨rfl, ih inB inF S ks ho.2.2.2 hb hf h⟩⟩
    simpa using hf e

open Blogc.Doc in
theorem bare_nested {ns : List Node} {t : T} (ho : Ok false false t) (h : ns.map bare = nodes t) :
    Nested [] (ns.map Node.type) := by
  have e : ns.map Node.type = (nodes t).map Node.type := by
    rw [← h, List.map_map]
    refine List.map_congr_left fun n _ => ?_
    simp only [Function.comp, bare]
    split <;> simp_all [mark]
  rw [e, ← List.append_nil ((nodes t).map Node.type)]
  exact nodes_nested t false false [] [] ho (by simp) (by simp) rfl

end Blogc.TmplMem
