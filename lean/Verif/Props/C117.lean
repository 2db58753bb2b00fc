import Verif.Lemmas.TemplateMemoryMain
import Verif.Props.C23

/-!
# C117: reading a template and rendering a page give back all they take

`TmplMem.runEvents` are the allocations, uses and releases of reading a template, rendering one page with it, writing the
page and releasing the template; `Spec.TmplAccount.inUse` keeps account of them: it gives nothing if something is used or
released that is not in use, or acquired again while it is.

All is given back if the statements of the template are properly nested (`returned_partial`). The parser also accepts
templates in which an iterator and a conditional cross; with such a template the words of the iterator can be lost
(`returned_violated`), and never anything else (`leftover_partial`).
-/

namespace Blogc.C117

open Blogc Blogc.Template Blogc.Render Blogc.TmplMem Blogc.Spec.TmplAccount

/-- Reading any text gives a template, of which exactly the nodes with their data are in use, or an error message, which is
then all that is in use. -/
theorem reading (src : Str) :
    (∃ ns, parse src = .ok (.ok ns) ∧ inUse (parseEvents src) nothing = some (ofTemplate ns)) ∨
    (∃ e, parse src = .ok (.error e) ∧ inUse (parseEvents src) nothing = some (only .error)) := by
  obtain ⟨r, hr⟩ := C21.in_bounds src
  have h := parse_memory src
  rw [hr] at h
  cases r with
  | ok ns => exact .inl ⟨ns, hr, h⟩
  | error e => exact .inr ⟨e, hr, h⟩

/-- A rejected template leaves nothing in use. -/
theorem rejected (sys : Sys) (fuel : Nat) (src : Str) (e : Err) (h : parse src = .ok (.error e)) (ctx : Ctx Table)
    (entries : List (Option Table)) (global : Table) :
    inUse (runEvents sys fuel src ctx entries global) nothing = some nothing := by
  have hm := parse_memory src
  rw [h] at hm
  simp only [runEvents, h]
  refine then_ok hm (use_ok (by simp [only]) (release_ok (by simp [only]) (nil_ok fun x => ?_)))
  by_cases hx : x = .error <;> simp [put, only, nothing, hx]

example : ∃ e, parse b!"{% ifdef A %}{% foreach B %}x" = .ok (.error e) := ⟨_, by rfl⟩

/-- Whatever accepted template is rendered: nothing is used or released that is not in use, and what is left at the end is
at most the words and the name of an iterator. -/
theorem leftover_partial (sys : Sys) (fuel : Nat) (src : Str) (ns : List Node) (ctx : Ctx Table)
    (entries : List (Option Table)) (global : Table) (out : Str) (hp : parse src = .ok (.ok ns))
    (h : render (evaluator sys) fuel ns ctx entries global = .ok out) :
    ∃ l, inUse (runEvents sys fuel src ctx entries global) nothing = some l ∧ ∀ x, l x = true → OfIterator x := by
  obtain ⟨m, b, h1, _⟩ := run_memory hp h
  refine ⟨_, h1, fun x hx => ?_⟩
  cases x <;> first | trivial | exact (nomatch hx)

/-- If its statements are properly nested, nothing is left. -/
theorem returned_partial (sys : Sys) (fuel : Nat) (src : Str) (ns : List Node) (ctx : Ctx Table)
    (entries : List (Option Table)) (global : Table) (out : Str) (hp : parse src = .ok (.ok ns))
    (h : render (evaluator sys) fuel ns ctx entries global = .ok out) (hn : Nested [] (ns.map Node.type)) :
    inUse (runEvents sys fuel src ctx entries global) nothing = some nothing := by
  obtain ⟨m, b, h1, h2⟩ := run_memory hp h
  obtain ⟨rfl, rfl⟩ := h2 hn
  rw [h1, rests_nothing]

/-- A properly nested template that is not cut off inside a statement is rendered, and nothing is left, whatever the
variables, the entries, the mode and the system. -/
theorem complete_partial (sys : Sys) (src : Str) (ns : List Node) (hc : Complete src) (hp : parse src = .ok (.ok ns))
    (hn : Nested [] (ns.map Node.type)) (ctx : Ctx Table) (entries : List (Option Table)) (global : Table) :
    ∃ n, ∀ m, n ≤ m → inUse (runEvents sys m src ctx entries global) nothing = some nothing := by
  obtain ⟨out, n, h⟩ := C23.renders_partial sys src ns hc hp ctx entries global
  exact ⟨n, fun m hm => returned_partial sys m src ns ctx entries global out hp (h m hm) hn⟩

open Blogc.Doc in
/-- The same for a template that is read as a tree of statements. -/
theorem tree_partial (sys : Sys) (src : Str) (ns : List Node) (t : T) (hc : Complete src) (hp : parse src = .ok (.ok ns))
    (ho : Ok false false t) (ht : ns.map bare = nodes t) (ctx : Ctx Table) (entries : List (Option Table)) (global : Table) :
    ∃ n, ∀ m, n ≤ m → inUse (runEvents sys m src ctx entries global) nothing = some nothing :=
  complete_partial sys src ns hc hp (bare_nested ho ht) ctx entries global

/-- At no moment of such a run is anything used or released that is not in use. -/
theorem any_moment_partial (sys : Sys) (fuel : Nat) (src : Str) (ns : List Node) (ctx : Ctx Table)
    (entries : List (Option Table)) (global : Table) (out : Str) (hp : parse src = .ok (.ok ns))
    (h : render (evaluator sys) fuel ns ctx entries global = .ok out) (before : List Event)
    (hb : before <+: runEvents sys fuel src ctx entries global) : ∃ l, inUse before nothing = some l := by
  obtain ⟨l, h1, _⟩ := leftover_partial sys fuel src ns ctx entries global out hp h
  exact inUse_prefix hb h1

/-- The sample of C23 meets the hypotheses. -/
example : Complete C23.sample ∧ ∃ ns, parse C23.sample = .ok (.ok ns) ∧ Nested [] (ns.map Node.type) := by
  refine ⟨complete_of (by decide +kernel), ?_⟩
  have h : (parse C23.sample).map (fun r => r.map (fun l => l.map Node.type)) = .ok (.ok (C23.sampleNodes.map Node.type)) := by
    decide +kernel
  cases hp : parse C23.sample with
  | ub => rw [hp] at h; cases h
  | ok r =>
    rw [hp] at h
    cases r with
    | error e => cases h
    | ok ns =>
      simp only [Res.map, Except.map, Res.ok.injEq, Except.ok.injEq] at h
      refine ⟨ns, rfl, ?_⟩
      rw [h]
      simp [Nested, C23.sampleNodes]

/-! ## Crossing statements -/

/-- An iterator that ends within a conditional. -/
def crossing : Str := b!"{% foreach X %}{% ifdef A %}{% endforeach %}{% endif %}"

/-- The template is accepted and the page is written, and the words of the iterator stay in use. -/
theorem returned_violated : ∃ ns ctx g, parse crossing = .ok (.ok ns) ∧ Complete crossing ∧
    render (evaluator C27.bare) 20 ns ctx [] g = .ok [] ∧
    ∃ l, inUse (runEvents C27.bare 20 crossing ctx [] g) nothing = some l ∧
      l .name = true ∧ l (.word 0) = true ∧ l (.wordLink 0) = true := by
  obtain ⟨ns, hp⟩ : ∃ ns, parse crossing = .ok (.ok ns) := ⟨_, by rfl⟩
  have hc : Complete crossing := complete_of (by decide +kernel)
  let g := (Trie.inserts [(b!"X", b!"a")]).1
  have hr : (match parse crossing with
      | .ok (.ok ns) => render (evaluator C27.bare) 20 ns ⟨[], false⟩ [] g = .ok []
      | _ => False) := by
    rfl
  rw [hp] at hr
  obtain ⟨m, b, h1, _⟩ := run_memory (sys := C27.bare) hp hr
  have h2 : (inUse (runEvents C27.bare 20 crossing ⟨[], false⟩ [] g) nothing).map
      (fun l => (l .name, l (.word 0), l (.wordLink 0))) = some (true, true, true) := by
    decide +kernel
  rw [h1] at h2
  simp only [Option.map_some, Option.some.injEq, Prod.mk.injEq] at h2
  exact ⟨ns, ⟨[], false⟩, g, hp, hc, hr, _, h1, h2.1, h2.2.1, h2.2.2⟩

end Blogc.C117
