import Verif.Lemmas.RenderSafe
import Verif.Props.C21
import Verif.Props.C27

/-!
# C23: rendering an accepted template never crashes

Rendering always ends (`terminates`). It is free of undefined behaviour for every accepted template
that is not cut off inside its last statement (`renders_partial`); a template that is cut off there is
accepted and can make the renderer run off the list (`renders_violated`, `block_violated`).
-/

namespace Blogc.C23

open Blogc Blogc.Template Blogc.Render

/-- Rendering ends, whatever the nodes, the variables, the entries and the mode, and even if the
evaluation of variables is replaced. -/
theorem terminates {G L : Type} (E : Evaluator G L) (tmpl : List Node) (ctx : Ctx L)
    (entries : List (Option L)) (global : G) :
    ∃ n, ∀ m, n ≤ m → render E m tmpl ctx entries global ≠ .out := by
  obtain ⟨n, hn⟩ := render_fine E ctx tmpl entries global (A := True) (.inl trivial)
  exact ⟨n, fun m hm => by rw [render_stable hn.ne_out hm]; exact hn.ne_out⟩

/-- An accepted template that is not cut off inside a statement is rendered to a text, whatever
the variables, the entries, the mode and the system. -/
theorem renders_partial (sys : Sys) (src : Str) (tmpl : List Node) (hc : Complete src)
    (h : parse src = .ok (.ok tmpl)) (ctx : Ctx Table) (entries : List (Option Table)) (global : Table) :
    ∃ out n, ∀ m, n ≤ m → render (evaluator sys) m tmpl ctx entries global = .ok out := by
  have hS : Safe tmpl := safe_of (C21.well_bracketed_partial src tmpl hc h)
    fun n hn => ⟨C21.nodes_ok src tmpl h n hn, parse_plain h n hn⟩
  have hE : Total (evaluator sys) := fun g l it n hn => C27.in_bounds sys g l it n hn
  obtain ⟨n, hn⟩ := render_fine (evaluator sys) ctx tmpl entries global (A := False) (.inr ⟨hS, hE⟩)
  obtain ⟨out, ho, _⟩ := hn.ok id
  refine ⟨out, n, fun m hm => ?_⟩
  rw [render_stable hn.ne_out hm, ho]

/-- `{% ifdef A %}x{% endif ` is accepted, and without `A` the search for the end of the conditional
follows a null pointer. -/
theorem renders_violated :
    ∃ src tmpl, parse src = .ok (.ok tmpl) ∧ ∀ m, 0 < m →
      render (evaluator C27.bare) m tmpl ⟨[], false⟩ [] (Trie.inserts []).1 = .ub := by
  refine ⟨b!"{% ifdef A %}x{% endif ", [⟨.ifdef, .none, some b!"A", none⟩, ⟨.content, .none, some b!"x", none⟩],
    by decide +kernel, fun m hm => ?_⟩
  obtain ⟨k, rfl⟩ : ∃ k, m = k + 1 := ⟨m - 1, by omega⟩
  rfl

/-- `{% block listing %}x{% endblock ` is accepted, and rendered as a page the search for the end of the
block follows a null pointer. -/
theorem block_violated :
    ∃ src tmpl, parse src = .ok (.ok tmpl) ∧ ∀ m, 0 < m →
      render (evaluator C27.bare) m tmpl ⟨[], false⟩ [] (Trie.inserts []).1 = .ub := by
  refine ⟨b!"{% block listing %}x{% endblock ", [⟨.block, .none, some b!"listing", none⟩, ⟨.content, .none, some b!"x", none⟩],
    by decide +kernel, fun m hm => ?_⟩
  obtain ⟨k, rfl⟩ : ∃ k, m = k + 1 := ⟨m - 1, by omega⟩
  rfl

/-- A template with a listing, an iterator and a conditional meets the hypotheses. -/
def sample : Str :=
  b!"{% block listing %}{{ A }}{% foreach T %}{% if FOREACH_ITEM < \"b\" %}x{% else %}y{% endif %}{% endforeach %}{% endblock %}"

/-- Its nodes. -/
def sampleNodes : List Node :=
  [⟨.block, .none, some b!"listing", none⟩, ⟨.variable, .none, some b!"A", none⟩,
   ⟨.foreach, .none, some b!"T", none⟩, ⟨.if_, { lt := true }, some b!"FOREACH_ITEM", some b!"\"b\""⟩,
   ⟨.content, .none, some b!"x", none⟩, ⟨.else_, .none, none, none⟩, ⟨.content, .none, some b!"y", none⟩,
   ⟨.endif, .none, none, none⟩, ⟨.endforeach, .none, none, none⟩, ⟨.endblock, .none, none, none⟩]

example : Complete sample := complete_of (by decide +kernel)

example : (parse sample).map (fun r => r.map (fun l => l.map Node.type)) = .ok (.ok (sampleNodes.map Node.type)) := by
  decide +kernel

example : render (evaluator C27.bare) 100 sampleNodes
      ⟨[(Trie.inserts [(b!"A", b!"1"), (b!"T", b!"a b")]).1, (Trie.inserts [(b!"A", b!"2")]).1], true⟩ []
      (Trie.inserts []).1 = .ok b!"1xy2" := by
  decide +kernel

end Blogc.C23
