import Verif.Lemmas.Template

/-!
# C21: accepted templates are well bracketed

A template cut off inside its last statement is accepted although that statement is then lost:
the statement counts as read as soon as its name is. So the property holds for templates that do
not end inside a statement (`well_bracketed_partial`), it fails otherwise
(`well_bracketed_violated`), and at most one final closing statement can be missing
(`accepted_shape`). The parser itself never leaves the text (`in_bounds`).
-/

namespace Blogc.C21

open Blogc Blogc.Template

/-- The parser reads only the text it is given, whatever the text. -/
theorem in_bounds (src : Str) : ∃ r, parse src = .ok r := parse_ok src

/-- Accepted templates that are not cut off inside a statement are well bracketed. -/
theorem well_bracketed_partial (src : Str) (ns : List Node) (hc : Complete src)
    (h : parse src = .ok (.ok ns)) : WellBracketed (ns.map Node.type) := by
  obtain ⟨cur, st, hl, hinv, hf⟩ := parse_final h
  rcases (final_pend hl hinv hf).2 with ⟨c, hc', hrun⟩ | ⟨k, _, _, ho⟩
  · exact A.wellBracketed_of_run ⟨rfl, rfl, rfl⟩ hrun hc'
  · exact absurd ho (complete_not_open hl hc)

/-- Accepted templates are well bracketed except for one closing statement missing at the end. -/
theorem accepted_shape (src : Str) (ns : List Node) (h : parse src = .ok (.ok ns)) :
    WellBracketed (ns.map Node.type) ∨
      ∃ k, (k = .endif ∨ k = .endforeach ∨ k = .endblock) ∧ WellBracketed (ns.map Node.type ++ [k]) := by
  obtain ⟨cur, st, hl, hinv, hf⟩ := parse_final h
  rcases (final_pend hl hinv hf).2 with ⟨c, hc', hrun⟩ | ⟨k, hk, ⟨c, hc', hrun⟩, _⟩
  · exact Or.inl (A.wellBracketed_of_run ⟨rfl, rfl, rfl⟩ hrun hc')
  · exact Or.inr ⟨k, hk, A.wellBracketed_of_run ⟨rfl, rfl, rfl⟩ hrun hc'⟩

/-- Every node of an accepted template carries what its statement needs. -/
theorem nodes_ok (src : Str) (ns : List Node) (h : parse src = .ok (.ok ns)) : ∀ n ∈ ns, NodeOk n := by
  obtain ⟨cur, st, hl, hinv, hf⟩ := parse_final h
  intro n hn
  rw [(final_pend hl hinv hf).1] at hn
  exact hinv.nodes n (List.mem_reverse.mp hn)

/-- `{% ifdef A %}x{% endif ` is accepted, but its conditional is never closed. -/
theorem well_bracketed_violated :
    ¬ ∀ src ns, parse src = .ok (.ok ns) → WellBracketed (ns.map Node.type) := by
  intro h
  have := h b!"{% ifdef A %}x{% endif " [⟨.ifdef, .none, some b!"A", none⟩, ⟨.content, .none, some b!"x", none⟩]
    (by decide +kernel)
  have := this.closed.ifs.2
  revert this; decide

/-- `{% block entry %}x{% endblock ` is accepted, but its block is never closed. -/
theorem block_closed_violated :
    ¬ ∀ src ns, parse src = .ok (.ok ns) → WellBracketed (ns.map Node.type) := by
  intro h
  have := h b!"{% block entry %}x{% endblock " [⟨.block, .none, some b!"entry", none⟩, ⟨.content, .none, some b!"x", none⟩]
    (by decide +kernel)
  have := this.blocks.2
  revert this; decide

/-- A nested template that meets the hypotheses of `well_bracketed_partial`. -/
example : Complete b!"{% if A == \"b\" %}{% block entry %}{% foreach T %}{{ V }}{% endforeach %}{% endblock %}{% else %}x{% endif %}" :=
  complete_of (by decide +kernel)

example : parse b!"{% if A == \"b\" %}{% block entry %}{% foreach T %}{{ V }}{% endforeach %}{% endblock %}{% else %}x{% endif %}" =
    .ok (.ok [⟨.if_, { eq := true }, some b!"A", some b!"\"b\""⟩, ⟨.block, .none, some b!"entry", none⟩,
      ⟨.foreach, .none, some b!"T", none⟩, ⟨.variable, .none, some b!"V", none⟩, ⟨.endforeach, .none, none, none⟩,
      ⟨.endblock, .none, none, none⟩, ⟨.else_, .none, none, none⟩, ⟨.content, .none, some b!"x", none⟩,
      ⟨.endif, .none, none, none⟩]) := by decide +kernel

end Blogc.C21
