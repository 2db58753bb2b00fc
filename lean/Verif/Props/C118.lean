import Verif.Lemmas.Debug
import Verif.Props.C21
import Verif.Props.C22

/-!
# C118: the listing of a template tells what the template says

`Debug.template` is what `blogc -d` writes about a template. `Spec.DebugListing.items` says, for a template as a tree, what is
to be listed.
-/

namespace Blogc.C118

open Blogc Blogc.Template Blogc.Doc Blogc.Tokens Blogc.Spec.DebugListing

/-- Every accepted template can be listed: no null pointer is printed. The listing has one item for each node. -/
theorem defined (src : Str) (ns : List Node) (h : parse src = .ok (.ok ns)) :
    ∃ l, l.length = ns.length ∧ Debug.template ns = .ok (listing l) := by
  obtain ⟨l, hl⟩ := Debug.texts (C21.nodes_ok src ns h)
  refine ⟨l, ?_, Debug.template_eq hl⟩
  clear h
  induction hl with
  | nil => rfl
  | cons _ _ ih => simp [ih]

/-- A template that is read as a tree is listed as the tree: every text, variable and statement in order, with its name,
operator and operand as they were written. -/
theorem tree (ns : List Node) (t : T) (ht : Doc.Ok false false t) (h : ns.map bare = nodes t) :
    Debug.template ns = .ok (listing (items t)) :=
  Debug.template_eq (Debug.bare_texts (h ▸ Debug.tree_texts t false false ht))

/-- From the text of a template to its listing (see C22 for the text). -/
theorem written (ts : List Tok) (hok : Tokens.Ok ts) (t : T) (ht : Doc.Ok false false t) (hm : meaning false ts = nodes t) :
    ∃ ns, parse (print ts) = .ok (.ok ns) ∧ Debug.template ns = .ok (listing (items t)) := by
  refine ⟨_, C22.read_partial ts hok t ht hm, ?_⟩
  rw [hm]
  exact Debug.template_eq (Debug.tree_texts t false false ht)

/-- The sample of C22, its ends of lines removed by the marks. -/
example : Tokens.Ok C22.sample ∧ items C22.sampleTree =
    [b!"CONTENT: `a { b`", b!"IF: A == \"x\\\"\"", b!"CONTENT: ``", b!"VARIABLE: B_1", b!"ELSE", b!"CONTENT: `{c`", b!"ENDIF",
     b!"CONTENT: ``"] :=
  ⟨C22.sample_ok, by decide +kernel⟩

/-! ## What can be told from a listing -/

/-- Two accepted templates without ends of lines in their texts that are listed in the same way say the same. -/
theorem tells_partial (src src' : Str) (ns ms : List Node) (h : parse src = .ok (.ok ns)) (h' : parse src' = .ok (.ok ms))
    (hn : ∀ n ∈ ns, OneLine n) (hm : ∀ m ∈ ms, OneLine m) (he : Debug.template ns = Debug.template ms) :
    ns.map said = ms.map said := by
  obtain ⟨l, hl⟩ := Debug.texts (C21.nodes_ok src ns h)
  obtain ⟨k, hk⟩ := Debug.texts (C21.nodes_ok src' ms h')
  rw [Debug.template_eq hl, Debug.template_eq hk, Res.ok.injEq] at he
  have e := Debug.lines_inj (Debug.one_line hl hn (parse_ops h))
    (Debug.one_line hk hm (parse_ops h')) he
  subst e
  exact Debug.listed_inj hl hk (C21.nodes_ok src ns h) (C21.nodes_ok src' ms h') (parse_ops h) (parse_ops h')

/-- A template without ends of lines, though with the signs that the listing uses, meets the hypotheses. -/
example : ∃ ns, parse b!"{% if A <= \"x y\" %}a`>{% endif %}" = .ok (.ok ns) ∧ ns.length = 3 ∧ ∀ n ∈ ns, OneLine n := by
  refine ⟨[⟨.if_, { lt := true, eq := true }, some b!"A", some b!"\"x y\""⟩, ⟨.content, .none, some b!"a`>", none⟩,
    ⟨.endif, .none, none, none⟩], by decide +kernel, rfl, ?_⟩
  simp [OneLine]

/-- With ends of lines, one text can be listed as two texts and a variable are. -/
theorem tells_violated : ∃ src src' ns ms, parse src = .ok (.ok ns) ∧ parse src' = .ok (.ok ms) ∧
    Debug.template ns = Debug.template ms ∧ ns.map said ≠ ms.map said :=
  ⟨b!"a{{ B }}c", b!"a`>\nDEBUG: <TEMPLATE VARIABLE: B>\nDEBUG: <TEMPLATE CONTENT: `c",
    [⟨.content, .none, some b!"a", none⟩, ⟨.variable, .none, some b!"B", none⟩, ⟨.content, .none, some b!"c", none⟩],
    [⟨.content, .none, some b!"a`>\nDEBUG: <TEMPLATE VARIABLE: B>\nDEBUG: <TEMPLATE CONTENT: `c", none⟩],
    by decide +kernel, by decide +kernel, by rfl, by decide⟩

end Blogc.C118
