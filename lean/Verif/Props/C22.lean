import Verif.Lemmas.TemplateTree
import Verif.Props.C24

/-!
# C22: template text is preserved

A template is written as a list of items (Spec/Tokens.lean): text, variable references and
statements, with any white space inside the brackets and any `-` markers. `meaning` is what the items
stand for, text without the white space that a marker next to it removes. Reading what was written
yields exactly that (`read_partial`).

Two cases are excluded by `Tokens.Ok`, as they are lost or changed by the parser:
* text at the end whose last byte but one is a brace (`lone_brace_violated`),
* a `-%}` directly followed by an item, which trims text further on (`far_text_violated`).
Text that ends in a brace just before an item cannot be told from the item (`{` and `{{ A }}` is
written `{{{ A }}`), so it is excluded too.
-/

namespace Blogc.C22

open Blogc Blogc.Template Blogc.Render Blogc.Doc Blogc.Tokens

/-- Every written template whose statements are well nested is accepted, and is read as the items it
was written from, with text unchanged except for the white space next to markers. -/
theorem read_partial (ts : List Tok) (hok : Tokens.Ok ts) (t : T) (ht : Doc.Ok false false t)
    (hm : meaning false ts = nodes t) : parse (print ts) = .ok (.ok (meaning false ts)) := by
  obtain ⟨br', h, h1, h2, h3⟩ := tree_accepted ht
  exact parse_print hok (by rw [hm]; exact h) h1 h2 h3

/-- What an item stands for by itself. -/
def literal : Tok → Node
  | .text s => ⟨.content, .none, some s, none⟩
  | .var _ n _ => ⟨.variable, .none, some n, none⟩
  | .stmt _ _ s _ => s.node

theorem meaning_unmarked {ts : List Tok} (h : Unmarked ts) : meaning false ts = ts.map literal := by
  induction ts with
  | nil => rfl
  | cons t ts ih =>
    have ih := ih fun l a s r hm => h l a s r (by simp [hm])
    cases t with
    | text s =>
      have : trims ts = false := by
        cases ts with
        | nil => rfl
        | cons t ts =>
          cases t with
          | text => rfl
          | var => rfl
          | stmt l a s r => exact (h l a s r (by simp)).1
      simp [meaning, literal, ih, this, trim]
    | var => simp [meaning, literal, ih]
    | stmt l a s r => simp [meaning, literal, ih, (h l a s r (by simp)).2]

/-- Without markers all text is unchanged. -/
theorem unmarked_partial (ts : List Tok) (hok : Tokens.Ok ts) (hu : Unmarked ts) (t : T) (ht : Doc.Ok false false t)
    (hm : ts.map literal = nodes t) : parse (print ts) = .ok (.ok (ts.map literal)) := by
  rw [← meaning_unmarked hu] at hm ⊢
  exact read_partial ts hok t ht hm

/-- From the text of a template to the page: a written template is accepted, and rendering it yields
the documented text of the tree it was written from (see C24 for `NoLeak`). -/
theorem rendered_partial {G L : Type} (E : Evaluator G L) (hE : Total E) (ts : List Tok) (hok : Tokens.Ok ts) (t : T)
    (ht : Doc.Ok false false t) (hm : meaning false ts = nodes t) (ctx : Ctx L) (entries : List (Option L)) (g : G)
    (used : Prop) (hn : NoLeak ctx (Neutral E ctx entries) used false t) :
    ∃ tmpl out n, parse (print ts) = .ok (.ok tmpl) ∧ Doc.text E ctx t entries g = .ok out ∧
      ∀ m, n ≤ m → render E m tmpl ctx entries g = .ok out := by
  have hb : (nodes t).map bare = nodes t := by
    have : ∀ t : T, (nodes t).map bare = nodes t := by
      intro t
      induction t with
      | done => rfl
      | text s rest ih => simp [nodes, ih, bare]
      | var n rest ih => simp [nodes, ih, bare]
      | cond c yes rest ih1 ih2 => cases c <;> simp [nodes, ih1, ih2, bare, Cond.node, mark]
      | condElse c yes no rest ih1 ih2 ih3 => cases c <;> simp [nodes, ih1, ih2, ih3, bare, Cond.node, mark]
      | foreach n body rest ih1 ih2 => simp [nodes, ih1, ih2, bare, mark]
      | block k body rest ih1 ih2 => simp [nodes, ih1, ih2, bare, mark]
    exact this t
  obtain ⟨out, n, h1, h2⟩ := C24.documented_partial E hE t ht ctx entries g used hn (meaning false ts) (by rw [hm, hb])
  exact ⟨_, out, n, read_partial ts hok t ht hm, h1, h2⟩

/-- Text at the end of a template whose last byte but one is a brace is lost, all of it. -/
theorem lone_brace_violated :
    TextOk b!"some text {x" ∧ meaning false [.text b!"some text {x"] = nodes (.text b!"some text {x" .done) ∧
    print [.text b!"some text {x"] = b!"some text {x" ∧ parse b!"some text {x" = .ok (.ok []) := by
  refine ⟨⟨by decide, ?_, by decide, by decide⟩, rfl, rfl, by decide +kernel⟩
  intro c hc; revert c; decide

/-- `{% ifdef A -%}{{ B }} x{% endif %}` -/
def far : List Tok :=
  [.stmt false b!" " (.ifdef b!" " b!"A" b!" ") true, .var b!" " b!"B" b!" ", .text b!" x",
    .stmt false b!" " (.endif b!" ") false]

/-- A `-%}` that is directly followed by an item trims text that is not next to it. -/
theorem far_text_violated :
    print far = b!"{% ifdef A -%}{{ B }} x{% endif %}" ∧
    meaning false far = nodes (.cond (.defined b!"A") (.var b!"B" (.text b!" x" .done)) .done) ∧
    parse (print far) =
      .ok (.ok (nodes (.cond (.defined b!"A") (.var b!"B" (.text b!"x" .done)) .done))) := by
  refine ⟨by decide +kernel, rfl, by decide +kernel⟩

/-- `a { b⏎{%- if A == "x\"" -%}⏎ {{B_1}}{% else %}{c{%endif -%} ⏎` -/
def sample : List Tok :=
  [.text b!"a { b\n", .stmt true b!" " (.if_ b!" " b!"A" b!"  " b!"==" b!" " (.text b!"x\\\"") b!"") true,
    .text b!"\n ", .var b!"" b!"B_1" b!"", .stmt false b!" " (.else_ b!" ") false, .text b!"{c",
    .stmt false b!"" (.endif b!" ") true, .text b!" \n"]

def sampleTree : T :=
  .text b!"a { b" (.condElse (.compare b!"A" b!"==" (.text b!"x\\\"")) (.text b!"" (.var b!"B_1" .done))
    (.text b!"{c" .done) (.text b!"" .done))

instance (s : Str) : Decidable (Blank s) := inferInstanceAs (Decidable (∀ c ∈ s, _))
instance (s : Str) : Decidable (Gap s) := inferInstanceAs (Decidable (_ ∧ _))

theorem sample_ok : Tokens.Ok sample := by
  have hq : ∀ p q, b!"x\\\"" = p ++ c!"\"" :: q → p.getLast? = some c!"\\" := by
    intro p q e
    match p, e with
    | [], e => simp at e
    | [a], e => simp at e
    | [a, b], e => simp at e; simp [e]
    | a :: b :: c :: p, e => simp at e
  simp only [sample, Tokens.Ok, TextOk, TextEnd, MarkEnd, Stmt.Ok, OperandOk, Quotable, IsName]
  refine ⟨⟨by decide, by unfold NulFree; decide, by decide, by decide⟩, by decide, by decide,
    ⟨by decide, ⟨⟨_, _, rfl, by decide⟩, by decide⟩, by decide, by decide, by decide,
      ⟨by unfold NulFree; decide, hq, by decide⟩, by decide⟩, fun _ => trivial,
    ⟨by decide, by unfold NulFree; decide, by decide, by decide⟩, by decide,
    by decide, ⟨⟨_, _, rfl, by decide⟩, by decide⟩, by decide, by decide, by decide, fun h => (nomatch h),
    ⟨by decide, by unfold NulFree; decide, by decide, by decide⟩, by decide, by decide, by decide, fun _ => trivial,
    ⟨by decide, by unfold NulFree; decide, by decide, by decide⟩, ?_, trivial⟩
  intro p c e
  match p, e with
  | [], e => simp at e
  | a :: p, e =>
    have := congrArg List.length e
    simp at this

example : print sample = b!"a { b\n{%- if A  == \"x\\\"\"-%}\n {{B_1}}{% else %}{c{%endif -%} \n" := by decide +kernel

example : meaning false sample = nodes sampleTree ∧ Doc.Ok false false sampleTree := by
  refine ⟨by decide +kernel, ?_⟩
  simp [sampleTree, Doc.Ok, Cond.Ok, operators]

example : parse (print sample) = .ok (.ok (nodes sampleTree)) := by
  have h : meaning false sample = nodes sampleTree := by decide +kernel
  rw [← h]
  exact read_partial sample sample_ok sampleTree (by simp [sampleTree, Doc.Ok, Cond.Ok, operators]) h

example : Unmarked [.text b!"a", .var b!" " b!"B" b!" "] := by
  intro l a s r h; simp at h

example : parse b!"a{{ B }} c\n {%- ifdef X_1 -%} \n{% endif %}{% if A == \"x\" %}d{ {% endif %}" =
    .ok (.ok [⟨.content, .none, some b!"a", none⟩, ⟨.variable, .none, some b!"B", none⟩,
      ⟨.content, .none, some b!" c", none⟩, ⟨.ifdef, .none, some b!"X_1", none⟩,
      ⟨.content, .none, some b!"", none⟩, ⟨.endif, .none, none, none⟩,
      ⟨.if_, { eq := true }, some b!"A", some b!"\"x\""⟩, ⟨.content, .none, some b!"d{ ", none⟩,
      ⟨.endif, .none, none, none⟩]) := by decide +kernel

end Blogc.C22
