import Verif.Lemmas.RenderDoc
import Verif.Lemmas.RenderBare
import Verif.Props.C27

/-!
# C24: rendering implements the documented template semantics

`Doc.text` (Spec/Semantics.lean) is the documented meaning of a well-nested template. The renderer
produces it wherever no entry is visible that should not be (`documented_partial`); the exception is
real (`documented_violated`). What the renderer produces for every well-nested template is
`Leaky.text` (`exact`), which differs from `Doc.text` only in the entry that is visible.

The theorems are about any list of nodes whose statements are those of the tree `t`, so they apply to
what the parser yields for it: closing statements may carry any data.
-/

namespace Blogc.C24

open Blogc Blogc.Template Blogc.Render Blogc.Doc

variable {G L : Type}

/-- The renderer produces the documented text, for every well-nested template, every evaluation of
variables that does not fail, every list of sources and entries and both modes, if the names used
where no entry should be visible do not depend on the sources, or every block is used. -/
theorem documented_partial (E : Evaluator G L) (hE : Total E) (t : T) (hok : Ok false false t) (ctx : Ctx L)
    (entries : List (Option L)) (g : G) (used : Prop) (hn : NoLeak ctx (Neutral E ctx entries) used false t)
    (tmpl : List Node) (ht : tmpl.map bare = nodes t) :
    ∃ out n, Doc.text E ctx t entries g = .ok out ∧ ∀ m, n ≤ m → render E m tmpl ctx entries g = .ok out := by
  obtain ⟨⟨o, e⟩, hr⟩ := sem_total hE ctx t false false hok none ⟨none, none⟩ ⟨entries, g⟩
  obtain ⟨s', h1, _⟩ := doc_rel t false false hok hn ⟨none, none⟩ ⟨entries, g⟩ ⟨⟨entries, g⟩, false, none⟩
    ⟨⟨rfl, (fun _ h => nomatch h), fun x hx => hx⟩, fun _ => rfl, fun _ => rfl⟩ o e hr
  obtain ⟨st', g1, g2, g3, _⟩ := sim t false false { tmp := nodes t, entries := entries, global := g } [] o s' hok
    ⟨fun _ => ⟨rfl, rfl, rfl, rfl⟩, fun _ => rfl, fun _ _ => rfl⟩ (by simp) h1
  obtain ⟨n, hn⟩ := g1.run g2
  rw [g3] at hn
  have hrun : render E n tmpl ctx entries g = .ok o := by
    rw [← render_bare, ht]; exact hn
  refine ⟨o, n, by rw [Doc.text, hr]; rfl, fun m hm => ?_⟩
  rw [render_stable (by rw [hrun]; simp) hm, hrun]

/-- What the renderer produces, for every well-nested template. -/
theorem exact (E : Evaluator G L) (hE : Total E) (t : T) (hok : Ok false false t) (ctx : Ctx L)
    (entries : List (Option L)) (g : G) (tmpl : List Node) (ht : tmpl.map bare = nodes t) :
    ∃ out n, Leaky.text E ctx t entries g = .ok out ∧ ∀ m, n ≤ m → render E m tmpl ctx entries g = .ok out := by
  obtain ⟨⟨o, e⟩, hr⟩ := leaky_total hE ctx t false false hok ⟨none, none⟩ ⟨⟨entries, g⟩, false, none⟩
  obtain ⟨st', g1, g2, g3, _⟩ := sim t false false { tmp := nodes t, entries := entries, global := g } [] o e hok
    ⟨fun _ => ⟨rfl, rfl, rfl, rfl⟩, fun _ => rfl, fun _ _ => rfl⟩ (by simp) hr
  obtain ⟨n, hn⟩ := g1.run g2
  rw [g3] at hn
  have hrun : render E n tmpl ctx entries g = .ok o := by
    rw [← render_bare, ht]; exact hn
  refine ⟨o, n, by rw [Leaky.text, hr]; rfl, fun m hm => ?_⟩
  rw [render_stable (by rw [hrun]; simp) hm, hrun]

/-- The evaluation of variables in blogc does not fail. -/
theorem total (sys : Sys) : Total (evaluator sys) := fun g l it n hn => C27.in_bounds sys g l it n hn

/-- A name that is not one of those made from other variables: it does not end in a digit or in
`_FORMATTED`, and is not `FOREACH_VALUE`. -/
structure Simple (n : Str) : Prop where
  digit : ∀ p c, n = p ++ [c] → isDigit c = false
  formatted : endsWith n b!"_FORMATTED" = false
  value : n ≠ b!"FOREACH_VALUE"

theorem splitSize_simple {n : Str} (h : Simple n) (hne : n ≠ []) : splitSize n = .ok (n, -1) := by
  obtain ⟨p, c, rfl⟩ := (List.eq_nil_or_concat n).resolve_left hne
  simp only [List.concat_eq_append] at *
  have hd := h.digit p c rfl
  have hl : (p ++ [c]).length - 1 = p.length := by simp
  have hw : walk (p ++ [c]) p.length = p.length := by
    cases hp : p.length with
    | zero => rfl
    | succ k =>
      have : (p ++ [c])[k + 1]? = some c := by
        rw [← hp, List.getElem?_append_right (Nat.le_refl _)]; simp
      rw [walk, this]
      simp [hd]
  rw [splitSize, if_neg (by simp)]
  simp only [hl, hw]
  rw [if_neg (by simp)]

/-- Such a name is neutral if no source defines it. -/
theorem neutral_of_absent (sys : Sys) (ctx : Ctx Table) (entries : List (Option Table)) (n : Str) (hne : n ≠ [])
    (hs : Simple n) (h : ∀ l, l ∈ ctx.sources ∨ some l ∈ entries → l.lookup n = none) :
    Neutral (evaluator sys) ctx entries n := by
  intro l hl
  have hg : ∀ g, getVariable n g (some l) = getVariable n g none := fun g => by
    simp only [getVariable, h l hl]
  refine ⟨fun g it => ?_, fun g => ?_⟩
  · show formatVariable sys g (some l) it n = formatVariable sys g none it n
    have hb : ∀ o : Option Table, splitFormatted n = (n, false) := fun _ => by
      rw [splitFormatted, hs.formatted]; rfl
    simp only [formatVariable, hg]
    cases getVariable n g none with
    | some v => rfl
    | none =>
      simp only [if_neg hs.value, derived, splitSize_simple hs hne, Res.bind, hb none]
      split
      · rfl
      · simp only [baseValue]
        cases it.item with
        | none => simp [hg, dress]
        | some i =>
          simp only [hs.value, false_and, if_false]
          split
          · simp [dress]
          · simp [hg, dress]
  · show splitListVariable n g (some l) = splitListVariable n g none
    simp only [splitListVariable, hg]

/-- A table with one variable. -/
def one (k v : Str) : Table := (Trie.inserts [(k, v)]).1

/-- `{% block listing %}{% endblock %}{% block entry %}{% endblock %}{{ T }}` -/
def leak : T := .block b!"listing" .done (.block b!"entry" .done (.var b!"T" .done))

/-- With a source that defines `T` the renderer shows it outside blocks, after a block that is not
used, although only global variables should be visible there. -/
theorem documented_violated :
    Ok false false leak ∧
    Doc.text (evaluator C27.bare) ⟨[one b!"T" b!"x"], true⟩ leak [] (Trie.inserts []).1 = .ok [] ∧
    ∀ m, render (evaluator C27.bare) (m + 8) (nodes leak) ⟨[one b!"T" b!"x"], true⟩ [] (Trie.inserts []).1 =
      .ok b!"x" := by
  refine ⟨by simp [leak, Ok, blockTypes], ?_, fun m => rfl⟩
  rw [Doc.text]
  have : Doc.sem (evaluator C27.bare) ⟨[one b!"T" b!"x"], true⟩ leak none ⟨none, none⟩ ⟨[], (Trie.inserts []).1⟩ =
      .ok ([], ⟨[], (Trie.inserts []).1⟩) := by
    simp only [leak, Doc.sem]
    rfl
  rw [this]; rfl

/-- A listing with an iterator and conditionals, in a template with a variable outside blocks. -/
def sample : T :=
  .var b!"SITE" (.block b!"listing" (.cond (.compare b!"T" b!"<" (.text b!"b"))
    (.foreach b!"TAGS" (.var b!"FOREACH_ITEM" .done) .done) (.text b!";" .done))
    (.condElse (.defined b!"X") (.text b!"1" .done) (.text b!"2" .done) .done))

example : Ok false false sample := by
  simp [sample, Ok, Cond.Ok, operators, blockTypes]

/-- Every block of it is used when there are sources. -/
example : NoLeak ⟨[one b!"T" b!"a"], true⟩ (Neutral (evaluator C27.bare) ⟨[one b!"T" b!"a"], true⟩ []) True false sample := by
  simp [sample, NoLeak, Used]

/-- Its names outside blocks do not depend on the sources. -/
example : NoLeak ⟨[one b!"T" b!"a"], false⟩ (Neutral (evaluator C27.bare) ⟨[one b!"T" b!"a"], false⟩ []) False false sample := by
  have hn : ∀ n, n ≠ [] → Simple n → (one b!"T" b!"a").lookup n = none →
      Neutral (evaluator C27.bare) ⟨[one b!"T" b!"a"], false⟩ [] n := fun n h1 h2 h3 =>
    neutral_of_absent _ _ _ n h1 h2 fun l hl => by
      rcases hl with hl | hl
      · rw [List.mem_singleton.mp hl]; exact h3
      · cases hl
  have hd : ∀ n : Str, n.getLast?.all (fun c => !isDigit c) = true → ∀ p c, n = p ++ [c] → isDigit c = false := by
    rintro n h p c rfl
    simpa using h
  have h1 := hn b!"SITE" (by simp) ⟨hd _ (by decide), by decide, by decide⟩ (by decide)
  have h2 := hn b!"X" (by simp) ⟨hd _ (by decide), by decide, by decide⟩ (by decide)
  simp [sample, NoLeak, Cond.names, h1, h2]

example : render (evaluator C27.bare) 100 (nodes sample)
    ⟨[one b!"T" b!"a", one b!"TAGS" b!"u v", (Trie.inserts [(b!"T", b!"a"), (b!"TAGS", b!"u v")]).1], true⟩ []
    (one b!"SITE" b!"s") = .ok b!"s;;uv;2" := by
  decide +kernel

end Blogc.C24
