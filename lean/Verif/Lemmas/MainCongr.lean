import Verif.Model.Main
import Verif.Lemmas.RenderCongr
import Verif.Lemmas.LoaderCongr

/-!
# A run of blogc depends only on its options, the values of its variables and the
files that it names
-/

namespace Blogc.Main

open Blogc Blogc.Render

/-- Two environments agree on some sources and templates. -/
structure Agrees (env env' : Env) (sources : List Str) (template : Option Str) : Prop where
  stamp : env.loader.stamp = env'.loader.stamp
  sys : env.sys = env'.sys
  fuel : env.fuel = env'.fuel
  parse : ∀ f ∈ sources, ∀ d, env.loader.parse d f = env'.loader.parse d f
  template : ∀ f, template = some f → env.template f = env'.template f

theorem loadLoop_congr {env env' : Loader.Env} (hs : env.stamp = env'.stamp) (d : Option Str) (sort : Bool)
    (l : List Str) (h : ∀ f ∈ l, env.parse d f = env'.parse d f) :
    Loader.loadLoop env d sort l = Loader.loadLoop env' d sort l := by
  induction l with
  | nil => rfl
  | cons f l ih =>
    rw [Loader.loadLoop, Loader.loadLoop, h f (by simp), ih fun x hx => h x (by simp [hx]), hs]

theorem loadEntries_congr {env env' : Env} (d : Option Str) (l : List Str)
    (h : ∀ f ∈ l, env.loader.parse d f = env'.loader.parse d f) :
    loadEntries env d l = loadEntries env' d l := by
  induction l with
  | nil => rfl
  | cons f l ih =>
    rw [loadEntries, loadEntries, h f (by simp), ih fun x hx => h x (by simp [hx])]

theorem same_of_values {c d : Loader.Vars} (h : SameValues c d) : Loader.Same c d where
  sort := by rw [h]
  reverse := by rw [h]
  depth := h _
  tag := h _
  paged := by rw [h]
  page := by rw [h]
  perPage := by rw [h]

theorem fromFiles_env {env env' : Loader.Env} (hs : env.stamp = env'.stamp) (conf : Loader.Vars)
    (l : List Str) (h : ∀ f ∈ l, ∀ d, env.parse d f = env'.parse d f) :
    Loader.fromFiles env conf l = Loader.fromFiles env' conf l := by
  unfold Loader.fromFiles
  simp only
  rw [loadLoop_congr hs _ _ l fun f hf => h f hf _]

/-- A run of blogc depends on the files named in its options, on the options, and on
the values of the variables. -/
theorem body_congr {env env' : Env} {o o' : Opts}
    (he : Agrees env env' (allSources env o ++ o.entries) o.template)
    (h1 : o.listing = o'.listing) (h2 : o.print = o'.print) (h3 : o.entries = o'.entries)
    (h4 : o.template = o'.template) (h5 : o.output = o'.output)
    (h6 : allSources env o = allSources env' o') (h7 : SameValues o.config o'.config) :
    body env o = body env' o' := by
  unfold body
  rw [← h6, ← h1, ← h2, ← h3]
  split
  · rfl
  · rw [fromFiles_env he.stamp o.config (allSources env o) fun f hf d =>
      he.parse f (List.mem_append_left _ hf) d]
    have ha := Loader.fromFiles_alike (P := fun _ => True) env'.loader (same_of_values h7)
      (fun k _ _ => h7 k) (allSources env o)
    revert ha
    generalize Loader.fromFiles env'.loader o.config (allSources env o) = x
    generalize Loader.fromFiles env'.loader o'.config (allSources env o) = y
    intro ha
    rcases x with x | _
    · rcases y with y | _
      · rcases x with _ | ⟨l, c⟩
        · rcases y with _ | y
          · rfl
          · exact ha.elim
        · rcases y with _ | ⟨l', c'⟩
          · exact ha.elim
          · obtain ⟨e, hc⟩ := ha
            simp only at e hc
            subst e
            have hc : SameValues c c' := sameValues_of fun k hk => hc k hk trivial
            simp only
            rw [hc, loadEntries_congr _ o.entries fun f hf =>
              he.parse f (List.mem_append_right _ hf) _]
            split
            · rfl
            · split
              · unfold printVariable
                rw [← he.sys, ← h1]
                have hv := (evaluator_respects env.sys).value c c'
                  (if o.listing = true then none else l.head?) {} ‹_› hc
                revert hv
                show ValRel SameValues (formatVariable _ _ _ _ _) (formatVariable _ _ _ _ _) → _
                generalize formatVariable env.sys c _ _ _ = x
                generalize formatVariable env.sys c' _ _ _ = y
                intro hv
                rcases x with ⟨x1, x2⟩ | _ <;> rcases y with ⟨y1, y2⟩ | _ <;> try exact hv.elim
                · obtain ⟨-, e⟩ := hv
                  simp only at e
                  subst e
                  cases x2 <;> rfl
                · rfl
              · unfold renderAll
                rw [← h4, ← h1, ← he.sys, ← he.fuel]
                cases ht : o.template with
                | none => rfl
                | some t =>
                  simp only
                  rw [he.template t ht]
                  cases env'.template t with
                  | none => rfl
                  | some n =>
                    simp only
                    rw [render_rel (evaluator_respects env.sys) _ _ _ _ hc]
                    unfold writeOut
                    rw [h5]
      · rcases x with _ | x <;> exact ha.elim
    · rcases y with y | _
      · rcases y with _ | y <;> exact ha.elim
      · rfl

end Blogc.Main
