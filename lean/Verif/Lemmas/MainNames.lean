import Verif.Lemmas.LoaderNames
import Verif.Lemmas.SourceTable
import Verif.Lemmas.TemplatePlain
import Verif.Model.Program
import Verif.Props.C21

/-!
# A run of blogc depends on the variables its template names only
-/

namespace Blogc.Render.Nam

open Blogc Blogc.Main Blogc.Template Blogc.Render
open Blogc.Spec (All2 Opt2 AgreeOn RunNames)

variable {P Q : Str → Prop}

theorem _root_.Blogc.Spec.AgreeOn.mono {N : Str → Prop} (h : ∀ k, N k → P k) {a b : Table} (hab : AgreeOn P a b) : AgreeOn N a b :=
  fun k hk => hab k (h k hk)

theorem _root_.Blogc.Spec.Opt2.mono {α : Type} {R S : α → α → Prop} (h : ∀ a b, R a b → S a b) {a b : Option α} (hab : Opt2 R a b) :
    Opt2 S a b := by
  match a, b, hab with
  | none, none, _ => trivial
  | some _, some _, hab => exact h _ _ hab

theorem loadEntries_rel {env env' : Env} (d : Option Str) (l : List Str)
    (h : ∀ f ∈ l, Opt2 (AgreeOn P) (env.loader.parse d f) (env'.loader.parse d f)) :
    Opt2 (All2 (Opt2 (AgreeOn P))) (loadEntries env d l) (loadEntries env' d l) := by
  induction l with
  | nil => trivial
  | cons f l ih =>
    have hf := h f (by simp)
    have ih := ih fun x hx => h x (by simp [hx])
    rw [loadEntries, loadEntries]
    revert hf ih
    generalize env.loader.parse d f = x
    generalize env'.loader.parse d f = x'
    generalize loadEntries env d l = r
    generalize loadEntries env' d l = r'
    intro hf ih
    split
    · match r, r', ih with
      | none, none, _ => trivial
      | some _, some _, ih => exact ⟨trivial, ih⟩
    · match x, x', hf with
      | none, none, _ => trivial
      | some s, some s', hf =>
        match r, r', ih with
        | none, none, _ => trivial
        | some _, some _, ih => exact ⟨hf, ih⟩

theorem body_rel (hP : Local P) (hQ : Global Q) {env env' : Env} {o o' : Opts}
    (hPN : ∀ k, RunNames env o k → P k) (hQN : ∀ k, RunNames env o k → Q k)
    (hst : ∀ d, env.loader.stamp d = env'.loader.stamp d) (hsys : env.sys = env'.sys) (hfu : env.fuel = env'.fuel)
    (hpa : ∀ f ∈ allSources env o ++ o.entries, ∀ m,
      Opt2 (AgreeOn P) (env.loader.parse m f) (env'.loader.parse m f))
    (htm : ∀ t, o.template = some t → env.template t = env'.template t)
    (h1 : o.listing = o'.listing) (h2 : o.print = o'.print) (h3 : o.entries = o'.entries)
    (h4 : o.template = o'.template) (h5 : o.output = o'.output)
    (h6 : allSources env o = allSources env' o') (h7 : AgreeOn Q o.config o'.config) :
    body env o = body env' o' := by
  unfold body
  rw [← h6, ← h1, ← h2, ← h3]
  split
  · rfl
  · have hf := fromFiles_rel hP hQ hst h7 (allSources env o) fun f hm m => hpa f (List.mem_append_left _ hm) m
    revert hf
    generalize Loader.fromFiles env.loader o.config (allSources env o) = x
    generalize Loader.fromFiles env'.loader o'.config (allSources env o) = y
    intro hf
    match x, y, hf with
    | .ub, .ub, _ => rfl
    | .ok none, .ok none, _ => rfl
    | .ok (some (s, c)), .ok (some (s', c')), hf =>
      obtain ⟨hs, hc⟩ := hf
      simp only at hs hc ⊢
      have he : Opt2 (All2 (Opt2 (AgreeOn P)))
          (if o.listing = true then loadEntries env (c.lookup b!"TOCTREE_MAXDEPTH") o.entries else some [])
          (if o.listing = true then loadEntries env' (c'.lookup b!"TOCTREE_MAXDEPTH") o.entries else some []) := by
        rw [hc _ hQ.depth]
        split
        · exact loadEntries_rel _ _ fun f hm => hpa f (List.mem_append_right _ hm) _
        · trivial
      revert he
      generalize (if o.listing = true then loadEntries env (c.lookup b!"TOCTREE_MAXDEPTH") o.entries else some []) = e
      generalize (if o.listing = true then loadEntries env' (c'.lookup b!"TOCTREE_MAXDEPTH") o.entries
        else some []) = e'
      intro he
      match e, e', he with
      | none, none, _ => rfl
      | some e, some e', he =>
        simp only
        cases hp : o.print with
        | some w =>
          simp only
          unfold printVariable
          rw [← hsys, ← h1]
          have hl : Opt2 (AgreeOn (RunNames env o)) (if o.listing = true then none else s.head?)
              (if o.listing = true then none else s'.head?) := by
            split
            · trivial
            · exact hs.head.mono fun a b => AgreeOn.mono hPN
          have hv := formatVariable_agree env.sys (hc.mono hQN) hl {} (fun f hf => by cases hf) (n := w)
            ⟨fun n hn => .inr ⟨w, hp, .inl hn⟩, fun hr => .inr ⟨w, hp, .inr ⟨rfl, hr⟩⟩⟩
          revert hv
          generalize formatVariable env.sys c _ _ _ = x
          generalize formatVariable env.sys c' _ _ _ = y
          intro hv
          rcases x with ⟨x1, x2⟩ | _ <;> rcases y with ⟨y1, y2⟩ | _ <;> try exact hv.elim
          · obtain ⟨-, e⟩ := hv
            simp only at e
            subst e
            cases x2 <;> rfl
          · rfl
        | none =>
          simp only
          unfold renderAll
          rw [← h4, ← h1, ← hsys, ← hfu]
          cases ht : o.template with
          | none => rfl
          | some t =>
            simp only
            rw [← htm t ht]
            cases htt : env.template t with
            | none => rfl
            | some tmpl =>
              simp only
              have hr := render_rel (X := rels (RunNames env o)) (evaluator_respects env.sys _) env.fuel
                (fits_names (RunNames env o) tmpl fun k hk => .inl ⟨t, tmpl, hp, ht, htt, hk⟩)
                (hs.mono fun a b => AgreeOn.mono hPN) o.listing
                (All2.mono (fun a b h => Opt2.mono (fun a b => AgreeOn.mono hPN) h) (show All2 (Opt2 (AgreeOn P)) e e' from he)) (hc.mono hQN)
              rw [hr]
              unfold writeOut
              rw [h5]

/-! ## Names without NUL -/

theorem isName_nulFree {w : Str} (h : IsName w) : NulFree w := by
  intro c hc h0
  subst h0
  rcases h.2 _ hc with h | h | h
  · exact absurd h.1 (by decide)
  · exact absurd h.1 (by decide)
  · exact absurd h (by decide)

theorem standsFor_prefix {w n : Str} (h : Spec.StandsFor w n) : n <+: w := by
  cases h with
  | plain => exact List.prefix_refl _
  | sized _ ds _ => exact List.prefix_append _ _
  | formatted => exact List.prefix_append _ _
  | formattedSized _ ds _ => rw [List.append_assoc]; exact List.prefix_append _ _

theorem nameByte_ne (c : Byte) : Spec.nameByte c ≠ 0 := by
  have : ∀ i : Fin 256, Spec.nameByte (UInt8.ofNat i) ≠ 0 := by decide +kernel
  have h := this ⟨c.toNat, c.toNat_lt⟩
  simpa using h

/-- What a template names is a C string, or begins with a quote. -/
theorem names_nulFree {src : Str} {tmpl : List Node} (h : Template.parse src = .ok (.ok tmpl)) {k : Str}
    (hk : Spec.Names tmpl k) : NulFree k ∨ ∃ r, k = c!"\"" :: r := by
  have hok := C21.nodes_ok src tmpl h
  have hpl := parse_plain h
  cases hk with
  | @asked n w _ hn hw hs =>
    have hw' : IsName w ∨ ∃ r, w = c!"\"" :: r := by
      have h1 := hok n hn
      rcases hw with ⟨ht, hd⟩ | ⟨ht, hd, -⟩
      · unfold NodeOk at h1
        rcases ht with ht | ht | ht | ht <;> rw [ht] at h1 <;> simp only at h1
        · obtain ⟨v, e, hv⟩ := h1; rw [hd] at e; cases e; exact .inl hv
        · obtain ⟨v, e, hv⟩ := h1; rw [hd] at e; cases e; exact .inl hv
        · obtain ⟨v, e, hv⟩ := h1; rw [hd] at e; cases e; exact .inl hv
        · obtain ⟨-, ⟨v, e, hv⟩, -⟩ := h1; rw [hd] at e; cases e; exact .inl hv
      · by_cases hi : n.type = .if_
        · unfold NodeOk at h1
          rw [hi] at h1
          obtain ⟨-, -, v, e, hv⟩ := h1
          rw [hd] at e
          cases e
          exact hv
        · rw [(hpl n hn hi).2] at hd
          cases hd
    obtain ⟨r, e⟩ := standsFor_prefix hs
    rcases hw' with hw' | ⟨x, hx⟩
    · left
      intro c hc
      exact isName_nulFree hw' c (by rw [← e]; exact List.mem_append_left _ hc)
    · cases k with
      | nil => left; intro c hc; cases hc
      | cons c k =>
        right
        rw [hx] at e
        cases e
        exact ⟨k, rfl⟩
  | dates => left; decide
  | @list n _ hn hw =>
    have h1 := hok n hn
    unfold NodeOk at h1
    rw [hw.1] at h1
    obtain ⟨v, e, hv⟩ := h1
    rw [hw.2] at e
    cases e
    exact .inl (isName_nulFree hv)
  | mapped item hn hw =>
    left
    intro c hc
    obtain ⟨x, -, rfl⟩ := List.mem_map.1 hc
    exact nameByte_ne x

/-! ## Source files -/

def ParseRel (P : Str → Prop) : Run (Except Source.Err (Trie Str)) → Run (Except Source.Err (Trie Str)) → Prop
  | .ok (.ok a), .ok (.ok b) => AgreeOn P a b
  | .ok (.error _), .ok (.error _) => True
  | .ub, .ub => True
  | .out, .out => True
  | _, _ => False

/-- The names the source parser looks up. -/
structure Headers (P : Str → Prop) : Prop where
  first : P b!"FIRST_HEADER"
  description : P b!"DESCRIPTION"
  toctree : P b!"TOCTREE"
  depth : P b!"TOCTREE_MAXDEPTH"

theorem insertNew_agree {a b : Trie Str} (h : AgreeOn P a b) {name : Str} (hn : P name) (hk : NulFree name)
    (v : Option Str) : AgreeOn P (Source.insertNew a name v) (Source.insertNew b name v) := by
  cases v with
  | none => exact h
  | some v =>
    simp only [Source.insertNew, h name hn]
    split
    · exact agreeOn_insert h _ _ hk
    · exact h

theorem insertToc_agree {a b : Trie Str} (h : AgreeOn P a b) (r : Res (Option Str)) :
    ParseRel P (Source.insertToc a r) (Source.insertToc b r) := by
  match r with
  | .ok none => exact h
  | .ok (some x) => exact agreeOn_insert h _ _ (by decide)
  | .ub => trivial

theorem finishContent_agree (hP : Headers P) (cp : Str → Bool → Run Content.BSt) (m : Int) {a b : Trie Str}
    (h : AgreeOn P a b) (text : Str) :
    ParseRel P (Source.finishContent cp m a text) (Source.finishContent cp m b text) := by
  unfold Source.finishContent
  have h1 : AgreeOn P (a.insert b!"RAW_CONTENT" text).1 (b.insert b!"RAW_CONTENT" text).1 :=
    agreeOn_insert h _ _ (by decide)
  revert h1
  generalize (a.insert b!"RAW_CONTENT" text).1 = a
  generalize (b.insert b!"RAW_CONTENT" text).1 = b
  intro h1
  simp only [h1 _ hP.toctree]
  cases cp text (decide (b.lookup b!"TOCTREE" = none)) with
  | ub => trivial
  | out => trivial
  | ok r =>
    show ParseRel P (Source.addResults m a r) (Source.addResults m b r)
    have h2 := insertNew_agree (insertNew_agree h1 hP.first (by decide) r.firstHeader) hP.description (by decide)
      r.description
    unfold Source.addResults
    revert h2
    generalize Source.insertNew (Source.insertNew a _ _) _ _ = a
    generalize Source.insertNew (Source.insertNew b _ _) _ _ = b
    intro h2
    have h3 : ParseRel P (Source.tableOfContents m a r) (Source.tableOfContents m b r) := by
      unfold Source.tableOfContents
      rw [h2 _ hP.depth]
      repeat' split
      · exact h2
      · trivial
      · exact insertToc_agree h2 _
      · exact insertToc_agree h2 _
    revert h3
    generalize Source.tableOfContents m a r = x
    generalize Source.tableOfContents m b r = y
    intro h3
    match x, y, h3 with
    | .ok (.ok a), .ok (.ok b), h3 =>
      exact agreeOn_insert (agreeOn_insert h3 _ _ (by decide)) _ _ (by decide)
    | .ok (.error _), .ok (.error _), _ => trivial
    | .ub, .ub, _ => trivial
    | .out, .out, _ => trivial

end Blogc.Render.Nam
