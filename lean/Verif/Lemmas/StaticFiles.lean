import Verif.Spec.StaticFiles
import Verif.Lemmas.Minimal
import Verif.Props.C89
import Verif.Props.C101

/-!
# The files after a whole build
-/

namespace Blogc.C108

open Blogc Blogc.Make Blogc.Build Blogc.C100
open Blogc.Spec.MakeJobs Blogc.Spec.Incremental Blogc.Spec.StaticFiles
open Blogc.Spec.MakeCopy (Found under Copy due Makes)

/-! ## A list of copies -/

theorem fold_notMem (clock : Str → Int × Int) (l : List (Str × Str)) (d : Files) (p : Str) (h : ∀ c ∈ l, c.2 ≠ p) :
    l.foldl (copyOne clock) d p = d p := by
  induction l generalizing d with
  | nil => rfl
  | cons a l ih =>
    rw [List.foldl_cons, ih _ fun c hc => h c (by simp [hc])]
    unfold copyOne
    cases texts d a.1 with
    | none => rfl
    | some x => exact if_neg (Ne.symm (h a (by simp)))

theorem fold_mem (clock : Str → Int × Int) (l : List (Str × Str)) (d : Files)
    (h1 : ∀ c ∈ l, ∀ c' ∈ l, c.1 ≠ c'.2) (h2 : ∀ c ∈ l, ∀ c' ∈ l, c.2 = c'.2 → c.1 = c'.1)
    (c : Str × Str) (hc : c ∈ l) (x : Str) (hx : texts d c.1 = some x) :
    l.foldl (copyOne clock) d c.2 = some (x, clock c.2) := by
  induction l generalizing d c with
  | nil => cases hc
  | cons a l ih =>
    have hd : ∀ b ∈ a :: l, texts (copyOne clock d a) b.1 = texts d b.1 := by
      intro b hb
      unfold copyOne
      split
      · unfold texts put
        rw [if_neg (h1 b hb a (by simp))]
      · rfl
    rw [List.foldl_cons]
    by_cases hm : ∃ b ∈ l, b.2 = c.2
    · obtain ⟨b, hb, e⟩ := hm
      have e1 := h2 b (by simp [hb]) c hc e
      rw [← e]
      refine ih _ (fun c hc c' hc' => h1 c (by simp [hc]) c' (by simp [hc']))
        (fun c hc c' hc' => h2 c (by simp [hc]) c' (by simp [hc'])) b hb ?_
      rw [hd b (by simp [hb]), e1, hx]
    · rw [fold_notMem _ _ _ _ fun b hb e => hm ⟨b, hb, e⟩]
      rcases List.mem_cons.1 hc with rfl | hc
      · unfold copyOne
        rw [hx]
        exact if_pos rfl
      · exact absurd ⟨c, hc, rfl⟩ hm

/-! ## The rule `copy` -/

variable {S : Setup} {out : Str → Prop} {cfg : MakeSettings.Settings}

theorem abs_under (root f : Str) (hf : f ≠ []) (q : List Str) : absPath root (under f q) = under (absPath root f) q := by
  cases q with
  | nil => rfl
  | cons n p => rw [C89.under_cons, C89.under_cons, List.append_assoc, absPath_append _ _ _ hf, List.append_assoc]

/-- The copy meant by a file. -/
def copyAt (S : Setup) (f : Str) (q : List Str) (t : Int × Int) : Copy := ⟨source S f q, dest S f q, t⟩

theorem due_iff {d : Files} {f : Str} {q : List Str} {t u : Int × Int}
    (hs : times d S.settingsFile = some u) (ht : times d (source S f q) = some t) :
    due (S.site cfg (times d)) (copyAt S f q t) = true ↔ Old S d f q := by
  unfold due Old
  show (match times d (dest S f q) with
    | none => true
    | some t' => (match times d S.settingsFile with
      | none => true
      | some u => decide (Later u t')) || decide (Later t t')) = true ↔ _
  rw [hs]
  cases times d (dest S f q) with
  | none => simp
  | some v => simp [hs, ht, -Prod.exists]

/-- The loop of the rule on the files, for the files of a list. -/
def copyList (S : Setup) (cfg : MakeSettings.Settings) (clock : Str → Int × Int) (l : List FileCtx) (d : Files) :
    Files × Int :=
  let s := S.site cfg (times d)
  let r := Site.copyFiles (fun f o => needRebuild [some f] s.settings none none (some o) true)
    (fun f _ => copyStatus d f.path) l (l.map fun f => s.file (some (s.outDir ++ b!"/" ++ f.shortPath)) none)
  ((r.1.map fun c => (c.1.path, c.2.path)).foldl (copyOne clock) d, r.2)

/-- The list has the files that are known. -/
def Lists (S : Setup) (cfg : MakeSettings.Settings) (d : Files) (K : Str → List Str → Prop) (l : List FileCtx) : Prop :=
  ∀ x, x ∈ l ↔ ∃ f q t, Static cfg f q ∧ K f q ∧ times d (source S f q) = some t ∧ x = C89.ctxOf S.root (under f q) t

/-- The copies that the rule makes. -/
theorem list_made (ho : S.outDir ≠ []) (hset : S.settingsFile.head? = some c!"/") (hg : GoodCopy S out cfg)
    (d : Files) (K : Str → List Str → Prop) (xs : List FileCtx) (hmem : Lists S cfg d K xs)
    (hfile : (times d S.settingsFile).isSome) (clock : Str → Int × Int) :
    ∃ l : List (Str × Str), copyList S cfg clock xs d = (l.foldl (copyOne clock) d, 0) ∧
      ∀ c, c ∈ l ↔ ∃ f q, Static cfg f q ∧ K f q ∧ (times d (source S f q)).isSome ∧ Old S d f q ∧
        c = (source S f q, dest S f q) := by
  obtain ⟨u, hu⟩ := Option.isSome_iff_exists.1 hfile
  let s := S.site cfg (times d)
  have hcopy : ∀ f q t, Static cfg f q → C89.copyOf s (C89.ctxOf S.root (under f q) t) = copyAt S f q t := by
    intro f q t hst
    unfold C89.copyOf C89.ctxOf copyAt source dest
    rw [abs_under _ _ (hg.entries f hst.1)]
    rfl
  have hread : ∀ x ∈ xs, x.readable = true := by
    intro x hx
    obtain ⟨f, q, t, -, -, -, rfl⟩ := (hmem x).1 hx
    rfl
  obtain ⟨n, h1, h2, h3⟩ := C89.loop_makes s ho hset (fun a _ => copyStatus d a) xs hread
  simp only at h1 h2 h3
  have hjob : ∀ c ∈ (xs.map (C89.copyOf s)).filter (due s), ∃ f q, Static cfg f q ∧ K f q ∧
      (times d (source S f q)).isSome ∧ Old S d f q ∧ (c.source, c.dest) = (source S f q, dest S f q) := by
    intro c hc
    obtain ⟨hc, hdue⟩ := List.mem_filter.1 hc
    obtain ⟨x, hx, rfl⟩ := List.mem_map.1 hc
    obtain ⟨f, q, t, hst, hk, ht, rfl⟩ := (hmem x).1 hx
    rw [hcopy f q t hst] at hdue ⊢
    exact ⟨f, q, hst, hk, by rw [ht]; rfl, (due_iff hu ht).1 hdue, rfl⟩
  have hzero : (copyList S cfg clock xs d).2 = 0 := by
    by_contra hne
    obtain ⟨js, j, e, hj, -⟩ := h3 hne
    have hj' : j ∈ (((xs.map (C89.copyOf s)).filter (due s)).take n).map fun c => (c.source, c.dest) := by
      rw [← h1, e]
      simp
    obtain ⟨c, hc, rfl⟩ := List.mem_map.1 hj'
    obtain ⟨f, q, -, -, hsome, -, e'⟩ := hjob c (List.mem_of_mem_take hc)
    have e1 : c.source = source S f q := congrArg Prod.fst e'
    simp only at hj
    rw [show (copyList S cfg clock xs d).2 = _ from hj.symm] at hne
    apply hne
    unfold copyStatus
    rw [e1, if_pos]
    unfold times at hsome
    unfold texts
    rw [Option.isSome_map] at hsome ⊢
    exact hsome
  refine ⟨_, Prod.ext rfl hzero, fun c => ?_⟩
  rw [h1, (h2 hzero).1, List.take_length]
  constructor
  · intro hc
    obtain ⟨c', hc', rfl⟩ := List.mem_map.1 hc
    exact hjob c' hc'
  · rintro ⟨f, q, hst, hk, hsome, hold, rfl⟩
    obtain ⟨t, ht⟩ := Option.isSome_iff_exists.1 hsome
    refine List.mem_map.2 ⟨copyAt S f q t, List.mem_filter.2 ⟨List.mem_map.2 ⟨_, (hmem _).2 ⟨f, q, t, hst, hk, ht, rfl⟩,
      hcopy f q t hst⟩, (due_iff hu ht).2 hold⟩, rfl⟩

/-- The files found are listed. -/
theorem copySite_lists (disk : Str → Forest) (d : Files)
    (hsee : ∀ f ∈ cfg.copy.getD [], Sees disk d (absPath S.root f)) :
    Lists S cfg d (fun _ _ => True) (S.copySite disk cfg (times d)).copy := by
  intro x
  show x ∈ (cfg.copy.getD []).flatMap _ ↔ _
  rw [List.mem_flatMap]
  constructor
  · rintro ⟨f, hf, h⟩
    obtain ⟨q, t, h, e⟩ := (C89.mem_expand _ _ _ _).1 h
    obtain ⟨h1, h2⟩ := (hsee f hf q t).1 h
    exact ⟨f, q, t, ⟨hf, h1⟩, trivial, h2, e⟩
  · rintro ⟨f, q, t, ⟨hf, h1⟩, -, h2, e⟩
    exact ⟨f, hf, (C89.mem_expand _ _ _ _).2 ⟨q, t, (hsee f hf q t).2 ⟨h1, h2⟩, e⟩⟩

theorem same_source (hg : GoodCopy S out cfg) {f f' : Str} {q q' : List Str} (h : Static cfg f q) (h' : Static cfg f' q')
    (e : dest S f q = dest S f' q') : source S f q = source S f' q' := by
  unfold source
  rw [← abs_under _ _ (hg.entries f h.1), ← abs_under _ _ (hg.entries f' h'.1), List.append_cancel_left e]

/-- What the rule does to the files. -/
theorem list_files (ho : S.outDir ≠ []) (hset : S.settingsFile.head? = some c!"/") (hg : GoodCopy S out cfg)
    (d : Files) (K : Str → List Str → Prop) (xs : List FileCtx) (hmem : Lists S cfg d K xs)
    (hfile : (times d S.settingsFile).isSome) (clock : Str → Int × Int) :
    ∃ d', copyList S cfg clock xs d = (d', 0) ∧
      (∀ p, d' p = d p ∨ ∃ f q, Static cfg f q ∧ p = dest S f q ∧ Old S d f q ∧
        ∃ x, texts d (source S f q) = some x ∧ d' p = some (x, clock p)) ∧
      ∀ f q, Static cfg f q → K f q → ∀ x, texts d (source S f q) = some x →
        (Old S d f q ∧ d' (dest S f q) = some (x, clock (dest S f q))) ∨
          (¬ Old S d f q ∧ d' (dest S f q) = d (dest S f q)) := by
  obtain ⟨l, e, hl⟩ := list_made ho hset hg d K xs hmem hfile clock
  have h1 : ∀ c ∈ l, ∀ c' ∈ l, c.1 ≠ c'.2 := by
    intro c hc c' hc' heq
    obtain ⟨f, q, hst, -, -, -, rfl⟩ := (hl c).1 hc
    obtain ⟨f', q', hst', -, -, -, rfl⟩ := (hl c').1 hc'
    have := hg.sources f q hst
    rw [show source S f q = dest S f' q' from heq] at this
    exact this (hg.dests f' q' hst')
  have h2 : ∀ c ∈ l, ∀ c' ∈ l, c.2 = c'.2 → c.1 = c'.1 := by
    intro c hc c' hc' heq
    obtain ⟨f, q, hst, -, -, -, rfl⟩ := (hl c).1 hc
    obtain ⟨f', q', hst', -, -, -, rfl⟩ := (hl c').1 hc'
    exact same_source hg hst hst' heq
  have hiff : ∀ p, (times d p).isSome → ∃ x, texts d p = some x := by
    intro p h
    unfold times at h
    rw [Option.isSome_map] at h
    obtain ⟨x, hx⟩ := Option.isSome_iff_exists.1 h
    exact ⟨x.1, by unfold texts; rw [hx]; rfl⟩
  refine ⟨_, e, fun p => ?_, fun f q hst hk x hx => ?_⟩
  · by_cases hm : ∃ c ∈ l, c.2 = p
    · obtain ⟨c, hc, rfl⟩ := hm
      obtain ⟨f, q, hst, -, hsome, hold, rfl⟩ := (hl c).1 hc
      obtain ⟨x, hx⟩ := hiff _ hsome
      exact .inr ⟨f, q, hst, rfl, hold, x, hx, fold_mem clock l d h1 h2 _ hc x hx⟩
    · exact .inl (fold_notMem _ _ _ _ fun c hc e => hm ⟨c, hc, e⟩)
  · have hsome : (times d (source S f q)).isSome := by
      unfold texts at hx
      unfold times
      rw [Option.isSome_map]
      cases hd : d (source S f q) with
      | none => rw [hd] at hx; cases hx
      | some v => rfl
    by_cases hold : Old S d f q
    · exact .inl ⟨hold, fold_mem clock l d h1 h2 _ ((hl _).2 ⟨f, q, hst, hk, hsome, hold, rfl⟩) x hx⟩
    · refine .inr ⟨hold, fold_notMem _ _ _ _ fun c hc heq => hold ?_⟩
      obtain ⟨f', q', hst', -, -, hold', rfl⟩ := (hl c).1 hc
      have heq : dest S f' q' = dest S f q := heq
      have hs := same_source hg hst' hst heq
      unfold Old at hold' ⊢
      rw [← heq, ← hs]
      exact hold'

/-- All static files are known to a build that has just begun. -/
theorem copies_files (ho : S.outDir ≠ []) (hset : S.settingsFile.head? = some c!"/") (hg : GoodCopy S out cfg)
    (disk : Str → Forest) (d : Files) (hsee : ∀ f ∈ cfg.copy.getD [], Sees disk d (absPath S.root f))
    (hfile : (times d S.settingsFile).isSome) (clock : Str → Int × Int) :
    ∃ d', S.copies disk cfg clock d = (d', 0) ∧
      (∀ p, d' p = d p ∨ ∃ f q, Static cfg f q ∧ p = dest S f q ∧ Old S d f q ∧
        ∃ x, texts d (source S f q) = some x ∧ d' p = some (x, clock p)) ∧
      ∀ f q, Static cfg f q → ∀ x, texts d (source S f q) = some x →
        (Old S d f q ∧ d' (dest S f q) = some (x, clock (dest S f q))) ∨
          (¬ Old S d f q ∧ d' (dest S f q) = d (dest S f q)) := by
  have hmem := copySite_lists (S := S) disk d hsee
  have e : S.copies disk cfg clock d = copyList S cfg clock (S.copySite disk cfg (times d)).copy d := by
    unfold Setup.copies copyList Site.copyExec Site.copyOutputs
    cases hc : (S.copySite disk cfg (times d)).cfg.copy with
    | none =>
      have : (S.copySite disk cfg (times d)).copy = [] := by
        unfold Site.copy
        rw [hc]
        rfl
      simp only [hc, this]
      rfl
    | some l =>
      simp only [hc]
      rfl
  obtain ⟨d', h1, h2, h3⟩ := list_files ho hset hg d (fun _ _ => True) _ hmem hfile clock
  exact ⟨d', e.trans h1, h2, fun f q hst x hx => h3 f q hst trivial x hx⟩

/-! ## A whole build -/

/-- Copies that are there and not old have the text of their sources. -/
def CopyCurrent (S : Setup) (cfg : MakeSettings.Settings) (d : Files) : Prop :=
  ∀ f q, Static cfg f q → ∀ x, texts d (source S f q) = some x → ¬ Old S d f q → texts d (dest S f q) = some x

theorem sees_congr {disk : Str → Forest} {d d' : Files} (hg : GoodCopy S out cfg) (h : SameInputs out d d')
    {f : Str} (hf : f ∈ cfg.copy.getD []) (hs : Sees disk d (absPath S.root f)) : Sees disk d' (absPath S.root f) := by
  intro q t
  rw [hs q t]
  constructor <;> rintro ⟨h1, h2⟩ <;> refine ⟨h1, ?_⟩ <;>
    · have := h _ (hg.sources f q ⟨hf, h1⟩)
      unfold source at this
      unfold times at h2 ⊢
      first | rw [← this]; exact h2 | rw [this]; exact h2

theorem old_congr {d d' : Files} {f : Str} {q : List Str} (h1 : d (dest S f q) = d' (dest S f q))
    (h2 : d S.settingsFile = d' S.settingsFile) (h3 : d (source S f q) = d' (source S f q)) :
    Old S d f q ↔ Old S d' f q := by
  unfold Old times
  simp only [List.mem_cons, List.not_mem_nil, or_false, exists_eq_or_imp, exists_eq_left, h1, h2, h3]

/-- What is the same for the runs of blogc. -/
theorem current_congr (hg : Good S out cfg) {d d' : Files} (hs : SameInputs out d d')
    (ho : ∀ w, Possible (base S cfg) w → d w.output = d' w.output) (hc : Current S cfg d) : Current S cfg d' := by
  intro w hw c t e hst
  refine shows_inputs hg hs hw (hc w hw c t ((ho w hw).trans e) ?_)
  rw [stale_congr (ho w hw) fun i hi => hs i (hg.inputs w hw i hi)]
  exact hst

theorem config_file {d : Files} (hcfg : S.config d = some cfg) : (times d S.settingsFile).isSome := by
  obtain ⟨x, hx, -⟩ := Option.bind_eq_some_iff.1 hcfg
  unfold texts at hx
  unfold times
  rw [Option.isSome_map]
  cases h : d S.settingsFile with
  | none => rw [h] at hx; cases hx
  | some v => rfl

/-- A whole build: the files after the runs of blogc, and those after the copies. -/
theorem buildAll_runs (hg : Good S out cfg) (hgc : GoodCopy S out cfg) (disk : Files → Str → Forest)
    (clock : Str → Int × Int) (d : Files) (hcfg : S.config d = some cfg)
    (hsee : ∀ f ∈ cfg.copy.getD [], Sees (disk d) d (absPath S.root f)) (hc : Current S cfg d) :
    ∃ d₁ d' rv, S.build clock d = some (d₁, rv) ∧ S.buildAll disk clock d = some (d', rv) ∧
      SameInputs out d d' ∧ Current S cfg d' ∧
      (∀ w, Possible (base S cfg) w → d' w.output = d₁ w.output) ∧
      (rv ≠ 0 → ∀ f q, Static cfg f q → d' (dest S f q) = d (dest S f q)) ∧
      (rv = 0 → ∀ f q, Static cfg f q → ∀ x, texts d (source S f q) = some x →
        (Old S d f q ∧ d' (dest S f q) = some (x, clock (dest S f q))) ∨
          (¬ Old S d f q ∧ d' (dest S f q) = d (dest S f q))) ∧
      ∀ p, d' p = d₁ p ∨ rv = 0 ∧ ∃ f q, Static cfg f q ∧ p = dest S f q ∧ Old S d f q ∧
        ∃ x, texts d (source S f q) = some x ∧ d' p = some (x, clock p) := by
  obtain ⟨d₁, rv, g1, g2, g3, -, -⟩ := build_runs hg clock d hcfg hc
  have hw := (C101.build_writes hg clock hcfg g1).1
  have hdest : ∀ f q, Static cfg f q → d₁ (dest S f q) = d (dest S f q) := by
    intro f q hst
    rcases hw (dest S f q) with e | ⟨w, h1, h2, -⟩
    · exact e
    · exact absurd h2 (hgc.apart f q hst w (possible h1))
  have hbuild : S.all cfg clock rules d = some (d₁, rv) := by
    unfold Setup.build at g1
    rw [hcfg] at g1
    exact g1
  by_cases hrv : rv = 0
  · subst hrv
    have hsee₁ : ∀ f ∈ cfg.copy.getD [], Sees (disk d) d₁ (absPath S.root f) := fun f hf =>
      sees_congr hgc g2 hf (hsee f hf)
    have hfile : (times d₁ S.settingsFile).isSome := by
      have := config_file hcfg
      unfold times at this ⊢
      rw [← g2 _ hg.settingsFile]
      exact this
    obtain ⟨d', e, f1, f2⟩ := copies_files hg.ok.outDir hg.ok.settingsFile hgc (disk d) d₁ hsee₁ hfile clock
    have hold : ∀ f q, Static cfg f q → (Old S d₁ f q ↔ Old S d f q) := fun f q hst =>
      old_congr (hdest f q hst) (g2 _ hg.settingsFile).symm (g2 _ (hgc.sources f q hst)).symm
    have hsrc : ∀ f q, Static cfg f q → texts d₁ (source S f q) = texts d (source S f q) := fun f q hst =>
      (g2.text (hgc.sources f q hst)).symm
    have hsame₁ : SameInputs out d₁ d' := by
      intro p hp
      rcases f1 p with e | ⟨f, q, hst, rfl, -⟩
      · exact e.symm
      · exact absurd (hgc.dests f q hst) hp
    have hout : ∀ w, Possible (base S cfg) w → d₁ w.output = d' w.output := by
      intro w hw
      rcases f1 w.output with e | ⟨f, q, hst, e, -⟩
      · exact e.symm
      · exact absurd e (hgc.apart f q hst w hw)
    refine ⟨d₁, d', 0, g1, ?_, fun p hp => (g2 p hp).trans (hsame₁ p hp), current_congr hg hsame₁ hout g3,
      fun w hw => (hout w hw).symm, fun h => absurd rfl h, ?_, ?_⟩
    · unfold Setup.buildAll
      rw [hcfg]
      simp only
      rw [hbuild]
      simp only [ne_eq, not_true_eq_false, if_false]
      rw [e]
    · intro _ f q hst x hx
      have := f2 f q hst x (by rw [hsrc f q hst]; exact hx)
      rw [hold f q hst, hdest f q hst] at this
      exact this
    · intro p
      rcases f1 p with e | ⟨f, q, hst, e1, e2, x, e3, e4⟩
      · exact .inl e
      · exact .inr ⟨rfl, f, q, hst, e1, (hold f q hst).1 e2, x, by rw [← hsrc f q hst]; exact e3, e4⟩
  · refine ⟨d₁, d₁, rv, g1, ?_, g2, g3, fun _ _ => rfl, fun _ => hdest, fun h => absurd h hrv, fun p => .inl rfl⟩
    unfold Setup.buildAll
    rw [hcfg]
    simp only
    rw [hbuild]
    simp only [ne_eq, hrv, not_false_eq_true, if_true]

/-! ## Histories -/

theorem config_put {d : Files} {p : Str} {v : Option (Str × (Int × Int))} (h : p ≠ S.settingsFile) :
    S.config (put d p v) = S.config d := by
  unfold Setup.config texts put
  rw [if_neg (Ne.symm h)]

theorem text_time {d : Files} {p x : Str} (h : texts d p = some x) : ∃ t, d p = some (x, t) := by
  unfold texts at h
  obtain ⟨v, hv, rfl⟩ := Option.map_eq_some_iff.1 h
  exact ⟨v.2, hv⟩

/-- What is there and is not old is right, for settings that are good. -/
def Right (S : Setup) (out : Str → Prop) (d : Files) : Prop :=
  ∀ cfg, S.config d = some cfg → Good S out cfg → GoodCopy S out cfg → Current S cfg d ∧ CopyCurrent S cfg d

theorem right_edit {d : Files} (ih : Right S out d) (p text : Str) (now : Int × Int) (hp : ¬ out p)
    (hnew : ∀ q c t, out q → d q = some (c, t) → Later now t) : Right S out (put d p (some (text, now))) := by
  intro cfg hcfg hg hgc
  have hlater : ∀ q t, out q → times (put d p (some (text, now))) q = some t → Later now t := by
    intro q t hq ht
    have hne : q ≠ p := fun e => hp (e ▸ hq)
    unfold times put at ht
    rw [if_neg hne] at ht
    obtain ⟨v, hv, rfl⟩ := Option.map_eq_some_iff.1 ht
    exact hnew q v.1 v.2 hq hv
  have hpt : times (put d p (some (text, now))) p = some now := by
    unfold times put
    rw [if_pos rfl]
    rfl
  by_cases hs : p = S.settingsFile
  · subst hs
    refine ⟨fun w hw c t e hst => ?_, fun f q hst x _ hold => ?_⟩
    · exfalso
      unfold stale at hst
      have ht : times (put d S.settingsFile (some (text, now))) w.output = some t := by unfold times; rw [e]; rfl
      rw [ht] at hst
      have := List.any_eq_false.1 hst S.settingsFile (complete hw).settings
      rw [hpt] at this
      simp only [decide_eq_true_eq] at this
      exact this (hlater _ t (hg.outputs w hw).1 ht)
    · exfalso
      exact hold fun t ht => ⟨_, by simp, now, hpt, hlater _ t (hgc.dests f q hst) ht⟩
  · have hcfg' : S.config d = some cfg := by rw [← hcfg, config_put hs]
    obtain ⟨h1, h2⟩ := ih cfg hcfg' hg hgc
    constructor
    · intro w hw c t e hst
      have hne : w.output ≠ p := fun e => hp (e ▸ (hg.outputs w hw).1)
      have ho : put d p (some (text, now)) w.output = d w.output := if_neg hne
      have hno : p ∉ w.inputs := by
        intro hi
        unfold stale at hst
        have ht : times (put d p (some (text, now))) w.output = some t := by unfold times; rw [e]; rfl
        rw [ht] at hst
        have := List.any_eq_false.1 hst p hi
        rw [hpt] at this
        simp only [decide_eq_true_eq] at this
        exact this (hlater _ t (hg.outputs w hw).1 ht)
      have hi : ∀ i ∈ w.inputs, put d p (some (text, now)) i = d i := fun i h =>
        if_neg (by rintro rfl; exact hno h)
      refine shows_same hw (fun i h => by unfold texts; rw [hi i h]) (h1 w hw c t (ho.symm.trans e) ?_)
      rw [← stale_congr ho hi]
      exact hst
    · intro f q hst x hx hold
      have hne : dest S f q ≠ p := fun e => hp (e ▸ hgc.dests f q hst)
      have hsrc : source S f q ≠ p := by
        rintro rfl
        exact hold fun t ht => ⟨_, by simp, now, hpt, hlater _ t (hgc.dests f q hst) ht⟩
      have e1 : put d p (some (text, now)) (dest S f q) = d (dest S f q) := if_neg hne
      have e2 : put d p (some (text, now)) (source S f q) = d (source S f q) := if_neg hsrc
      have e3 : put d p (some (text, now)) S.settingsFile = d S.settingsFile := if_neg (Ne.symm hs)
      rw [old_congr e1 e3 e2] at hold
      have hx' : texts d (source S f q) = some x := by
        unfold texts at hx ⊢
        rw [← e2]
        exact hx
      have := h2 f q hst x hx' hold
      unfold texts at this ⊢
      rw [e1]
      exact this

theorem right_remove {d : Files} (ih : Right S out d) (p : Str) : Right S out (put d p none) := by
  intro cfg hcfg hg hgc
  have hs : p ≠ S.settingsFile := by
    rintro rfl
    unfold Setup.config texts put at hcfg
    rw [if_pos rfl] at hcfg
    cases hcfg
  have hcfg' : S.config d = some cfg := by rw [← hcfg, config_put hs]
  obtain ⟨h1, h2⟩ := ih cfg hcfg' hg hgc
  refine ⟨current_put_none p h1, fun f q hst x hx hold => ?_⟩
  have hsrc : source S f q ≠ p := by
    rintro rfl
    unfold texts put at hx
    rw [if_pos rfl] at hx
    cases hx
  have hdst : dest S f q ≠ p := by
    rintro rfl
    apply hold
    intro t ht
    unfold times put at ht
    rw [if_pos rfl] at ht
    cases ht
  have e1 : put d p none (dest S f q) = d (dest S f q) := if_neg hdst
  have e2 : put d p none (source S f q) = d (source S f q) := if_neg hsrc
  have e3 : put d p none S.settingsFile = d S.settingsFile := if_neg (Ne.symm hs)
  rw [old_congr e1 e3 e2] at hold
  have hx' : texts d (source S f q) = some x := by
    unfold texts at hx ⊢
    rw [← e2]
    exact hx
  have := h2 f q hst x hx' hold
  unfold texts at this ⊢
  rw [e1]
  exact this

end Blogc.C108
