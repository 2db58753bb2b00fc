import Verif.Model.MakeWatch

/-!
# C60: watching recovers from a broken settings file
-/

namespace Blogc.C60

open Blogc Blogc.Watch

variable {S : Type}

/-- A file that stays the same while it is looked at in one round. -/
def steady (f : Option File) : Round := ⟨f, f, f⟩

/-- Every edit gives the file a later time of modification. -/
def Dated (files : Nat → Option File) : Prop :=
  ∀ i j f g, i ≤ j → files i = some f → files j = some g → f = g ∨ f.mtime < g.mtime

/-- The property, for files edited only between rounds: from any round on where
the settings stay valid, the site is built with them again in some later round. -/
def Recovers (parse : Str → Option S) (files : Nat → Option File) (ctx : Option (Ctx S)) : Prop :=
  ∀ n s f, (∀ m, n ≤ m → files m = some f) → parse f.content = some s →
    ∃ m, n ≤ m ∧ buildAt parse (fun i => steady (files i)) ctx m = some s

/-! ## What happens -/

/-- After one failed reading of the settings nothing is ever built again, however
the file changes. -/
theorem never_again (parse : Str → Option S) (rounds : Nat → Round) (ctx : Option (Ctx S)) (n : Nat)
    (h : ctxAt parse rounds ctx n = none) (m : Nat) (hm : n ≤ m) : buildAt parse rounds ctx m = none := by
  have key : ∀ m, n ≤ m → ctxAt parse rounds ctx m = none := by
    intro m hm
    induction m with
    | zero =>
      rw [Nat.le_zero.1 hm] at h
      exact h
    | succ m ih =>
      rcases Nat.lt_or_ge n (m + 1) with hlt | hge
      · rw [ctxAt, ih (by omega)]
        rfl
      · rw [show m + 1 = n by omega]
        exact h
  rw [buildAt, key m hm]
  rfl

/-- The memory of the watcher matches the file. -/
def Fresh (parse : Str → Option S) (c : Ctx S) (f : File) : Prop :=
  c.mtime = f.mtime ∧ parse f.content = some c.settings

/-- Proved part: if the settings file is never missing or broken when it is
looked at, is edited only between rounds, and gets a later time with each edit,
then every round builds the site, with the settings of that moment. Missing:
broken settings, after which the property is false (`recovers_violated`,
`never_again`), and edits during a round (C69). -/
theorem always_current_partial (parse : Str → Option S) (files : Nat → Option File) (f0 : File) (c0 : Ctx S)
    (h0 : Fresh parse c0 f0) (hold : ∀ i g, files i = some g → f0 = g ∨ f0.mtime < g.mtime)
    (hdated : Dated files) (hok : ∀ i, ∃ g s, files i = some g ∧ parse g.content = some s) (n : Nat) :
    ∃ g s, files n = some g ∧ parse g.content = some s ∧
      buildAt parse (fun i => steady (files i)) (some c0) n = some s := by
  have step : ∀ (c : Ctx S) (f g : File) (s : S), Fresh parse c f → (f = g ∨ f.mtime < g.mtime) →
      parse g.content = some s → round parse (steady (some g)) (some c) = (some ⟨s, g.mtime⟩, some s) := by
    intro c f g s hf hfg hg
    rcases hfg with rfl | hlt
    · have hs : c.settings = s := by
        have := hf.2
        rw [hg] at this
        exact (Option.some.inj this).symm
      have hnc : changed c (some f) = false := by simp [changed, hf.1]
      simp only [round, reload, steady, hnc]
      subst hs
      cases c
      cases hf.1
      rfl
    · have hc : changed c (some g) = true := by simpa [changed, hf.1] using hlt
      simp [round, reload, steady, hc, ctxNew, hg]
  have inv : ∀ n, ∃ c f, ctxAt parse (fun i => steady (files i)) (some c0) n = some c ∧ Fresh parse c f ∧
      ∀ j g, n ≤ j → files j = some g → f = g ∨ f.mtime < g.mtime := by
    intro n
    induction n with
    | zero => exact ⟨c0, f0, rfl, h0, fun j g _ hg => hold j g hg⟩
    | succ n ih =>
      obtain ⟨c, f, h1, h2, h3⟩ := ih
      obtain ⟨g, s, hg, hs⟩ := hok n
      refine ⟨⟨s, g.mtime⟩, g, ?_, ⟨rfl, hs⟩, fun j g' hj hg' => hdated n j g g' (by omega) hg hg'⟩
      rw [ctxAt, h1]
      simp only [hg, step c f g s h2 (h3 n g (Nat.le_refl _) hg) hs]
  obtain ⟨c, f, h1, h2, h3⟩ := inv n
  obtain ⟨g, s, hg, hs⟩ := hok n
  refine ⟨g, s, hg, hs, ?_⟩
  rw [buildAt, h1]
  simp only [hg, step c f g s h2 (h3 n g (Nat.le_refl _) hg) hs]

/-- A settings file that is gone at the moment when its time is looked at, right after it
was read, is noticed as soon as it is there again, whatever its time is after 1970. -/
theorem lost_noticed (parse : Str → Option S) (c : Ctx S) (r : Round) (p f g : File) (s t : S)
    (hp : r.probe = some p) (hc : c.mtime < p.mtime) (hr : r.read = some f) (hf : parse f.content = some s)
    (hl : r.stat = none) (hg : 0 < g.mtime) (ht : parse g.content = some t) :
    ∃ c', round parse r (some c) = (some c', some s) ∧
      round parse (steady (some g)) (some c') = (some ⟨t, g.mtime⟩, some t) := by
  have h1 : changed c r.probe = true := by simpa [hp, changed] using hc
  refine ⟨⟨s, 0⟩, ?_, ?_⟩
  · simp [round, reload, h1, hr, ctxNew, hf, hl]
  · have h2 : changed (⟨s, 0⟩ : Ctx S) (some g) = true := by simpa [changed] using hg
    simp [round, reload, steady, h2, ctxNew, ht]

example : round (S := Str) some ⟨some ⟨2, b!"b"⟩, some ⟨2, b!"b"⟩, none⟩ (some ⟨b!"a", 1⟩) =
    (some ⟨b!"b", 0⟩, some b!"b") := by decide

/-- The property fails: settings that are valid, then broken in one round, then
valid again forever. The site is not built again. -/
theorem recovers_violated : ∃ (parse : Str → Option Str) (files : Nat → Option File) (c0 : Ctx Str) (f0 : File),
    Fresh parse c0 f0 ∧ Dated files ∧ files 0 = some f0 ∧ ¬ Recovers parse files (some c0) := by
  refine ⟨fun s => if s = [] then none else some s,
    fun i => if i = 0 then some ⟨1, b!"a"⟩ else if i = 1 then some ⟨2, []⟩ else some ⟨3, b!"b"⟩,
    ⟨b!"a", 1⟩, ⟨1, b!"a"⟩, ⟨rfl, by decide⟩, ?_, rfl, ?_⟩
  · intro i j f g hij hf hg
    simp only at hf hg
    split at hf <;> split at hg
    · left; cases hf; cases hg; rfl
    · split at hg <;> (right; cases hf; cases hg; decide)
    · omega
    · split at hf <;> split at hg
      · left; cases hf; cases hg; rfl
      · right; cases hf; cases hg; decide
      · omega
      · left; cases hf; cases hg; rfl
  · intro h
    obtain ⟨m, hm, hb⟩ := h 2 b!"b" ⟨3, b!"b"⟩
      (fun m hm => by
        simp only
        rw [if_neg (by omega), if_neg (by omega)])
      (by decide)
    rw [never_again _ _ _ 2 (by decide) m hm] at hb
    cases hb

/-- A history as in `always_current_partial`, with one edit. -/
example : ∃ (parse : Str → Option Str) (files : Nat → Option File),
    Dated files ∧ (∀ i, ∃ g s, files i = some g ∧ parse g.content = some s) ∧
    buildAt parse (fun i => steady (files i)) (some ⟨b!"a", 1⟩) 0 = some b!"a" ∧
    buildAt parse (fun i => steady (files i)) (some ⟨b!"a", 1⟩) 1 = some b!"b" := by
  refine ⟨some, fun i => if i = 0 then some ⟨1, b!"a"⟩ else some ⟨2, b!"b"⟩, ?_, ?_, by decide, by decide⟩
  · intro i j f g hij hf hg
    simp only at hf hg
    split at hf <;> split at hg
    · left; cases hf; cases hg; rfl
    · right; cases hf; cases hg; decide
    · omega
    · left; cases hf; cases hg; rfl
  · intro i
    simp only
    split
    · exact ⟨_, _, rfl, rfl⟩
    · exact ⟨_, _, rfl, rfl⟩

end Blogc.C60
