import Verif.Lemmas.Incremental

/-!
# Lemmas for C101: which files a build writes
-/

namespace Blogc.C101

open Blogc Blogc.Make Blogc.Build Blogc.C100
open Blogc.Spec.MakeJobs Blogc.Spec.MakeRun Blogc.Spec.Incremental

variable {S : Setup} {cfg : MakeSettings.Settings} {out : Str → Prop}

/-- The files that a rule writes. -/
theorem rule_writes (hg : Good S out cfg) (clock : Str → Int × Int) (d : Files) {ws : List Wanted}
    (hw : ∀ w ∈ ws, Possible (base S cfg) w) {r : List Job × Int}
    (h : Does (times d) (S.exec cfg d) ws r) :
    (∀ p, S.after cfg clock d r.1 p = d p ∨ ∃ w ∈ ws, w.output = p ∧ stale (times d) w = true ∧
      ∃ text, S.after cfg clock d r.1 p = some (text, clock p)) ∧
    (r.2 = 0 → ∀ w ∈ ws, stale (times d) w = true →
      ∃ text, S.after cfg clock d r.1 w.output = some (text, clock w.output)) := by
  obtain ⟨n, h1, h2, -⟩ := h
  have hsub : ∀ w ∈ (ws.filter (stale (times d))).take n, w ∈ ws ∧ stale (times d) w = true := fun w hw' =>
    List.mem_filter.1 (List.mem_of_mem_take hw')
  obtain ⟨a1, a2⟩ := after_run hg clock d h1 (fun w hw' => hw w (hsub w hw').1) d
  constructor
  · intro p
    rcases a1 p with h | ⟨w, hw', ho, text, h, -⟩
    · exact .inl h
    · exact .inr ⟨w, (hsub w hw').1, ho, (hsub w hw').2, text, h⟩
  · intro e w hw' hst
    obtain ⟨h4, h5⟩ := h2 e
    obtain ⟨text, h, -⟩ := a2 h5 w (by
      rw [h4, List.take_length]
      exact List.mem_filter.2 ⟨hw', hst⟩)
    exact ⟨text, h⟩

/-- Between `d₀` and `d` only stale outputs of `W` were written. -/
def Wrote (S : Setup) (cfg : MakeSettings.Settings) (clock : Str → Int × Int) (W : Wanted → Prop) (d₀ d : Files) :
    Prop :=
  ∀ p, d p = d₀ p ∨ ∃ w, W w ∧ w.output = p ∧ stale (times d₀) w = true ∧ ∃ text, d p = some (text, clock p)

theorem Wrote.same (hg : Good S out cfg) {clock : Str → Int × Int} {W : Wanted → Prop}
    (hW : ∀ w, W w → Possible (base S cfg) w) {d₀ d : Files} (h : Wrote S cfg clock W d₀ d) : SameInputs out d₀ d := by
  intro p hp
  rcases h p with e | ⟨w, hw, rfl, -⟩
  · exact e.symm
  · exact absurd (hg.outputs w (hW w hw)).1 hp

theorem wrote_step (hg : Good S out cfg) {clock : Str → Int × Int} {W : Wanted → Prop}
    (hW : ∀ w, W w → Possible (base S cfg) w) {d₀ d d' : Files} (h : Wrote S cfg clock W d₀ d) {ws : List Wanted}
    (hws : ∀ w ∈ ws, W w) (h' : ∀ p, d' p = d p ∨ ∃ w ∈ ws, w.output = p ∧ stale (times d) w = true ∧
      ∃ text, d' p = some (text, clock p)) : Wrote S cfg clock W d₀ d' := by
  have hsame := h.same hg hW
  intro p
  rcases h' p with e | ⟨w, hw, ho, hst, ht⟩
  · rw [e]; exact h p
  · have hp := hW w (hws w hw)
    rcases h p with e | ⟨w₂, hw₂, ho₂, hst₂, -⟩
    · refine .inr ⟨w, hws w hw, ho, ?_, ht⟩
      subst ho
      rw [stale_congr e.symm fun i hi => hsame i (hg.inputs w hp i hi)]
      exact hst
    · exact .inr ⟨w₂, hw₂, ho₂, hst₂, ht⟩

theorem fresh_written (hg : Good S out cfg) {clock : Str → Int × Int} {d₀ d : Files} (hs : SameInputs out d₀ d)
    {w : Wanted} (hp : Possible (base S cfg) w) (hi : InTime clock d₀ w) {text : Str}
    (h : d w.output = some (text, clock w.output)) : stale (times d) w = false := by
  unfold stale
  rw [show times d w.output = some (clock w.output) by unfold times; rw [h]; rfl]
  simp only
  rw [List.any_eq_false]
  intro i hm
  obtain ⟨u, h1, h2⟩ := hi i hm
  have : times d i = some u := by
    rw [← h1]
    unfold times
    rw [hs i (hg.inputs w hp i hm)]
  rw [this]
  simpa using h2

/-- What all rules write. -/
theorem all_writes (hg : Good S out cfg) (clock : Str → Int × Int) (d₀ : Files) {W : Wanted → Prop}
    (hW : ∀ w, W w → Possible (base S cfg) w) {rs : List Rule} {wss : List (List Wanted)}
    (hr : List.Forall₂ (fun (r : Rule) ws => ∀ d, SameInputs out d₀ d →
      ∃ x, r (S.site cfg (times d)) (S.exec cfg d) (shell (S.on cfg d)) = .ok x ∧
        Does (times d) (S.exec cfg d) ws x) rs wss)
    (hw : ∀ ws ∈ wss, ∀ w ∈ ws, W w) (d d' : Files) (rv : Int) (h : Wrote S cfg clock W d₀ d)
    (e : S.all cfg clock rs d = some (d', rv)) :
    Wrote S cfg clock W d₀ d' ∧
    (∀ w, W w → d' w.output = d w.output ∨ ∃ text, d' w.output = some (text, clock w.output)) ∧
    (rv = 0 → ∀ ws ∈ wss, ∀ w ∈ ws, stale (times d₀) w = true → ∃ text, d' w.output = some (text, clock w.output)) := by
  induction hr generalizing d with
  | nil =>
    injection e with e
    injection e with e _
    subst e
    exact ⟨h, fun w _ => .inl rfl, fun _ ws hws => absurd hws (by simp)⟩
  | @cons r ws rs wss h1 _ ih =>
    obtain ⟨⟨jobs, rv'⟩, hx, hd⟩ := h1 d (h.same hg hW)
    have hws := hw ws (by simp)
    obtain ⟨a1, a2⟩ := rule_writes hg clock d (fun w hm => hW w (hws w hm)) hd
    have h' := wrote_step hg hW h hws a1
    have keep : ∀ w, W w → S.after cfg clock d jobs w.output = d w.output ∨
        ∃ text, S.after cfg clock d jobs w.output = some (text, clock w.output) := fun w _ =>
      (a1 w.output).imp id fun ⟨_, _, _, _, h⟩ => h
    unfold Setup.all at e
    rw [hx] at e
    simp only at e
    by_cases hrv : rv' = 0
    · rw [if_neg (by simp [hrv])] at e
      obtain ⟨g1, g2, g3⟩ := ih (fun ws hm => hw ws (by simp [hm])) _ h' e
      refine ⟨g1, fun w hm => ?_, fun e0 ws' hws' w hm hst => ?_⟩
      · rcases g2 w hm with g | g
        · rw [g]; exact keep w hm
        · exact .inr g
      · rcases List.mem_cons.1 hws' with rfl | hws'
        · have : ∃ text, S.after cfg clock d jobs w.output = some (text, clock w.output) := by
            rcases h w.output with hsame | ⟨w₂, hw₂, ho₂, -, ht⟩
            · refine a2 hrv w hm ?_
              rw [stale_congr hsame fun i hi => (h.same hg hW i (hg.inputs w (hW w (hws w hm)) i hi)).symm]
              exact hst
            · rcases keep w (hws w hm) with k | k
              · rw [k]; exact ht
              · exact k
          rcases g2 w (hws w hm) with g | g
          · rw [g]; exact this
          · exact g
        · exact g3 e0 ws' hws' w hm hst
    · rw [if_pos hrv] at e
      injection e with e
      injection e with e1 e2
      subst e1 e2
      exact ⟨h', keep, fun e0 => absurd e0 hrv⟩

theorem rules_same (hg : Good S out cfg) (d : Files) :
    List.Forall₂ (fun (r : Rule) ws => ∀ d', SameInputs out d d' →
      ∃ x, r (S.site cfg (times d')) (S.exec cfg d') (shell (S.on cfg d')) = .ok x ∧
        Does (times d') (S.exec cfg d') ws x) rules (wantedBy S cfg d) := by
  have := fun d' (h : SameInputs out d d') => wantedBy_congr hg h ▸ rules_do hg (times d') d'
  rw [List.forall₂_iff_get]
  refine ⟨(rules_do hg (times d) d).length_eq, fun i h1 h2 d' h => ?_⟩
  exact (List.forall₂_iff_get.1 (this d' h)).2 i h1 h2

theorem build_writes (hg : Good S out cfg) (clock : Str → Int × Int) {d d' : Files} {rv : Int}
    (hcfg : S.config d = some cfg) (h : S.build clock d = some (d', rv)) :
    Wrote S cfg clock (Wants S cfg d) d d' ∧
    (rv = 0 → ∀ w, Wants S cfg d w → stale (times d) w = true → ∃ text, d' w.output = some (text, clock w.output)) := by
  unfold Setup.build at h
  rw [hcfg] at h
  obtain ⟨g1, -, g3⟩ := all_writes hg clock d (W := Wants S cfg d) (fun w h => possible h) (rules_same hg d)
    (fun ws h1 w h2 => ⟨ws, h1, h2⟩) d d' rv (fun p => .inl rfl) h
  exact ⟨g1, fun e w ⟨ws, h1, h2⟩ => g3 e ws h1 w h2⟩

/-- Without a stale output nothing is done. -/
theorem all_idle (d : Files) {rs : List Rule} {wss : List (List Wanted)} (clock : Str → Int × Int)
    (hr : List.Forall₂ (fun (r : Rule) ws =>
      ∃ x, r (S.site cfg (times d)) (S.exec cfg d) (shell (S.on cfg d)) = .ok x ∧
        Does (times d) (S.exec cfg d) ws x) rs wss)
    (hs : ∀ ws ∈ wss, ∀ w ∈ ws, stale (times d) w = false) : S.all cfg clock rs d = some (d, 0) := by
  induction hr with
  | nil => rfl
  | @cons r ws rs wss h1 _ ih =>
    obtain ⟨⟨jobs, rv⟩, hx, n, h1, -, h3⟩ := h1
    have : ws.filter (stale (times d)) = [] :=
      List.filter_eq_nil_iff.2 fun w hm => by rw [hs ws (by simp) w hm]; simp
    rw [this, List.take_nil] at h1
    cases h1
    have hrv : rv = 0 := by
      by_contra hne
      obtain ⟨js, j, e, -⟩ := h3 hne
      simp at e
    unfold Setup.all
    rw [hx]
    simp only
    rw [if_neg (by simp [hrv])]
    exact ih fun ws hm => hs ws (by simp [hm])

theorem build_idle (hg : Good S out cfg) {d : Files} (clock : Str → Int × Int) (hcfg : S.config d = some cfg)
    (hs : ∀ w, Wants S cfg d w → stale (times d) w = false) : S.build clock d = some (d, 0) := by
  unfold Setup.build
  rw [hcfg]
  exact all_idle d clock (rules_do hg (times d) d) fun ws h1 w h2 => hs w ⟨ws, h1, h2⟩

end Blogc.C101
