import Verif.Props.C109
import Verif.Spec.Quiet

/-!
# What a round writes while a site is watched
-/

namespace Blogc.C123

open Blogc Blogc.Make Blogc.Build Blogc.C100 Blogc.C108 Blogc.C109
open Blogc.Spec.MakeJobs Blogc.Spec.MakeRun Blogc.Spec.Incremental Blogc.Spec.StaticFiles Blogc.Spec.Watching
open Blogc.Spec.MakeCopy (under)

variable {S : Setup} {disk : Files → Str → Forest} {out : Str → Prop} {cfg : MakeSettings.Settings}

/-- With the times of the files, the rules do what they do in a build. -/
theorem allBy_all (hg : Good S out cfg) (clock : Str → Int × Int) (stat : Files → Str → Option (Int × Int)) (d₀ : Files)
    (hstat : ∀ d, SameInputs out d₀ d → stat d = times d) {rs : List Rule} {wss : List (List Wanted)}
    (hr : List.Forall₂ (fun (r : Rule) ws => ∀ d, SameInputs out d₀ d →
      ∃ x, r (S.site cfg (times d)) (S.exec cfg d) (shell (S.on cfg d)) = .ok x ∧
        Does (times d) (S.exec cfg d) ws x) rs wss)
    (hw : ∀ ws ∈ wss, ∀ w ∈ ws, Possible (base S cfg) w) (d : Files) (h₀ : SameInputs out d₀ d) :
    S.allBy cfg clock stat rs d = S.all cfg clock rs d := by
  induction hr generalizing d with
  | nil => rfl
  | @cons r ws rs wss h1 _ ih =>
    obtain ⟨⟨jobs, rv⟩, hx, hd⟩ := h1 d h₀
    have hws := hw ws (by simp)
    have hs := stage_same hg hws (stage_of hg (times d) clock d hws hd)
    unfold Setup.allBy Setup.all
    rw [hstat d h₀, hx]
    simp only
    rw [ih (fun ws h => hw ws (by simp [h])) _ fun p hp => (h₀ p hp).trans (hs p hp)]

theorem look_times {d : Files} {w : Watcher} (hf : Fresh S out d w) (hout : Outside S out w.cfg)
    (hmem : ∀ p ∈ S.ctxPaths w.cfg, d p = none → w.mem p = none) (d' : Files) (hs : SameInputs out d d') :
    S.look w d' = times d' := by
  funext p
  unfold Setup.look
  split
  · rename_i hp
    rw [same_times hs (hout p hp)]
    cases ht : times d p with
    | none =>
      refine hmem p hp ?_
      unfold times at ht
      simpa using ht
    | some u => exact hf.mem p (hout p hp) u ht
  · rfl

/-- The copies that are made. -/
theorem fold_copies {K : Str → List Str → Prop} (hgc : GoodCopy S out cfg) (clock : Str → Int × Int) (d : Files)
    (l : List (Str × Str)) (hk : ∀ f q, Static cfg f q → K f q → (d (source S f q)).isSome)
    (hl : ∀ c, c ∈ l ↔ ∃ f q, Static cfg f q ∧ K f q ∧ Old S d f q ∧ c = (source S f q, dest S f q)) :
    (∀ p, l.foldl (copyOne clock) d p = d p ∨ ∃ f q, Static cfg f q ∧ K f q ∧ dest S f q = p ∧ Old S d f q ∧
      ∃ x, texts d (source S f q) = some x ∧ l.foldl (copyOne clock) d p = some (x, clock p)) ∧
    ∀ f q, Static cfg f q → K f q → Old S d f q →
      ∃ x, texts d (source S f q) = some x ∧ l.foldl (copyOne clock) d (dest S f q) = some (x, clock (dest S f q)) := by
  have h1 : ∀ c ∈ l, ∀ c' ∈ l, c.1 ≠ c'.2 := by
    intro c hc c' hc' heq
    obtain ⟨f, q, hst, -, -, rfl⟩ := (hl c).1 hc
    obtain ⟨f', q', hst', -, -, rfl⟩ := (hl c').1 hc'
    have := hgc.sources f q hst
    rw [show source S f q = dest S f' q' from heq] at this
    exact this (hgc.dests f' q' hst')
  have h2 : ∀ c ∈ l, ∀ c' ∈ l, c.2 = c'.2 → c.1 = c'.1 := by
    intro c hc c' hc' heq
    obtain ⟨f, q, hst, -, -, rfl⟩ := (hl c).1 hc
    obtain ⟨f', q', hst', -, -, rfl⟩ := (hl c').1 hc'
    exact same_source hgc hst hst' heq
  have hx : ∀ f q, Static cfg f q → K f q → ∃ x, texts d (source S f q) = some x := by
    intro f q hst hK
    obtain ⟨v, hv⟩ := Option.isSome_iff_exists.1 (hk f q hst hK)
    exact ⟨v.1, by unfold texts; rw [hv]; rfl⟩
  refine ⟨fun p => ?_, fun f q hst hK ho => ?_⟩
  · by_cases hm : ∃ c ∈ l, c.2 = p
    · obtain ⟨c, hc, rfl⟩ := hm
      obtain ⟨f, q, hst, hK, ho, rfl⟩ := (hl c).1 hc
      obtain ⟨x, e⟩ := hx f q hst hK
      exact .inr ⟨f, q, hst, hK, rfl, ho, x, e, fold_mem clock l d h1 h2 _ hc x e⟩
    · exact .inl (fold_notMem _ _ _ _ fun c hc e => hm ⟨c, hc, e⟩)
  · obtain ⟨x, e⟩ := hx f q hst hK
    exact ⟨x, e, fold_mem clock l d h1 h2 _ ((hl _).2 ⟨f, q, hst, hK, ho, rfl⟩) x e⟩

/-- The program remembers `w₀`; after looking at the files, it goes on with `w`, which
agrees with them. `seen` are the files when it read the settings. -/
structure Ready (S : Setup) (disk : Files → Str → Forest) (out : Str → Prop) (now : Int × Int) (d seen : Files)
    (w₀ w : Watcher) : Prop where
  base : Base S out now d
  inv : Inv S out now d w seen
  fresh : Fresh S out d w
  reload : S.reload disk d w₀ = some w
  config : S.config d = some w.cfg
  outside : Outside S out w.cfg
  mem : ∀ p ∈ S.ctxPaths w.cfg, d p = none → w.mem p = none
  static : ∀ f q, Static w.cfg f q → (seen (source S f q)).isSome → (d (source S f q)).isSome
  old : ¬ NewSettings S seen d

theorem ready_old {now : Int × Int} {d seen : Files} {w : Watcher} (h : Watched S disk out now d (some w) seen)
    (hout : Outside S out w.cfg) (hkept : Kept S w seen d) (hold : ¬ NewSettings S seen d) :
    Ready S disk out now d seen w (lookAgain d w) := by
  obtain ⟨hb, hi⟩ := watched_inv h
  have hi := hi w rfl
  obtain ⟨h1, h2⟩ := again_inv hb hi hold
  have hcfg := same_settings h hkept.settings hold
  refine ⟨hb, h1, h2, reload_old hi hold, hcfg, hout, fun p hp hd => ?_,
    hkept.static, hold⟩
  show reloadTime (w.mem p) (times d p) = none
  rw [hkept.files p hp hd]
  unfold times
  rw [hd]
  rfl

theorem not_newer (S : Setup) (d : Files) : ¬ NewSettings S d d := by
  rintro ⟨t, u, h1, h2, h3⟩
  rw [h1] at h2
  rw [Option.some.inj h2] at h3
  unfold Later at h3
  omega

theorem ready_new {now : Int × Int} {d seen : Files} {w : Watcher} (h : Watched S disk out now d (some w) seen)
    (hnow : CopyNow S disk out d) (hnew : NewSettings S seen d) (hcfg : S.config d = some cfg)
    (hout : Outside S out cfg) :
    Ready S disk out now d d w ⟨cfg, times d, (S.copySite (disk d) cfg (times d)).copy⟩ := by
  obtain ⟨hb, hi⟩ := watched_inv h
  have hw : S.watcher disk d = some ⟨cfg, times d, (S.copySite (disk d) cfg (times d)).copy⟩ := by
    unfold Setup.watcher
    rw [hcfg]
    rfl
  obtain ⟨h1, h2⟩ := open_inv hb hnow hw
  refine ⟨hb, h1, h2, (reload_new (hi w rfl) hnew).trans hw, hcfg, hout, fun p _ hd => ?_, fun _ _ _ h => h,
    not_newer S d⟩
  show times d p = none
  unfold times
  rw [hd]
  rfl

/-- A round is a build of the pages, and then the copies that are out of date. -/
theorem round_eq {now : Int × Int} {d seen : Files} {w₀ w : Watcher} (r : Ready S disk out now d seen w₀ w)
    (clock : Str → Int × Int) :
    Good S out w.cfg ∧ GoodCopy S out w.cfg ∧
    ∃ d₁ rv, S.build clock d = some (d₁, rv) ∧ SameInputs out d d₁ ∧
      (rv ≠ 0 → S.round disk clock d (some w₀) = some (some w, d₁, rv)) ∧
      (rv = 0 → ∃ d', S.round disk clock d (some w₀) = some (some w, d', 0) ∧
        (∀ p, d' p = d₁ p ∨ ∃ f q, Static w.cfg f q ∧ (seen (source S f q)).isSome ∧ dest S f q = p ∧ Old S d f q ∧
          ∃ x, texts d (source S f q) = some x ∧ d' p = some (x, clock p)) ∧
        (∀ f q, Static w.cfg f q → d₁ (dest S f q) = d (dest S f q)) ∧
        ∀ f q, Static w.cfg f q → (seen (source S f q)).isSome → Old S d f q →
          ∃ x, texts d (source S f q) = some x ∧ d' (dest S f q) = some (x, clock (dest S f q))) := by
  have hi := r.inv
  have hcfg := r.config
  have hlook := look_times r.fresh r.outside r.mem
  have hg := hi.good
  have hgc := hi.goodCopy
  have hall : S.allBy w.cfg clock (S.look w) rules d = S.all w.cfg clock rules d :=
    allBy_all hg clock _ d hlook (C101.rules_same hg d) (fun ws h1 v h2 => possible ⟨ws, h1, h2⟩) d fun _ _ => rfl
  obtain ⟨d₁, rv, g1, g2, -⟩ := rules_run hg clock (S.look w) d
  have hbuild : S.build clock d = some (d₁, rv) := by
    unfold Setup.build
    rw [hcfg, ← g1, hall]
  have hround : S.round disk clock d (some w₀) = if rv ≠ 0 then some (some w, d₁, rv)
      else some (some w, (S.watchCopies clock w d₁).1,
        (S.watchCopies clock w d₁).2) := by
    unfold Setup.round
    simp only [r.reload, g1]
  refine ⟨hg, hgc, d₁, rv, hbuild, g2, fun hrv => hround.trans (if_pos hrv), fun hrv => ?_⟩
  have hlist := lists_of hi r.fresh (by simp only [isSome_times]; exact r.static)
  have hlist₁ : Lists S w.cfg d₁ (fun f q => (times seen (source S f q)).isSome) w.copy := by
    intro x
    rw [hlist x]
    constructor <;> rintro ⟨f, q, t, a1, a2, a3, a4⟩ <;> refine ⟨f, q, t, a1, a2, ?_, a4⟩
    · rw [same_times g2 (hgc.sources f q a1)]; exact a3
    · rw [← same_times g2 (hgc.sources f q a1)]; exact a3
  have hfile : (times d₁ S.settingsFile).isSome := by
    rw [same_times g2 hg.settingsFile]
    exact config_file hcfg
  have e : S.watchCopies clock w d₁ = copyList S w.cfg clock w.copy d₁ := by
    unfold Setup.watchCopies copyList
    rw [hlook d₁ g2]
  obtain ⟨l, e', hl⟩ := list_made hg.ok.outDir hg.ok.settingsFile hgc d₁ _ _ hlist₁ hfile clock
  have hdest : ∀ f q, Static w.cfg f q → d₁ (dest S f q) = d (dest S f q) := by
    intro f q hst
    rcases C101.only_needed hg clock hcfg hbuild (dest S f q) with e | ⟨v, b1, b2, -⟩
    · exact e
    · exact absurd b2 (hgc.apart f q hst v (possible b1))
  have hOld : ∀ f q, Static w.cfg f q → (Old S d₁ f q ↔ Old S d f q) := fun f q hst =>
    old_congr (hdest f q hst) (g2 _ hg.settingsFile).symm (g2 _ (hgc.sources f q hst)).symm
  have hsome : ∀ f q, Static w.cfg f q → (seen (source S f q)).isSome → (d₁ (source S f q)).isSome := by
    intro f q hst hsm
    rw [← g2 _ (hgc.sources f q hst)]
    exact r.static f q hst hsm
  obtain ⟨k1, k2⟩ := fold_copies (K := fun f q => (seen (source S f q)).isSome) hgc clock d₁ l hsome fun c => by
    rw [hl c]
    constructor
    · rintro ⟨f, q, a1, a2, -, a3, a4⟩
      exact ⟨f, q, a1, by simpa only [isSome_times] using a2, a3, a4⟩
    · rintro ⟨f, q, a1, a2, a3, a4⟩
      refine ⟨f, q, a1, by simpa only [isSome_times] using a2, ?_, a3, a4⟩
      rw [isSome_times]
      exact hsome f q a1 a2
  refine ⟨l.foldl (copyOne clock) d₁, ?_, fun p => ?_, hdest, fun f q a1 a2 a3 => ?_⟩
  · rw [hround, if_neg (by simp [hrv]), e, e']
  · rcases k1 p with e | ⟨f, q, a1, a2, a3, a4, x, a5, a6⟩
    · exact .inl e
    · exact .inr ⟨f, q, a1, a2, a3, (hOld f q a1).1 a4, x, (g2.text (hgc.sources f q a1)).trans a5, a6⟩
  · obtain ⟨x, e1, e2⟩ := k2 f q a1 a2 ((hOld f q a1).2 a3)
    exact ⟨x, (g2.text (hgc.sources f q a1)).trans e1, e2⟩

theorem ready_only {now : Int × Int} {d d' seen : Files} {w₀ w : Watcher} {w' : Option Watcher} {rv : Int}
    (r : Ready S disk out now d seen w₀ w) (clock : Str → Int × Int)
    (hr : S.round disk clock d (some w₀) = some (w', d', rv)) (p : Str) :
    d' p = d p ∨
    (∃ v, Wants S w.cfg d v ∧ v.output = p ∧ stale (times d) v = true ∧ ∃ text, d' p = some (text, clock p)) ∨
    ∃ f q, Static w.cfg f q ∧ dest S f q = p ∧ Old S d f q ∧
      ∃ x, texts d (source S f q) = some x ∧ d' p = some (x, clock p) := by
  obtain ⟨hg, hgc, d₁, rv₁, hb, hs, h1, h2⟩ := round_eq r clock
  have hw := C101.only_needed hg clock r.config hb
  by_cases hrv : rv₁ = 0
  · obtain ⟨d₂, e, k1, -, -⟩ := h2 hrv
    rw [hr] at e
    injection e with e
    injection e with e1 e2
    injection e2 with e2 e3
    subst e2
    rcases k1 p with e | ⟨f, q, a1, -, a3, a4, a5⟩
    · rw [e]
      rcases hw p with e | e
      · exact .inl e
      · exact .inr (.inl e)
    · exact .inr (.inr ⟨f, q, a1, a3, a4, a5⟩)
  · have e := h1 hrv
    rw [hr] at e
    injection e with e
    injection e with e1 e2
    injection e2 with e2 e3
    subst e2
    rcases hw p with e | e
    · exact .inl e
    · exact .inr (.inl e)

theorem ready_idle {now : Int × Int} {d seen : Files} {w₀ w : Watcher}
    (r : Ready S disk out now d seen w₀ w) (hu : UpToTime S w.cfg seen d) (clock : Str → Int × Int) :
    S.round disk clock d (some w₀) = some (some w, d, 0) := by
  obtain ⟨hg, hgc, d₁, rv₁, hb, hs, h1, h2⟩ := round_eq r clock
  have e := C101.build_idle hg clock r.config hu.1
  rw [hb] at e
  injection e with e
  injection e with e1 e2
  subst e1 e2
  obtain ⟨d', e, k1, -, -⟩ := h2 rfl
  have : d' = d₁ := by
    funext p
    rcases k1 p with e | ⟨f, q, a1, a2, -, a4, -⟩
    · exact e
    · exact absurd a4 (hu.2 f q a1 a2)
  rw [e, this]

theorem ready_settled {now : Int × Int} {d d' seen : Files} {w₀ w : Watcher} {w' : Option Watcher}
    (r : Ready S disk out now d seen w₀ w) (clock : Str → Int × Int) (hclock : ∀ p, ¬ Later now (clock p))
    (hthere : ∀ v, Wants S w.cfg d v → ∀ i ∈ v.inputs, (d i).isSome)
    (hr : S.round disk clock d (some w₀) = some (w', d', 0)) : UpToTime S w.cfg seen d' := by
  have hbase := r.base
  have htime : ∀ i p u, times d i = some u → ¬ Later u (clock p) := fun i p u hu =>
    not_later_trans (hbase.bound i u hu) (hclock p)
  obtain ⟨hg, hgc, d₁, rv₁, hb, hs, h1, h2⟩ := round_eq r clock
  have hrv : rv₁ = 0 := by
    by_contra hne
    have e := h1 hne
    rw [hr] at e
    injection e with e
    injection e with e1 e2
    injection e2 with e2 e3
    exact hne e3.symm
  subst hrv
  obtain ⟨d₂, e, k1, k2, k3⟩ := h2 rfl
  rw [hr] at e
  injection e with e
  injection e with e1 e2
  injection e2 with e2 e3
  subst e2
  obtain ⟨-, n2, n3⟩ := C101.nothing_stale hg clock r.config hb fun v hv i hi => by
    obtain ⟨x, hx⟩ := Option.isSome_iff_exists.1 (hthere v hv i hi)
    have ht : times d i = some x.2 := by unfold times; rw [hx]; rfl
    exact ⟨x.2, ht, htime i _ _ ht⟩
  have hs₁ : SameInputs out d₁ d' := by
    intro p hp
    rcases k1 p with e | ⟨f, q, a1, -, rfl, -⟩
    · exact e.symm
    · exact absurd (hgc.dests f q a1) hp
  refine ⟨fun v hv => ?_, fun f q hst hsm => ?_⟩
  · have hv : Wants S w.cfg d v := by
      rw [← n2 v]
      unfold Wants at hv ⊢
      rw [wantedBy_congr hg hs₁]
      exact hv
    rw [← n3 v hv]
    refine stale_congr ?_ fun i hi => (hs₁ i (hg.inputs v (possible hv) i hi)).symm
    rcases k1 v.output with e | ⟨f, q, a1, -, a3, -⟩
    · exact e
    · exact absurd a3.symm (hgc.apart f q a1 v (possible hv))
  · intro ho
    have hsame : ∀ i ∈ [S.settingsFile, source S f q], times d' i = times d i := by
      intro i hi
      have : ¬ out i := by
        simp only [List.mem_cons, List.not_mem_nil, or_false] at hi
        rcases hi with rfl | rfl
        · exact hg.settingsFile
        · exact hgc.sources f q hst
      exact (same_times hs₁ this).trans (same_times hs this)
    by_cases hd : Old S d f q
    · obtain ⟨x, -, e⟩ := k3 f q hst hsm hd
      obtain ⟨i, hi, u, hu, hl⟩ := ho (clock (dest S f q)) (by unfold times; rw [e]; rfl)
      rw [hsame i hi] at hu
      exact htime i _ u hu hl
    · refine hd ?_
      have e : d' (dest S f q) = d (dest S f q) := by
        rcases k1 (dest S f q) with e | ⟨f', q', a1, -, a3, a4, -⟩
        · exact e.trans (k2 f q hst)
        · refine absurd ?_ hd
          have hsrc := same_source hgc a1 hst a3
          unfold Old at a4 ⊢
          rw [← a3, ← hsrc]
          exact a4
      intro t ht
      obtain ⟨i, hi, u, hu, hl⟩ := ho t (by unfold times at ht ⊢; rw [e]; exact ht)
      rw [hsame i hi] at hu
      exact ⟨i, hi, u, hu, hl⟩

/-- What a round remembers is right for the next. -/
theorem ready_next {now : Int × Int} {d d' seen : Files} {w₀ w : Watcher} {w' : Option Watcher} {rv : Int}
    (r : Ready S disk out now d seen w₀ w) (clock : Str → Int × Int)
    (hr : S.round disk clock d (some w₀) = some (w', d', rv)) :
    w' = some w ∧ Kept S w seen d' ∧ ¬ NewSettings S seen d' := by
  obtain ⟨hg, hgc, -⟩ := round_eq r clock
  have hw : w' = some w := by
    have := hr
    unfold Setup.round at this
    simp only [r.reload] at this
    split at this
    · cases this
    · split at this <;> (injection this with this; injection this with this _; exact this.symm)
  have hs : ∀ p, ¬ out p → d' p = d p := by
    intro p hp
    rcases ready_only r clock hr p with e | ⟨v, h1, h2, -⟩ | ⟨f, q, h1, h2, -⟩
    · exact e
    · exact absurd (h2 ▸ (hg.outputs v (possible h1)).1) hp
    · exact absurd (h2 ▸ hgc.dests f q h1) hp
  refine ⟨hw, ⟨?_, fun p hp hd => ?_, fun f q hst hsm => ?_⟩, ?_⟩
  · rw [hs _ hg.settingsFile, ← isSome_times]
    exact config_file r.config
  · rw [hs p (r.outside p hp)] at hd
    exact r.mem p hp hd
  · rw [hs _ (hgc.sources f q hst)]
    exact r.static f q hst hsm
  · rintro ⟨t, u, a1, a2, a3⟩
    refine r.old ⟨t, u, a1, ?_, a3⟩
    rw [← a2]
    unfold times
    rw [hs _ hg.settingsFile]

/-- A build by hand does the same, if no static file is new. -/
theorem ready_build {now : Int × Int} {d d' seen : Files} {w₀ w : Watcher} {w' : Option Watcher} {rv : Int}
    (r : Ready S disk out now d seen w₀ w) (hnow : CopyNow S disk out d)
    (hall : ∀ f q, Static w.cfg f q → (d (source S f q)).isSome → (seen (source S f q)).isSome)
    (clock : Str → Int × Int) (hr : S.round disk clock d (some w₀) = some (w', d', rv)) :
    S.buildAll disk clock d = some (d', rv) := by
  obtain ⟨hg, hgc, hsee⟩ := hnow _ r.config
  obtain ⟨hc, -⟩ := r.base.right _ r.config hg hgc
  obtain ⟨d₁, d'', rv', b1, b2, -, -, -, -, b5, b6⟩ := buildAll_runs hg hgc disk clock d r.config hsee hc
  obtain ⟨-, -, d₂, rv₂, e, -, h1, h2⟩ := round_eq r clock
  rw [b1] at e
  injection e with e
  injection e with e1 e2
  subst e1 e2
  by_cases hrv : rv' = 0
  · subst hrv
    obtain ⟨d₃, e, k1, k2, k3⟩ := h2 rfl
    rw [hr] at e
    injection e with e
    injection e with e1 e2
    injection e2 with e2 e3
    subst e2 e3
    rw [b2]
    congr 2
    funext p
    rcases b6 p with e | ⟨-, f, q, a1, rfl, a3, x, a4, a5⟩
    · rcases k1 p with e' | ⟨f, q, a1, -, rfl, a3, x, a4, a5⟩
      · exact e.trans e'.symm
      · rcases b5 rfl f q a1 x a4 with ⟨-, e⟩ | ⟨hn, -⟩
        · exact e.trans a5.symm
        · exact absurd a3 hn
    · obtain ⟨t, ht⟩ := text_time a4
      obtain ⟨y, e1, e2⟩ := k3 f q a1 (hall f q a1 (by rw [ht]; rfl)) a3
      rw [a4] at e1
      rw [a5, e2, Option.some.inj e1]
  · have e := h1 hrv
    rw [hr] at e
    injection e with e
    injection e with e1 e2
    injection e2 with e2 e3
    subst e2 e3
    rw [b2]
    congr 2
    funext p
    rcases b6 p with e | ⟨h, -⟩
    · exact e
    · exact absurd h hrv

/-- A round that succeeds writes all that is out of date. -/
theorem ready_all {now : Int × Int} {d d' seen : Files} {w₀ w : Watcher} {w' : Option Watcher}
    (r : Ready S disk out now d seen w₀ w) (clock : Str → Int × Int)
    (hr : S.round disk clock d (some w₀) = some (w', d', 0)) :
    (∀ v, Wants S w.cfg d v → stale (times d) v = true → ∃ text, d' v.output = some (text, clock v.output)) ∧
    ∀ f q, Static w.cfg f q → (seen (source S f q)).isSome → Old S d f q →
      ∃ x, texts d (source S f q) = some x ∧ d' (dest S f q) = some (x, clock (dest S f q)) := by
  obtain ⟨hg, hgc, d₁, rv, hb, -, h1, h2⟩ := round_eq r clock
  have hrv : rv = 0 := by
    by_contra hne
    have e := h1 hne
    rw [hr] at e
    injection e with e
    injection e with e1 e2
    injection e2 with e2 e3
    exact hne e3.symm
  subst hrv
  obtain ⟨d₂, e, k1, -, k3⟩ := h2 rfl
  rw [hr] at e
  injection e with e
  injection e with e1 e2
  injection e2 with e2 e3
  subst e2
  refine ⟨fun v hv hst => ?_, k3⟩
  have := C101.all_needed hg clock r.config hb v hv
  rw [if_pos hst] at this
  rcases k1 v.output with e | ⟨f, q, a1, -, a3, -⟩
  · rw [e]
    exact this
  · exact absurd a3.symm (hgc.apart f q a1 v (possible hv))

theorem kept_put {w : Watcher} {d seen : Files} (h : Kept S w seen d) (p : Str) (v : Str × (Int × Int)) :
    Kept S w seen (put d p (some v)) := by
  have some_put : ∀ q, (d q).isSome → (put d p (some v) q).isSome := by
    intro q hq
    unfold put
    split
    · rfl
    · exact hq
  refine ⟨some_put _ h.settings, fun q hq e => h.files q hq ?_, fun f q hst hs => some_put _ (h.static f q hst hs)⟩
  unfold put at e
  split at e
  · cases e
  · exact e

end Blogc.C123
