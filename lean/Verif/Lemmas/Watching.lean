import Verif.Spec.Watching
import Verif.Props.C108

/-!
# Lemmas about watching
-/

namespace Blogc.C109

open Blogc Blogc.Make Blogc.Build Blogc.C100 Blogc.C108
open Blogc.Spec.MakeJobs Blogc.Spec.Incremental Blogc.Spec.StaticFiles Blogc.Spec.Watching
open Blogc.Spec.MakeCopy (under)

variable {S : Setup} {disk : Files → Str → Forest} {out : Str → Prop} {cfg : MakeSettings.Settings}

/-! ## Times -/

theorem later_of {a b c : Int × Int} (h : Later a b) (h' : ¬ Later c b) : Later a c := by
  unfold Later at *
  omega

theorem not_later_trans {a b c : Int × Int} (h : ¬ Later a b) (h' : ¬ Later b c) : ¬ Later a c := by
  unfold Later at *
  omega

theorem not_later_later {a b c : Int × Int} (h : ¬ Later a b) (h' : Later c b) : ¬ Later a c := by
  unfold Later at *
  omega

theorem changed_iff (old : Int × Int) (st : Option (Int × Int)) :
    changed old st = true ↔ ∃ t, st = some t ∧ Later t old := by
  cases st with
  | none => simp [changed]
  | some t =>
    unfold changed Later
    simp only [Option.some.injEq, exists_eq_left']
    split <;> simp only [decide_eq_true_eq] <;> omega

theorem reloadTime_eq {mem : Option (Int × Int)} {st : Option (Int × Int)}
    (h : ∀ u, st = some u → mem = some u ∨ Later u (mem.getD (0, 0))) :
    ∀ u, st = some u → reloadTime mem st = some u := by
  intro u hu
  unfold reloadTime
  by_cases hc : changed (mem.getD (0, 0)) st = true
  · rw [if_pos hc, hu]
  · rw [if_neg hc]
    rcases h u hu with h | h
    · exact h
    · exact absurd ((changed_iff _ _).2 ⟨u, hu, h⟩) hc

theorem reloadTime_bound {mem st : Option (Int × Int)} {now : Int × Int} (h : ¬ Later (mem.getD (0, 0)) now)
    (hs : ∀ u, st = some u → ¬ Later u now) : ¬ Later ((reloadTime mem st).getD (0, 0)) now := by
  unfold reloadTime
  by_cases hc : changed (mem.getD (0, 0)) st = true
  · rw [if_pos hc]
    obtain ⟨t, rfl, -⟩ := (changed_iff _ _).1 hc
    exact hs t rfl
  · rw [if_neg hc]
    exact h

theorem reloadFile_eq (d : Files) (f : Str) (t : Int × Int) :
    ∃ t', reloadFile d (C89.ctxOf S.root f t) = C89.ctxOf S.root f t' ∧
      (t' = t ∨ times d (absPath S.root f) = some t') ∧
      ∀ u, times d (absPath S.root f) = some u → u = t ∨ Later u t → t' = u := by
  unfold reloadFile
  rw [show (C89.ctxOf S.root f t).path = absPath S.root f from rfl]
  cases ht : times d (absPath S.root f) with
  | none => exact ⟨t, rfl, .inl rfl, fun u hu => by cases hu⟩
  | some u =>
    simp only
    by_cases hc : changed t (some u) = true
    · refine ⟨u, ?_, .inr rfl, fun v hv _ => by injection hv⟩
      rw [if_pos (show changed ((C89.ctxOf S.root f t).sec, (C89.ctxOf S.root f t).nsec) (some u) = true from hc)]
      rfl
    · refine ⟨t, ?_, .inl rfl, fun v hv h => ?_⟩
      · rw [if_neg (show ¬ changed ((C89.ctxOf S.root f t).sec, (C89.ctxOf S.root f t).nsec) (some u) = true from hc)]
      · injection hv with hv
        subst hv
        rcases h with h | h
        · exact h.symm
        · exact absurd ((changed_iff _ _).2 ⟨u, rfl, h⟩) hc

/-! ## The invariant -/

structure Base (S : Setup) (out : Str → Prop) (now : Int × Int) (d : Files) : Prop where
  zero : ¬ Later (0, 0) now
  bound : ∀ p u, times d p = some u → ¬ Later u now
  right : Right S out d

/-- What the program remembers is what was there, or something newer is there now. -/
structure Inv (S : Setup) (out : Str → Prop) (now : Int × Int) (d : Files) (w : Watcher) (seen : Files) : Prop where
  good : Good S out w.cfg
  goodCopy : GoodCopy S out w.cfg
  saw : times seen S.settingsFile = w.mem S.settingsFile
  isSome : (w.mem S.settingsFile).isSome
  bound : ∀ p, ¬ out p → ¬ Later ((w.mem p).getD (0, 0)) now
  mem : ∀ p, ¬ out p → ∀ u, times d p = some u → w.mem p = some u ∨ Later u ((w.mem p).getD (0, 0))
  cfg : times d S.settingsFile = w.mem S.settingsFile → S.config d = some w.cfg
  known : ∀ x ∈ w.copy, ∃ f q t, Static w.cfg f q ∧ (times seen (source S f q)).isSome ∧
    x = C89.ctxOf S.root (under f q) t ∧ ¬ Later t now ∧ ∀ u, times d (source S f q) = some u → u = t ∨ Later u t
  all : ∀ f q, Static w.cfg f q → (times seen (source S f q)).isSome → ∃ t, C89.ctxOf S.root (under f q) t ∈ w.copy

/-- What is remembered is up to date. -/
structure Fresh (S : Setup) (out : Str → Prop) (d : Files) (w : Watcher) : Prop where
  mem : ∀ p, ¬ out p → ∀ u, times d p = some u → w.mem p = some u
  copy : ∀ x ∈ w.copy, ∃ f q t, Static w.cfg f q ∧ x = C89.ctxOf S.root (under f q) t ∧
    ∀ u, times d (source S f q) = some u → u = t

theorem times_put (d : Files) (p q : Str) (v : Option (Str × (Int × Int))) :
    times (put d p v) q = if q = p then v.map (·.2) else times d q := by
  unfold times put
  split <;> rfl

theorem isSome_times (d : Files) (p : Str) : (times d p).isSome = (d p).isSome := by
  unfold times
  rw [Option.isSome_map]

theorem inv_edit {now : Int × Int} {d seen : Files} {w : Watcher} (h : Inv S out now d w seen) {p text : Str}
    {t : Int × Int} (ht : Later t now) (hp : ¬ out p) : Inv S out t (put d p (some (text, t))) w seen where
  good := h.good
  goodCopy := h.goodCopy
  saw := h.saw
  isSome := h.isSome
  bound q hq := not_later_later (h.bound q hq) ht
  mem q hq u hu := by
    rw [times_put] at hu
    split at hu
    · injection hu with hu
      subst hu
      exact .inr (later_of ht (h.bound q hq))
    · exact h.mem q hq u hu
  cfg e := by
    rw [times_put] at e
    split at e
    · rename_i hs
      have h1 := h.bound p hp
      rw [← hs, ← e] at h1
      exact absurd ht h1
    · rename_i hs
      rw [config_put (Ne.symm hs)]
      exact h.cfg e
  known x hx := by
    obtain ⟨f, q, t', h1, h2, h3, h4, h5⟩ := h.known x hx
    refine ⟨f, q, t', h1, h2, h3, not_later_later h4 ht, fun u hu => ?_⟩
    rw [times_put] at hu
    split at hu
    · injection hu with hu
      subst hu
      exact .inr (later_of ht h4)
    · exact h5 u hu
  all := h.all

theorem inv_remove {now : Int × Int} {d seen : Files} {w : Watcher} (h : Inv S out now d w seen) (p : Str) :
    Inv S out now (put d p none) w seen where
  good := h.good
  goodCopy := h.goodCopy
  saw := h.saw
  isSome := h.isSome
  bound := h.bound
  mem q hq u hu := by
    rw [times_put] at hu
    split at hu
    · cases hu
    · exact h.mem q hq u hu
  cfg e := by
    rw [times_put] at e
    split at e
    · have := h.isSome
      rw [← e] at this
      cases this
    · rename_i hs
      rw [config_put (Ne.symm hs)]
      exact h.cfg e
  known x hx := by
    obtain ⟨f, q, t', h1, h2, h3, h4, h5⟩ := h.known x hx
    refine ⟨f, q, t', h1, h2, h3, h4, fun u hu => ?_⟩
    rw [times_put] at hu
    split at hu
    · cases hu
    · exact h5 u hu
  all := h.all

theorem same_times {d d' : Files} (h : SameInputs out d d') {p : Str} (hp : ¬ out p) : times d' p = times d p := by
  unfold times
  rw [h p hp]

theorem same_config (hg : Good S out cfg) {d d' : Files} (h : SameInputs out d d') : S.config d' = S.config d := by
  unfold Setup.config
  rw [h.text hg.settingsFile]

theorem inv_same {now now' : Int × Int} {d d' seen : Files} {w : Watcher} (h : Inv S out now d w seen)
    (hs : SameInputs out d d') (hn : ¬ Later now now') : Inv S out now' d' w seen where
  good := h.good
  goodCopy := h.goodCopy
  saw := h.saw
  isSome := h.isSome
  bound q hq := not_later_trans (h.bound q hq) hn
  mem q hq u hu := h.mem q hq u (by rw [← same_times hs hq]; exact hu)
  cfg e := by
    rw [same_config h.good hs]
    exact h.cfg (by rw [← same_times hs h.good.settingsFile]; exact e)
  known x hx := by
    obtain ⟨f, q, t', h1, h2, h3, h4, h5⟩ := h.known x hx
    exact ⟨f, q, t', h1, h2, h3, not_later_trans h4 hn,
      fun u hu => h5 u (by rw [← same_times hs (h.goodCopy.sources f q h1)]; exact hu)⟩
  all := h.all

/-! ## Reading the settings, and looking again -/

theorem open_inv {now : Int × Int} {d : Files} (hb : Base S out now d) (hnow : CopyNow S disk out d) {w : Watcher}
    (hw : S.watcher disk d = some w) : Inv S out now d w d ∧ Fresh S out d w := by
  unfold Setup.watcher at hw
  obtain ⟨cfg, hcfg, rfl⟩ := Option.map_eq_some_iff.1 hw
  obtain ⟨hg, hgc, hsee⟩ := hnow cfg hcfg
  have hl := copySite_lists (S := S) (disk d) d hsee
  refine ⟨⟨hg, hgc, rfl, config_file hcfg, ?_, fun p _ u hu => .inl hu, fun _ => hcfg, ?_, ?_⟩, fun p _ u hu => hu, ?_⟩
  · intro p _
    show ¬ Later ((times d p).getD (0, 0)) now
    cases h : times d p with
    | none => exact hb.zero
    | some u => exact hb.bound p u h
  · intro x hx
    obtain ⟨f, q, t, h1, -, h2, h3⟩ := (hl x).1 hx
    exact ⟨f, q, t, h1, by rw [h2]; rfl, h3, hb.bound _ _ h2, fun u hu => .inl (Option.some.inj (hu.symm.trans h2))⟩
  · intro f q hst hs
    obtain ⟨t, ht⟩ := Option.isSome_iff_exists.1 hs
    exact ⟨t, (hl _).2 ⟨f, q, t, hst, trivial, ht, rfl⟩⟩
  · intro x hx
    obtain ⟨f, q, t, h1, -, h2, h3⟩ := (hl x).1 hx
    exact ⟨f, q, t, h1, h3, fun u hu => Option.some.inj (hu.symm.trans h2)⟩

theorem changed_new {now : Int × Int} {d seen : Files} {w : Watcher} (h : Inv S out now d w seen) :
    changed ((w.mem S.settingsFile).getD (0, 0)) (times d S.settingsFile) = true ↔ NewSettings S seen d := by
  rw [changed_iff]
  unfold NewSettings
  rw [h.saw]
  obtain ⟨t, ht⟩ := Option.isSome_iff_exists.1 h.isSome
  rw [ht]
  constructor
  · rintro ⟨u, h1, h2⟩
    exact ⟨t, u, rfl, h1, h2⟩
  · rintro ⟨t', u, h1, h2, h3⟩
    injection h1 with h1
    subst h1
    exact ⟨u, h2, h3⟩

/-- The context after looking again at the files. -/
def lookAgain (d : Files) (w : Watcher) : Watcher :=
  { w with mem := fun p => reloadTime (w.mem p) (times d p), copy := w.copy.map (reloadFile d) }

theorem reload_new {now : Int × Int} {d seen : Files} {w : Watcher} (h : Inv S out now d w seen)
    (hn : NewSettings S seen d) : S.reload disk d w = S.watcher disk d := by
  unfold Setup.reload
  rw [if_pos ((changed_new h).2 hn)]

theorem reload_old {now : Int × Int} {d seen : Files} {w : Watcher} (h : Inv S out now d w seen)
    (hn : ¬ NewSettings S seen d) : S.reload disk d w = some (lookAgain d w) := by
  unfold Setup.reload
  rw [if_neg fun hc => hn ((changed_new h).1 hc)]
  rfl

theorem again_inv {now : Int × Int} {d seen : Files} {w : Watcher} (hb : Base S out now d) (h : Inv S out now d w seen)
    (hn : ¬ NewSettings S seen d) : Inv S out now d (lookAgain d w) seen ∧ Fresh S out d (lookAgain d w) := by
  have hset : (lookAgain d w).mem S.settingsFile = w.mem S.settingsFile := by
    show reloadTime _ _ = _
    unfold reloadTime
    rw [if_neg fun hc => hn ((changed_new h).1 hc)]
  have hmem : ∀ p, ¬ out p → ∀ u, times d p = some u → (lookAgain d w).mem p = some u := fun p hp =>
    reloadTime_eq (h.mem p hp)
  have hcopy : ∀ x ∈ (lookAgain d w).copy, ∃ f q t, Static w.cfg f q ∧ (times seen (source S f q)).isSome ∧
      x = C89.ctxOf S.root (under f q) t ∧ ¬ Later t now ∧ ∀ u, times d (source S f q) = some u → u = t := by
    intro x hx
    obtain ⟨y, hy, rfl⟩ := List.mem_map.1 hx
    obtain ⟨f, q, t, h1, h2, rfl, h4, h5⟩ := h.known y hy
    obtain ⟨t', e, ht, hu⟩ := reloadFile_eq (S := S) d (under f q) t
    rw [abs_under _ _ (h.goodCopy.entries f h1.1)] at ht hu
    refine ⟨f, q, t', h1, h2, e, ?_, fun u e' => (hu u e' (h5 u e')).symm⟩
    rcases ht with rfl | ht
    · exact h4
    · exact hb.bound _ _ ht
  refine ⟨⟨h.good, h.goodCopy, h.saw.trans hset.symm, by rw [hset]; exact h.isSome, ?_, ?_, ?_, ?_, ?_⟩, hmem, ?_⟩
  · intro p hp
    exact reloadTime_bound (h.bound p hp) fun u hu => hb.bound p u hu
  · exact fun p hp u hu => .inl (hmem p hp u hu)
  · intro e
    rw [hset] at e
    exact h.cfg e
  · intro x hx
    obtain ⟨f, q, t, h1, h2, h3, h4, h5⟩ := hcopy x hx
    exact ⟨f, q, t, h1, h2, h3, h4, fun u hu => .inl (h5 u hu)⟩
  · intro f q hst hs
    obtain ⟨t, ht⟩ := h.all f q hst hs
    obtain ⟨t', e, -⟩ := reloadFile_eq (S := S) d (under f q) t
    exact ⟨t', List.mem_map.2 ⟨_, ht, e⟩⟩
  · intro x hx
    obtain ⟨f, q, t, h1, -, h3, -, h5⟩ := hcopy x hx
    exact ⟨f, q, t, h1, h3, h5⟩

/-! ## Copies -/

theorem fold_missing (clock : Str → Int × Int) (l : List (Str × Str)) (d : Files) (p : Str)
    (h1 : ∀ c ∈ l, ∀ c' ∈ l, c.1 ≠ c'.2) (h2 : ∀ c ∈ l, c.2 = p → texts d c.1 = none) :
    l.foldl (copyOne clock) d p = d p := by
  induction l generalizing d with
  | nil => rfl
  | cons a l ih =>
    have hd : ∀ b ∈ a :: l, texts (copyOne clock d a) b.1 = texts d b.1 := by
      intro b hb
      unfold copyOne
      split
      · unfold texts put
        rw [if_neg (h1 b hb a (by simp))]
      · rfl
    rw [List.foldl_cons, ih _ (fun c hc c' hc' => h1 c (by simp [hc]) c' (by simp [hc']))
      fun c hc e => by rw [hd c (by simp [hc])]; exact h2 c (by simp [hc]) e]
    unfold copyOne
    cases hx : texts d a.1 with
    | none => rfl
    | some x =>
      refine if_neg fun e => ?_
      rw [h2 a (by simp) e.symm] at hx
      cases hx

/-- Whatever is remembered, what is written is a copy of a static file. -/
theorem watchCopies_only {w : Watcher} (hg : Good S out w.cfg) (hgc : GoodCopy S out w.cfg)
    (hk : ∀ x ∈ w.copy, ∃ f q t, Static w.cfg f q ∧ x = C89.ctxOf S.root (under f q) t) (clock : Str → Int × Int)
    (d : Files) (p : Str) :
    (S.watchCopies clock w d).1 p = d p ∨ ∃ f q x, Static w.cfg f q ∧ p = dest S f q ∧
      texts d (source S f q) = some x ∧ (S.watchCopies clock w d).1 p = some (x, clock p) := by
  let s := S.site w.cfg (S.look w d)
  have hread : ∀ x ∈ w.copy, x.readable = true := by
    intro x hx
    obtain ⟨f, q, t, -, rfl⟩ := hk x hx
    rfl
  obtain ⟨n, h1, -, -⟩ := C89.loop_makes s hg.ok.outDir hg.ok.settingsFile (fun a _ => copyStatus d a) w.copy hread
  simp only at h1
  have hjob : ∀ c ∈ (((w.copy.map (C89.copyOf s)).filter (Spec.MakeCopy.due s)).take n).map fun c => (c.source, c.dest),
      ∃ f q, Static w.cfg f q ∧ c = (source S f q, dest S f q) := by
    intro c hc
    obtain ⟨c', hc', rfl⟩ := List.mem_map.1 hc
    obtain ⟨x, hx, rfl⟩ := List.mem_map.1 (List.mem_filter.1 (List.mem_of_mem_take hc')).1
    obtain ⟨f, q, t, hst, rfl⟩ := hk x hx
    refine ⟨f, q, hst, Prod.ext ?_ rfl⟩
    exact abs_under _ _ (hgc.entries f hst.1) q
  have e : (S.watchCopies clock w d).1 = List.foldl (copyOne clock) d
      ((((w.copy.map (C89.copyOf s)).filter (Spec.MakeCopy.due s)).take n).map fun c => (c.source, c.dest)) := by
    rw [← h1]
    rfl
  rw [e]
  generalize (((w.copy.map (C89.copyOf s)).filter (Spec.MakeCopy.due s)).take n).map (fun c => (c.source, c.dest)) = l
    at hjob
  have a1 : ∀ c ∈ l, ∀ c' ∈ l, c.1 ≠ c'.2 := by
    intro c hc c' hc' heq
    obtain ⟨f, q, hst, rfl⟩ := hjob c hc
    obtain ⟨f', q', hst', rfl⟩ := hjob c' hc'
    have := hgc.sources f q hst
    simp only at heq
    rw [heq] at this
    exact this (hgc.dests f' q' hst')
  have a2 : ∀ c ∈ l, ∀ c' ∈ l, c.2 = c'.2 → c.1 = c'.1 := by
    intro c hc c' hc' heq
    obtain ⟨f, q, hst, rfl⟩ := hjob c hc
    obtain ⟨f', q', hst', rfl⟩ := hjob c' hc'
    exact same_source hgc hst hst' heq
  by_cases hex : ∃ c ∈ l, c.2 = p ∧ ∃ x, texts d c.1 = some x
  · obtain ⟨c, hc, rfl, x, hx⟩ := hex
    obtain ⟨f, q, hst, rfl⟩ := hjob c hc
    exact .inr ⟨f, q, x, hst, rfl, hx, fold_mem clock l d a1 a2 _ hc x hx⟩
  · refine .inl (fold_missing clock l d p a1 fun c hc e => ?_)
    cases hx : texts d c.1 with
    | none => rfl
    | some x => exact absurd ⟨c, hc, e, x, hx⟩ hex

theorem copyCurrent_step (hg : Good S out cfg) (hgc : GoodCopy S out cfg) {d d' : Files} (hs : SameInputs out d d')
    (hd : ∀ f q, Static cfg f q → d' (dest S f q) = d (dest S f q) ∨
      ∃ x t, texts d (source S f q) = some x ∧ d' (dest S f q) = some (x, t))
    (hc : CopyCurrent S cfg d) : CopyCurrent S cfg d' := by
  intro f q hst x hx hold
  rw [← hs.text (hgc.sources f q hst)] at hx
  rcases hd f q hst with e | ⟨x', t, hx', e⟩
  · rw [old_congr e (hs _ hg.settingsFile).symm (hs _ (hgc.sources f q hst)).symm] at hold
    have := hc f q hst x hx hold
    unfold texts at this ⊢
    rw [e]
    exact this
  · rw [hx] at hx'
    injection hx' with hx'
    subst hx'
    unfold texts
    rw [e]
    rfl

/-! ## A round -/

/-- A round after the context is reloaded. -/
theorem round_runs {now : Int × Int} {d seen : Files} {w₀ w : Watcher} (hb : Base S out now d)
    (hi : Inv S out now d w seen) (hf : Fresh S out d w) (hw : S.reload disk d w₀ = some w) (clock : Str → Int × Int) :
    ∃ d' rv, S.round disk clock d (some w₀) = some (some w, d', rv) ∧ SameInputs out d d' ∧ Right S out d' ∧
      (S.config d = some w.cfg → (∀ d', SameInputs out d d' → S.look w d' = times d') →
        Lists S w.cfg d (fun f q => (times seen (source S f q)).isSome) w.copy →
        (rv = 0 → (∀ v, Wants S w.cfg d v → Done S w.cfg d d' v) ∧
          ∀ f q, Static w.cfg f q → (times seen (source S f q)).isSome →
            ∀ x, texts d (source S f q) = some x → texts d' (dest S f q) = some x) ∧
        (rv ≠ 0 → ∃ v, Wants S w.cfg d v ∧ ∀ text, ¬ Shows S w.cfg d v text)) := by
  have hg := hi.good
  have hgc := hi.goodCopy
  have hcfg : ∀ cfg, S.config d = some cfg → cfg = w.cfg := by
    intro cfg hcfg
    obtain ⟨u, hu⟩ := Option.isSome_iff_exists.1 (config_file hcfg)
    have := hi.cfg (hu.trans (hf.mem _ hg.settingsFile u hu).symm)
    rw [hcfg] at this
    exact Option.some.inj this
  obtain ⟨d₁, rv, g1, g2, g3, g4, g5, g6⟩ := rules_run hg clock (S.look w) d
  have hdest : ∀ f q, Static w.cfg f q → d₁ (dest S f q) = d (dest S f q) := by
    intro f q hst
    rcases g4 (dest S f q) with e | ⟨v, h1, h2⟩
    · exact e
    · exact absurd h2 (hgc.apart f q hst v (possible h1))
  have hcc := copyCurrent_step hg hgc g2 fun f q hst => .inl (hdest f q hst)
  have hright : ∀ d', SameInputs out d d' → (Current S w.cfg d → CopyCurrent S w.cfg d → Current S w.cfg d' ∧ CopyCurrent S w.cfg d') →
      Right S out d' := by
    intro d' hs h cfg hc hg' hgc'
    rw [same_config hg hs] at hc
    have e := hcfg cfg hc
    subst e
    obtain ⟨h1, h2⟩ := hb.right _ hc hg' hgc'
    exact h h1 h2
  unfold Setup.round
  simp only [hw, g1]
  by_cases hrv : rv = 0
  · subst hrv
    simp only [ne_eq, not_true_eq_false, if_false]
    have hk : ∀ x ∈ w.copy, ∃ f q t, Static w.cfg f q ∧ x = C89.ctxOf S.root (under f q) t := by
      intro x hx
      obtain ⟨f, q, t, h1, -, h2, -⟩ := hi.known x hx
      exact ⟨f, q, t, h1, h2⟩
    have honly := watchCopies_only hg hgc hk clock d₁
    have hs₁ : SameInputs out d₁ (S.watchCopies clock w d₁).1 := by
      intro p hp
      rcases honly p with e | ⟨f, q, x, hst, rfl, -⟩
      · exact e.symm
      · exact absurd (hgc.dests f q hst) hp
    have hout : ∀ v, Possible (base S w.cfg) v → d₁ v.output = (S.watchCopies clock w d₁).1 v.output := by
      intro v hv
      rcases honly v.output with e | ⟨f, q, x, hst, e, -⟩
      · exact e.symm
      · exact absurd e (hgc.apart f q hst v hv)
    have hs : SameInputs out d (S.watchCopies clock w d₁).1 := fun p hp => (g2 p hp).trans (hs₁ p hp)
    refine ⟨_, _, rfl, hs, hright _ hs fun h1 h2 => ⟨current_congr hg hs₁ hout (g3 h1), ?_⟩, ?_⟩
    · refine copyCurrent_step hg hgc hs₁ (fun f q hst => ?_) (hcc h2)
      rcases honly (dest S f q) with e | ⟨f', q', x, hst', e1, e2, e3⟩
      · exact .inl e
      · refine .inr ⟨x, _, ?_, e3⟩
        rw [same_source hgc hst hst' e1]
        exact e2
    · intro hc hlook hlist
      obtain ⟨h1, h2⟩ := hb.right _ hc hg hgc
      have hsrc : ∀ f q, Static w.cfg f q → d₁ (source S f q) = d (source S f q) := fun f q hst =>
        (g2 _ (hgc.sources f q hst)).symm
      have e : S.watchCopies clock w d₁ = copyList S w.cfg clock w.copy d₁ := by
        unfold Setup.watchCopies copyList
        rw [hlook d₁ g2]
      have hlist₁ : Lists S w.cfg d₁ (fun f q => (times seen (source S f q)).isSome) w.copy := by
        intro x
        rw [hlist x]
        constructor <;> rintro ⟨f, q, t, a1, a2, a3, a4⟩ <;> refine ⟨f, q, t, a1, a2, ?_, a4⟩
        · rw [same_times g2 (hgc.sources f q a1)]; exact a3
        · rw [← same_times g2 (hgc.sources f q a1)]; exact a3
      have hfile : (times d₁ S.settingsFile).isSome := by
        rw [same_times g2 hg.settingsFile]
        exact config_file hc
      obtain ⟨d', f1, f2, f3⟩ := list_files hg.ok.outDir hg.ok.settingsFile hgc d₁ _ w.copy hlist₁ hfile clock
      rw [e] at hout ⊢
      rw [f1] at hout ⊢
      refine ⟨fun _ => ⟨fun v hv => ?_, fun f q hst hs x hx => ?_⟩, fun h => absurd rfl h⟩
      · obtain ⟨text, t, a1, a2⟩ := g5 rfl h1 hlook v hv
        exact ⟨text, t, (hout v (possible hv)).symm.trans a1, a2⟩
      · rw [g2.text (hgc.sources f q hst)] at hx
        show texts d' _ = _
        rcases f3 f q hst hs x hx with ⟨-, e⟩ | ⟨hold, e⟩
        · unfold texts
          rw [e]
          rfl
        · have := hcc h2 f q hst x hx hold
          unfold texts at this ⊢
          rw [e]
          exact this
  · simp only [ne_eq, hrv, not_false_eq_true, if_true]
    exact ⟨_, _, rfl, g2, hright _ g2 fun h1 h2 => ⟨g3 h1, hcc h2⟩, fun _ _ _ => ⟨fun h => absurd h hrv, fun _ => g6 hrv⟩⟩

/-- The files to copy, if none is gone. -/
theorem lists_of {now : Int × Int} {d seen : Files} {w : Watcher} (hi : Inv S out now d w seen) (hf : Fresh S out d w)
    (hk : ∀ f q, Static w.cfg f q → (times seen (source S f q)).isSome → (times d (source S f q)).isSome) :
    Lists S w.cfg d (fun f q => (times seen (source S f q)).isSome) w.copy := by
  have hgc := hi.goodCopy
  have hpath : ∀ f q t, Static w.cfg f q → (C89.ctxOf S.root (under f q) t).path = source S f q := fun f q t hst =>
    abs_under _ _ (hgc.entries f hst.1) q
  have htime : ∀ f q t, Static w.cfg f q → C89.ctxOf S.root (under f q) t ∈ w.copy →
      ∀ u, times d (source S f q) = some u → u = t := by
    intro f q t hst hx u hu
    obtain ⟨f', q', t', h1, h2, h3⟩ := hf.copy _ hx
    have e1 := congrArg FileCtx.path h2
    rw [hpath f q t hst, hpath f' q' t' h1] at e1
    rw [e1] at hu
    have e2 : t = t' := Prod.ext (congrArg FileCtx.sec h2) (congrArg FileCtx.nsec h2)
    rw [e2]
    exact h3 u hu
  intro x
  constructor
  · intro hx
    obtain ⟨f, q, t, h1, h2, rfl, -⟩ := hi.known x hx
    obtain ⟨u, hu⟩ := Option.isSome_iff_exists.1 (hk f q h1 h2)
    have := htime f q t h1 hx u hu
    subst this
    exact ⟨f, q, u, h1, h2, hu, rfl⟩
  · rintro ⟨f, q, t, h1, h2, h3, rfl⟩
    obtain ⟨t', ht'⟩ := hi.all f q h1 h2
    have := htime f q t' h1 ht' t h3
    subst this
    exact ht'

/-- The invariant of watching. -/
theorem watched_inv {now : Int × Int} {d seen : Files} {w : Option Watcher} (h : Watched S disk out now d w seen) :
    Base S out now d ∧ ∀ v, w = some v → Inv S out now d v seen := by
  induction h with
  | start now d hr hnow hz hbound =>
    have hb : Base S out now d := ⟨hz, hbound, reached_current hr⟩
    exact ⟨hb, fun v hv => (open_inv hb hnow hv).1⟩
  | edit now d w seen p text t _ hp ht ih =>
    obtain ⟨hb, hi⟩ := ih
    refine ⟨⟨not_later_later hb.zero ht, ?_, right_edit hb.right p text t hp ?_⟩, fun v hv => inv_edit (hi v hv) ht hp⟩
    · intro q u hu
      rw [times_put] at hu
      split at hu
      · injection hu with hu
        subst hu
        show ¬ Later t t
        unfold Later
        omega
      · exact not_later_later (hb.bound q u hu) ht
    · intro q c u _ hq
      exact later_of ht (hb.bound q u (by unfold times; rw [hq]; rfl))
  | remove now d w seen p _ ih =>
    obtain ⟨hb, hi⟩ := ih
    refine ⟨⟨hb.zero, ?_, right_remove hb.right p⟩, fun v hv => inv_remove (hi v hv) p⟩
    intro q u hu
    rw [times_put] at hu
    split at hu
    · cases hu
    · exact hb.bound q u hu
  | round now now' d d' w w' seen seen' clock rv _ hnow hround hn hbound hnew hold ih =>
    obtain ⟨hb, hi⟩ := ih
    have hz := not_later_trans hb.zero hn
    have give_up : S.round disk clock d w = some (none, d, 1) →
        Base S out now' d' ∧ ∀ v, w' = some v → Inv S out now' d' v seen' := by
      intro e
      rw [hround] at e
      simp only [Option.some.injEq, Prod.mk.injEq] at e
      obtain ⟨rfl, rfl, -⟩ := e
      exact ⟨⟨hz, hbound, hb.right⟩, fun v hv => by cases hv⟩
    cases w with
    | none => exact give_up rfl
    | some w₀ =>
      have hi := hi w₀ rfl
      have go : ∀ w s, S.reload disk d w₀ = some w → Inv S out now d w s ∧ Fresh S out d w → seen' = s →
          Base S out now' d' ∧ ∀ v, w' = some v → Inv S out now' d' v seen' := by
        rintro w s hw ⟨h1, h2⟩ rfl
        obtain ⟨d'', rv', e, f1, f2, -⟩ := round_runs hb h1 h2 hw clock
        rw [hround] at e
        simp only [Option.some.injEq, Prod.mk.injEq] at e
        obtain ⟨rfl, rfl, rfl⟩ := e
        refine ⟨⟨hz, hbound, f2⟩, fun v hv => ?_⟩
        injection hv with hv
        subst hv
        exact inv_same h1 f1 hn
      by_cases hs : NewSettings S seen d
      · have e := reload_new (disk := disk) hi hs
        cases hw : S.watcher disk d with
        | none =>
          apply give_up
          unfold Setup.round
          simp only [e, hw]
        | some w => exact go w d (e.trans hw) (open_inv hb hnow hw) (hnew hs)
      · exact go _ seen (reload_old hi hs) (again_inv hb hi hs) (hold hs)

end Blogc.C109
