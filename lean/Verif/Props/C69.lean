import Verif.Props.C60

/-!
# C69: the last edit of the settings is used while watching
-/

namespace Blogc.C69

open Blogc Blogc.Watch Blogc.C60

variable {S : Type}

/-- The moments when the settings file is looked at, in order: three in each
round. -/
def seen (rounds : Nat → Round) (t : Nat) : Option File :=
  if t % 3 = 0 then (rounds (t / 3)).probe
  else if t % 3 = 1 then (rounds (t / 3)).read
  else (rounds (t / 3)).stat

/-- The settings are valid whenever they are looked at. -/
def Valid (parse : Str → Option S) (rounds : Nat → Round) : Prop :=
  ∀ t, ∃ f s, seen rounds t = some f ∧ parse f.content = some s

/-- The property: once the file stays as it is, the site is built with it in some
later round. The files seen are dated (every edit gives a later time) and follow
the file `f0` that the watcher started with. -/
def UsesLast (parse : Str → Option S) (rounds : Nat → Round) (c0 : Ctx S) : Prop :=
  ∀ n f s, (∀ t, n ≤ t → seen rounds t = some f) → parse f.content = some s →
    ∃ m, n ≤ 3 * m ∧ buildAt parse rounds (some c0) m = some s

theorem seen_probe (rounds : Nat → Round) (n : Nat) : seen rounds (3 * n) = (rounds n).probe := by
  simp [seen]

theorem seen_read (rounds : Nat → Round) (n : Nat) : seen rounds (3 * n + 1) = (rounds n).read := by
  rw [seen, if_neg (by omega), if_pos (by omega), show (3 * n + 1) / 3 = n by omega]

theorem seen_stat (rounds : Nat → Round) (n : Nat) : seen rounds (3 * n + 2) = (rounds n).stat := by
  rw [seen, if_neg (by omega), if_neg (by omega), show (3 * n + 2) / 3 = n by omega]

/-- Proved part: the last edit is used if the file is never edited in the short
time between the reading of its content and the reading of its time (and is
always valid). Missing: edits in that time, for which the property is false
(`race_violated`). -/
theorem uses_last_partial (parse : Str → Option S) (rounds : Nat → Round) (c0 : Ctx S) (f0 : File)
    (h0 : Fresh parse c0 f0) (hold : ∀ t g, seen rounds t = some g → f0 = g ∨ f0.mtime < g.mtime)
    (hdated : Dated (seen rounds)) (hvalid : Valid parse rounds) (hrace : ∀ n, (rounds n).read = (rounds n).stat) :
    UsesLast parse rounds c0 := by
  have inv : ∀ n, ∃ c f, ctxAt parse rounds (some c0) n = some c ∧ Fresh parse c f ∧
      ∀ t g, 3 * n ≤ t → seen rounds t = some g → f = g ∨ f.mtime < g.mtime := by
    intro n
    induction n with
    | zero => exact ⟨c0, f0, rfl, h0, fun t g _ hg => hold t g hg⟩
    | succ n ih =>
      obtain ⟨c, f, h1, h2, h3⟩ := ih
      obtain ⟨p, sp, hp, hsp⟩ := hvalid (3 * n)
      obtain ⟨g, s, hg, hs⟩ := hvalid (3 * n + 1)
      rw [ctxAt, h1]
      rw [seen_probe] at hp
      have hst := hrace n
      have hg1 : (rounds n).read = some g := by rw [← seen_read]; exact hg
      rw [hg1] at hst
      cases hch : changed c (some p) with
      | true =>
        refine ⟨⟨s, g.mtime⟩, g, ?_, ⟨rfl, hs⟩, fun t g' ht hg' => hdated _ t g g' (by omega) hg hg'⟩
        simp only [round, reload, hp, hch, if_true, ctxNew, hg1, hs, ← hst]
      | false =>
        refine ⟨c, f, ?_, h2, fun t g' ht hg' => h3 t g' (by omega) hg'⟩
        simp [round, reload, hp, hch]
  intro n f s hf hs
  obtain ⟨c, f', h1, h2, h3⟩ := inv n
  refine ⟨n, by omega, ?_⟩
  have e0 := hf (3 * n) (by omega)
  have e1 := hf (3 * n + 1) (by omega)
  rw [seen_probe] at e0
  rw [seen_read] at e1
  have e2 := hrace n
  rw [e1] at e2
  rw [buildAt, h1]
  rcases h3 (3 * n) f (by omega) (hf _ (by omega)) with rfl | hlt
  · have hnc : changed c (some f') = false := by simp [changed, h2.1]
    have := h2.2
    rw [hs] at this
    simp only [round, reload, e0, hnc]
    simpa using this.symm
  · have hc : changed c (some f) = true := by simpa [changed, h2.1] using hlt
    simp [round, reload, e0, hc, ctxNew, e1, hs]

/-- The rounds of the counterexample: in the first round the file is edited after
its content was read and before its time is read. -/
def raceRounds (n : Nat) : Round :=
  if n = 0 then ⟨some ⟨2, b!"b"⟩, some ⟨2, b!"b"⟩, some ⟨3, b!"c"⟩⟩
  else ⟨some ⟨3, b!"c"⟩, some ⟨3, b!"c"⟩, some ⟨3, b!"c"⟩⟩

theorem race_seen (t : Nat) : seen raceRounds t = if t < 2 then some ⟨2, b!"b"⟩ else some ⟨3, b!"c"⟩ := by
  match t with
  | 0 => decide
  | 1 => decide
  | 2 => decide
  | t + 3 =>
    rw [if_neg (by omega)]
    have h : raceRounds ((t + 3) / 3) = ⟨some ⟨3, b!"c"⟩, some ⟨3, b!"c"⟩, some ⟨3, b!"c"⟩⟩ := by
      rw [raceRounds, if_neg (by omega)]
    rw [seen, h]
    split
    · rfl
    · split <;> rfl

/-- The property fails: an edit between the reading of the settings and the
reading of their time is never used. -/
theorem race_violated : ∃ (parse : Str → Option Str) (rounds : Nat → Round) (c0 : Ctx Str) (f0 : File),
    Fresh parse c0 f0 ∧ (∀ t g, seen rounds t = some g → f0 = g ∨ f0.mtime < g.mtime) ∧ Dated (seen rounds) ∧
    Valid parse rounds ∧ ¬ UsesLast parse rounds c0 := by
  refine ⟨some, raceRounds, ⟨b!"a", 1⟩, ⟨1, b!"a"⟩, ⟨rfl, rfl⟩, ?_, ?_, ?_, ?_⟩
  · intro t g hg
    rw [race_seen] at hg
    split at hg <;> (right; cases hg; decide)
  · intro i j f g hij hf hg
    rw [race_seen] at hf hg
    split at hf <;> split at hg
    · left; cases hf; cases hg; rfl
    · right; cases hf; cases hg; decide
    · omega
    · left; cases hf; cases hg; rfl
  · intro t
    rw [race_seen]
    split
    · exact ⟨_, _, rfl, rfl⟩
    · exact ⟨_, _, rfl, rfl⟩
  · intro h
    obtain ⟨m, _, hm⟩ := h 2 ⟨3, b!"c"⟩ b!"c" (fun t ht => by rw [race_seen, if_neg (by omega)]) rfl
    have key : ∀ n, ctxAt some raceRounds (some ⟨b!"a", 1⟩) (n + 1) = some ⟨b!"b", 3⟩ := by
      intro n
      induction n with
      | zero => decide
      | succ n ih =>
        rw [ctxAt, ih, raceRounds, if_neg (by omega)]
        decide
    cases m with
    | zero => exact absurd hm (by decide)
    | succ n =>
      rw [buildAt, key, raceRounds, if_neg (by omega)] at hm
      exact absurd hm (by decide)

/-- Rounds as in `uses_last_partial`: an edit before the probe of round 1. -/
example : ∃ rounds : Nat → Round, (∀ n, (rounds n).read = (rounds n).stat) ∧
    buildAt some rounds (some ⟨b!"a", 1⟩) 0 = some b!"a" ∧ buildAt some rounds (some ⟨b!"a", 1⟩) 1 = some b!"b" := by
  refine ⟨fun n => if n = 0 then steady (some ⟨1, b!"a"⟩) else steady (some ⟨2, b!"b"⟩), ?_, by decide, by decide⟩
  intro n
  simp only
  split <;> rfl

end Blogc.C69
