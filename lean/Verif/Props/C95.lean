import Verif.Model.Reloader

/-!
# C95: `blogc-make runserver` ends when the server ends, with its status
-/

namespace Blogc.C95

open Blogc Blogc.Reloader

/-- Any thread, and signals. -/
def any : Who → Prop := fun _ => True

/-- The threads only. -/
def quiet : Who → Prop := fun w => w ≠ .interrupt

/-- The main thread is in the loop that rebuilds the site. -/
def Loops : Main → Prop
  | .test | .reload | .build | .pause => True
  | _ => False

theorem Reach.inv {W : Who → Prop} {s t : State} (h : Reach W s t) (I : State → Prop) (h0 : I s)
    (hs : ∀ w t u, W w → I t → Step w t u → I u) : I t := by
  induction h with
  | refl => exact h0
  | step _ hw hstep ih => exact hs _ _ _ hw ih hstep

theorem Reach.trans {W : Who → Prop} {s t u : State} (h : Reach W s t) (h' : Reach W t u) : Reach W s u := by
  induction h' with
  | refl => exact h
  | step _ hw hstep ih => exact .step ih hw hstep

theorem Reach.any {W : Who → Prop} {s t : State} (h : Reach W s t) : Reach any s t := by
  induction h with
  | refl => exact .refl
  | step _ _ hstep ih => exact .step ih trivial hstep

/-! ## The status -/

/-- Where the status can come from. -/
def From (s : State) (status : Int) : Prop := status = 130 ∨ s.server = .gone status

structure Known (s : State) : Prop where
  loops : s.running = false → Loops s.main → From s s.code
  ended : ∀ status, s.main = .ended status → status = 1 ∨ From s status

theorem known_step {w : Who} {s t : State} (h : Known s) (hs : Step w s t) : Known t := by
  obtain ⟨h1, h2⟩ := h
  cases hs <;> constructor <;> grind [stop, Alive, Loops, From]

/-- The status of `blogc-make runserver`, if it ends: that of the server, or 130
after an interrupt, or 1 when the server could not be started. -/
theorem status_partial (d : Disp) (s : State) (status : Int) (h : Reach any (runserver d) s)
    (he : s.main = .ended status) : status = 1 ∨ status = 130 ∨ s.server = .gone status :=
  (Reach.inv h Known ⟨fun _ h => False.elim h, fun _ h => (by cases h)⟩ fun _ _ _ _ hi hs =>
    known_step hi hs).ended status he

/-- In particular it is successful only if the server was. -/
theorem success (d : Disp) (s : State) (h : Reach any (runserver d) s) (he : s.main = .ended 0) :
    s.server = .gone 0 := by
  rcases status_partial d s 0 h he with h | h | h
  · cases h
  · cases h
  · exact h

/-- The rule `watch` ends only when sigaction fails, or after an interrupt. -/
theorem watch_status (d : Disp) (s : State) (status : Int) (h : Reach any (watch d) s)
    (he : s.main = .ended status) : status = 1 ∨ status = 130 := by
  have key : (s.server = .gone 0 ∧ (s.running = false → Loops s.main → s.code = 130)) ∧
      ∀ status, s.main = .ended status → status = 1 ∨ status = 130 := by
    refine Reach.inv h (fun s => (s.server = .gone 0 ∧ (s.running = false → Loops s.main → s.code = 130)) ∧
      ∀ status, s.main = .ended status → status = 1 ∨ status = 130) ?_ ?_
    · exact ⟨⟨rfl, fun _ h => False.elim h⟩, fun _ h => (by cases h)⟩
    · rintro w t u - ⟨⟨h1, h2⟩, h3⟩ hs
      cases hs <;> refine ⟨⟨?_, ?_⟩, ?_⟩ <;> grind [stop, Alive, Loops]
  exact key.2 status he

/-! ## Ending -/

/-- What is left to do for the main thread when it is told to stop. -/
def left : Main → Nat
  | .reload => 4
  | .build => 3
  | .pause => 2
  | .test => 1
  | _ => 0

/-- `Moves n s t`: from `s` to `t` by any steps, of which `n` are of the main
thread. -/
inductive Moves : Nat → State → State → Prop where
  | refl (s : State) : Moves 0 s s
  | main {n : Nat} {s t u : State} : Moves n s t → Step .main t u → Moves (n + 1) s u
  | other {n : Nat} {s t u : State} {w : Who} : Moves n s t → w ≠ .main → Step w t u → Moves n s u

/-- The main thread was told to stop. -/
def Told (s : State) : Prop := s.running = false ∧ (Loops s.main ∨ ¬ Alive s)

theorem told_step {w : Who} {s t : State} (h : Told s) (hs : Step w s t) :
    Told t ∧ left t.main + (if w = .main then 1 else 0) ≤ left s.main := by
  unfold Told at *
  cases hs <;> refine ⟨⟨?_, ?_⟩, ?_⟩ <;> grind [stop, Alive, Loops, left]

/-- If the server ends while the main thread is rebuilding the site, then the main
thread is told: it takes at most four steps more (so it rebuilds the site at most
once), whatever happens at the same time; and before it has ended it can always
take its next step. -/
theorem ends_partial (s t u : State) (n : Nat) (rv : Int) (h1 : Loops s.main) (h2 : ∀ r, s.server ≠ .gone r)
    (h : Reach any s t) (hrv : t.server = .gone rv) (hm : Moves n t u) :
    n ≤ 4 ∧ (Alive u → ∃ v, Step .main u v) := by
  have key : (Loops t.main ∨ ¬ Alive t) ∧ ((∀ r, t.server ≠ .gone r) ∨ t.running = false) := by
    refine Reach.inv h (fun t => (Loops t.main ∨ ¬ Alive t) ∧ ((∀ r, t.server ≠ .gone r) ∨ t.running = false))
      ⟨Or.inl h1, Or.inl h2⟩ ?_
    rintro w t u - ⟨h1, h2⟩ hs
    cases hs <;> refine ⟨?_, ?_⟩ <;> grind [stop, Alive, Loops]
  have hr : t.running = false := by
    rcases key.2 with h | h
    · exact absurd hrv (h rv)
    · exact h
  have main : Told u ∧ n + left u.main ≤ left t.main := by
    clear h hrv
    induction hm with
    | refl t => exact ⟨⟨hr, key.1⟩, by omega⟩
    | main _ hs ih =>
      obtain ⟨a, b⟩ := ih key hr
      obtain ⟨c, d⟩ := told_step a hs
      refine ⟨c, ?_⟩
      simp only [if_true] at d
      omega
    | other _ hw hs ih =>
      obtain ⟨a, b⟩ := ih key hr
      obtain ⟨c, d⟩ := told_step a hs
      refine ⟨c, ?_⟩
      rw [if_neg hw] at d
      omega
  have h4 : left t.main ≤ 4 := by cases t.main <;> simp [left]
  refine ⟨by omega, fun ha => ?_⟩
  obtain ⟨⟨hu, hl | hl⟩, -⟩ := main
  · cases hm : u.main with
    | test => exact ⟨_, .finish u hm hu⟩
    | reload => exact ⟨_, .reloaded u false hm⟩
    | build => exact ⟨_, .built u hm⟩
    | pause => exact ⟨_, .paused u hm⟩
    | _ => rw [hm] at hl; exact absurd hl (by simp [Loops])
  · exact absurd ha hl

/-- While the site is watched, without a server, an interrupt ends the process at once. -/
theorem interrupted (s t : State) (h : Reach any (watch .default) s) (hl : Loops s.main)
    (hs : Step .interrupt s t) : t.main = .killed := by
  have key := Reach.inv h (fun s => (∃ n, s.server = .gone n) ∧ s.backup = .default ∧
      (s.main = .query → s.disp = .default) ∧ (∀ d, s.main = .install d → d = .default ∧ s.disp = .default) ∧
      (s.main = .lock ∨ s.main = .locked ∨ Loops s.main → s.disp = .handler) ∧
      (∀ n, s.main ≠ .poll n)) (by
    refine ⟨⟨0, rfl⟩, rfl, fun _ => rfl, ?_, ?_, ?_⟩ <;> simp [watch, Loops]) (by
    rintro w t u - ⟨h1, h2, h3, h4, h5, h6⟩ hs
    cases hs <;> refine ⟨?_, ?_, ?_, ?_, ?_, ?_⟩ <;> grind [stop, Alive, Loops])
  obtain ⟨-, h2, -, -, h5, -⟩ := key
  have h5 := h5 (Or.inr (Or.inr hl))
  cases hs with
  | kill => rfl
  | ignored _ _ _ h => rw [h5] at h; cases h
  | deadlock _ h _ => rw [h] at hl; exact False.elim hl
  | handled => simp [stop, h2]

/-- And it can be interrupted. -/
theorem interruptible (s : State) (h : Loops s.main) (hd : s.disp = .handler) : ∃ t, Step .interrupt s t := by
  refine ⟨_, .handled s ⟨?_, ?_⟩ ?_ ?_ hd⟩
  all_goals intros
  all_goals (intro e; rw [e] at h; exact h)

/-- While the main thread waits for the server thread it looks at most a hundred
times more; so it does not wait forever. -/
theorem polls (d : Disp) (s : State) (n : Nat) (h : Reach any (runserver d) s) (hp : s.main = .poll n) : n ≤ 100 := by
  have := Reach.inv h (fun s => ∀ n, s.main = .poll n → n ≤ 100) (by
    intro n hn
    cases hn
    omega) (by
    intro w t u _ hi hs
    cases hs <;> grind [stop, Alive])
  exact this n hp

/-- The site is not rebuilt before the server thread has begun. -/
theorem begun (d : Disp) (s : State) (h : Reach any (runserver d) s) (hl : Loops s.main) : s.server ≠ .begin := by
  have := Reach.inv h (fun s => s.server = .begin → s.starting = false ∧
      ((∃ n, s.main = .poll n) ∨ ¬ Alive s)) (by
    intro _
    exact ⟨rfl, Or.inl ⟨0, rfl⟩⟩) (by
    intro w t u _ hi hs
    cases hs <;> grind [stop, Alive])
  intro hb
  rcases (this hb).2 with ⟨n, h⟩ | h
  · rw [h] at hl; exact hl
  · apply h
    unfold Alive
    constructor
    · intro h; rw [h] at hl; exact hl
    · intro st h; rw [h] at hl; exact hl

/-! ## What goes wrong -/

/-- The property fails: when the server ends before the main thread has set
`running`, the main thread is not told; it goes on forever without a server, unless
it is interrupted. -/
theorem forever_violated : ∃ s rv, Reach quiet (runserver .default) s ∧ s.server = .gone rv ∧
    ∀ t, Reach quiet s t → Alive t := by
  let s0 := runserver .default
  let s1 : State := { s0 with server := .read, starting := true }
  let s2 : State := { s1 with main := .query }
  let s3 : State := { s2 with server := .serve, disp := .ignore }
  let s4 : State := { s3 with server := .over 1, disp := .default }
  let s5 : State := { s4 with server := .clear 1, starting := false }
  let s6 : State := { s5 with server := .gone 1, code := 1 }
  let s7 : State := { s6 with main := .install .default }
  let s8 : State := { s7 with main := .lock, disp := .handler }
  let s9 : State := { s8 with main := .locked }
  let s10 : State := { s9 with main := .test, running := true }
  have alive : ∀ m : Main, m ≠ .killed ∧ (∀ st, m ≠ .ended st) → ∀ s : State, s.main = m → Alive s := by
    intro m h s e
    unfold Alive
    rw [e]
    exact h
  have a0 : Alive s0 := alive (.poll 0) (by simp) _ rfl
  have a1 : Alive s2 := alive .query (by simp) _ rfl
  have a2 : Alive s3 := alive .query (by simp) _ rfl
  have a3 : Alive s4 := alive .query (by simp) _ rfl
  have a4 : Alive s5 := alive .query (by simp) _ rfl
  have q : ∀ w : Who, w ≠ .interrupt → quiet w := fun _ h => h
  have r : Reach quiet s0 s10 :=
    (((((((((((Reach.refl (W := quiet) (s := s0)).step (u := s1) (q .server (by decide)) (.begin s0 a0 rfl)).step
      (u := s2) (q .main (by decide)) (.started s1 0 rfl rfl)).step
      (u := s3) (q .server (by decide)) (.read s2 a1 rfl)).step
      (u := s4) (q .server (by decide)) (.served s3 1 a2 rfl)).step
      (u := s5) (q .server (by decide)) (.over s4 1 a3 rfl)).step
      (u := s6) (q .server (by decide)) (.clear s5 1 a4 rfl (by decide) (by decide))).step
      (u := s7) (q .main (by decide)) (.query s6 rfl)).step
      (u := s8) (q .main (by decide)) (.install s7 .default rfl (by decide))).step
      (u := s9) (q .main (by decide)) (.lock s8 rfl)).step
      (u := s10) (q .main (by decide)) (.unlock s9 rfl))
  refine ⟨s10, 1, r, rfl, ?_⟩
  intro t ht
  have := Reach.inv ht (fun t => t.server = .gone 1 ∧ t.running = true ∧ Loops t.main) ⟨rfl, rfl, trivial⟩ (by
    rintro w t u hw ⟨h1, h2, h3⟩ hs
    cases hs <;> refine ⟨?_, ?_, ?_⟩ <;> grind [stop, Alive, Loops, quiet])
  obtain ⟨-, -, h3⟩ := this
  unfold Alive
  constructor
  · intro h; rw [h] at h3; exact h3
  · intro st h; rw [h] at h3; exact h3

/-- An interrupt at the wrong moment does not end the rule `watch`, and neither does
any other after it: the handler waits for the mutex that the interrupted thread
holds. -/
theorem deadlock_violated : ∃ s, Reach any (watch .default) s ∧ s.main = .stuck ∧
    ∀ t, Reach any s t → t.main = .stuck := by
  let s0 := watch .default
  let s1 : State := { s0 with main := .install .default }
  let s2 : State := { s1 with main := .lock, disp := .handler }
  let s3 : State := { s2 with main := .locked }
  let s4 : State := { s3 with main := .stuck }
  have r : Reach any s0 s4 :=
    (((Reach.refl (W := any) (s := s0)).step (u := s1) (w := .main) trivial (.query s0 rfl)).step
      (u := s2) (w := .main) trivial (.install s1 .default rfl (by decide))).step
      (u := s3) (w := .main) trivial (.lock s2 rfl) |>.step (u := s4) (w := .interrupt) trivial (.deadlock s3 rfl rfl)
  refine ⟨s4, r, rfl, ?_⟩
  intro t ht
  refine Reach.inv ht (fun t => t.main = .stuck) rfl ?_
  intro w t u _ h hs
  cases hs <;> grind [stop, Alive]

/-- The server thread can read memory that the main thread has freed: the main
thread goes on as soon as the server thread has begun, and a change of the settings
makes it free the context that the server thread has not read yet. -/
theorem freed_violated : ∃ s, Reach quiet (runserver .default) s ∧ s.bad = true := by
  let s0 := runserver .default
  let s1 : State := { s0 with server := .read, starting := true }
  let s2 : State := { s1 with main := .query }
  let s3 : State := { s2 with main := .install .default }
  let s4 : State := { s3 with main := .lock, disp := .handler }
  let s5 : State := { s4 with main := .locked }
  let s6 : State := { s5 with main := .test, running := true }
  let s7 : State := { s6 with main := .reload }
  let s8 : State := { s7 with main := .build, freed := true }
  let s9 : State := { s8 with server := .serve, bad := true, saved := .handler, disp := .ignore }
  have a0 : Alive s0 := ⟨by simp [s0, runserver], by simp [s0, runserver]⟩
  have a8 : Alive s8 := ⟨by simp [s8], by simp [s8]⟩
  have q : ∀ w : Who, w ≠ .interrupt → quiet w := fun _ h => h
  refine ⟨s9, ?_, rfl⟩
  exact ((((((((((Reach.refl (W := quiet) (s := s0)).step (u := s1) (q .server (by decide)) (.begin s0 a0 rfl)).step
      (u := s2) (q .main (by decide)) (.started s1 0 rfl rfl)).step
      (u := s3) (q .main (by decide)) (.query s2 rfl)).step
      (u := s4) (q .main (by decide)) (.install s3 .default rfl (by decide))).step
      (u := s5) (q .main (by decide)) (.lock s4 rfl)).step
      (u := s6) (q .main (by decide)) (.unlock s5 rfl)).step
      (u := s7) (q .main (by decide)) (.again s6 rfl rfl)).step
      (u := s8) (q .main (by decide)) (.reloaded s7 true rfl)).step
      (u := s9) (q .server (by decide)) (.read s8 a8 rfl))

/-- Once the server was started with memory that is still there, it never reads
freed memory. -/
theorem freed_partial (s t : State) (h1 : s.server ≠ .begin) (h2 : s.server ≠ .read) (h3 : s.bad = false)
    (h : Reach any s t) : t.bad = false := by
  have := Reach.inv h (fun s => s.server ≠ .begin ∧ s.server ≠ .read ∧ s.bad = false) ⟨h1, h2, h3⟩ (by
    rintro w t u - ⟨h1, h2, h3⟩ hs
    cases hs <;> refine ⟨?_, ?_, ?_⟩ <;> grind [stop])
  exact this.2.2

/-! ## A sample: the server ends with status 3 during a rebuild -/

def before : State := ⟨.build, .serve, true, true, 0, .ignore, .default, .handler, false, false⟩
def gone : State := ⟨.build, .gone 3, false, false, 3, .handler, .default, .handler, false, false⟩

example : Reach any (runserver .default) before := by
  have a0 : Alive (runserver .default) := ⟨by simp [runserver], by simp [runserver]⟩
  refine .step (w := .main) ?_ trivial (.reloaded { before with main := .reload } false rfl)
  refine .step (w := .main) ?_ trivial (.again { before with main := .test } rfl rfl)
  refine .step (w := .main) ?_ trivial (.unlock { before with main := .locked, running := false } rfl)
  refine .step (w := .main) ?_ trivial (.lock { before with main := .lock, running := false } rfl)
  refine .step (w := .server) ?_ trivial
    (.read ⟨.lock, .read, true, false, 0, .handler, .default, .default, false, false⟩ ⟨by simp, by simp⟩ rfl)
  refine .step (w := .main) ?_ trivial
    (.install ⟨.install .default, .read, true, false, 0, .default, .default, .default, false, false⟩ .default rfl
      (by decide))
  refine .step (w := .main) ?_ trivial
    (.query ⟨.query, .read, true, false, 0, .default, .default, .default, false, false⟩ rfl)
  refine .step (w := .main) ?_ trivial
    (.started ⟨.poll 0, .read, true, false, 0, .default, .default, .default, false, false⟩ 0 rfl rfl)
  exact .step (w := .server) .refl trivial (.begin (runserver .default) a0 rfl)

example : Loops before.main ∧ (∀ r, before.server ≠ .gone r) ∧ Reach any before gone := by
  refine ⟨trivial, by simp [before], ?_⟩
  refine .step (w := .server) ?_ trivial
    (.clear { gone with server := .clear 3, running := true, code := 0 } 3 ⟨by simp [gone], by simp [gone]⟩ rfl
      (by decide) (by decide))
  refine .step (w := .server) ?_ trivial
    (.over { gone with server := .over 3, running := true, code := 0, starting := true } 3
      ⟨by simp [gone], by simp [gone]⟩ rfl)
  exact .step (w := .server) .refl trivial (.served before 3 ⟨by simp [before], by simp [before]⟩ rfl)

example : Moves 3 gone { gone with main := .ended 3 } := by
  refine .main (t := { gone with main := .test }) ?_ (.finish _ rfl rfl)
  refine .main (t := { gone with main := .pause }) ?_ (.paused _ rfl)
  exact .main (.refl gone) (.built _ rfl)

end Blogc.C95
