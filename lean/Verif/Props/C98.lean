import Verif.Props.C50
import Mathlib.Data.Nat.ModEq

/-!
# C98: clients of the web server and each other
-/

namespace Blogc.C98

open Blogc.Threads

/-! ## Specification -/

/-- Steps of the server itself, in which no request ends and nothing fails. -/
inductive Advances (max : Nat) : State → State → Prop where
  | refl (s : State) : Advances max s s
  | step {s s' s'' : State} : Advances max s s' → Step max s' s'' → s''.done = s'.done → s''.pc ≠ .stopped →
      Advances max s s''

/-- All requests so far are answered. -/
def Idle (s : State) : Prop := ∀ t < s.next, t ∈ s.done

/-- All requests so far are answered, but one. -/
def IdleBut (t : Nat) (s : State) : Prop := t < s.next ∧ ∀ u < s.next, u ∈ s.done ↔ u ≠ t

/-! ## Round robin -/

structure Robin (max : Nat) (s : State) : Prop where
  len : s.slots.length = max
  cur : s.current = s.next % max
  slot : ∀ k t : Nat, s.slots[k]? = some (some t) → t < s.next ∧ s.next ≤ t + max ∧ t % max = k
  empty : ∀ k : Nat, s.slots[k]? = some none → s.next ≤ k
  create : s.pc = .create → ∀ t, s.slots[s.current]? = some (some t) → t ∈ s.done

theorem nextSlot_mod (max n : Nat) (h : 0 < max) : nextSlot max (n % max) = (n + 1) % max := by
  unfold nextSlot
  have hlt := Nat.mod_lt n h
  split
  · have : n % max + 1 = max := by omega
    rw [Nat.add_mod, ← Nat.mod_add_mod] 
    rcases Nat.lt_or_ge 1 max with h1 | h1
    · rw [Nat.mod_eq_of_lt h1, Nat.mod_mod, this, Nat.mod_self]
    · have : max = 1 := by omega
      subst this; simp [Nat.mod_one]
  · rw [Nat.add_mod, Nat.mod_eq_of_lt (a := 1) (by omega), Nat.mod_eq_of_lt (a := n % max + 1) (by omega)]

theorem robin_init (max : Nat) : Robin max (init max) := by
  refine ⟨by simp [init], by simp [init], ?_, ?_, ?_⟩
  · intro k t h
    simp [init, List.getElem?_replicate] at h
  · intro k _
    simp [init]
  · intro h; cases h

/-- The thread in a slot that comes round again is the one started `max` threads ago. -/
theorem eq_of_mod {max n t : Nat} (hm : 0 < max) (h1 : t < n) (h2 : n ≤ t + max) (h3 : t % max = n % max) : n = t + max := by
  obtain ⟨d, rfl⟩ : ∃ d, n = t + d := ⟨n - t, by omega⟩
  have h4 : d % max = 0 := by
    have : t + d ≡ t + 0 [MOD max] := by simpa [Nat.ModEq] using h3.symm
    exact Nat.ModEq.add_left_cancel' t this
  rcases Nat.lt_or_ge d max with h | h
  · rw [Nat.mod_eq_of_lt h] at h4; omega
  · omega

theorem robin_step (max : Nat) (hm : 0 < max) (s s' : State) (h : Robin max s) (hs : Step max s s') : Robin max s' := by
  cases hs with
  | accepted hp => exact ⟨h.len, h.cur, h.slot, h.empty, fun e => by cases e⟩
  | acceptFailed hp => exact ⟨h.len, h.cur, h.slot, h.empty, fun e => by cases e⟩
  | noJoin hp hn => exact ⟨h.len, h.cur, h.slot, h.empty, fun _ t ht => by rw [hn] at ht; cases ht⟩
  | joined t hp hn hd =>
    exact ⟨h.len, h.cur, h.slot, h.empty, fun _ u hu => by
      change s.slots[s.current]? = _ at hu
      rw [hn] at hu; cases hu; exact hd⟩
  | joinFailed t hp hn => exact ⟨h.len, h.cur, h.slot, h.empty, fun e => by cases e⟩
  | createFailed hp => exact ⟨h.len, h.cur, h.slot, h.empty, fun e => by cases e⟩
  | finished t h1 h2 =>
    exact ⟨h.len, h.cur, h.slot, h.empty, fun e u hu => List.mem_cons_of_mem _ (h.create e u hu)⟩
  | created hp =>
    have hcur : s.current < max := by rw [h.cur]; exact Nat.mod_lt _ hm
    refine ⟨by simp [h.len], ?_, ?_, ?_, fun e => by cases e⟩
    · show nextSlot max s.current = _
      rw [h.cur, nextSlot_mod _ _ hm]
    · intro k t ht
      change (s.slots.set s.current (some s.next))[k]? = _ at ht
      rw [List.getElem?_set] at ht
      show t < s.next + 1 ∧ s.next + 1 ≤ t + max ∧ _
      split at ht
      · rename_i e
        rw [if_pos (by rw [h.len]; exact hcur)] at ht
        cases ht
        exact ⟨by omega, by omega, by rw [← e, h.cur]⟩
      · rename_i e
        obtain ⟨h1, h2, h3⟩ := h.slot k t ht
        refine ⟨by omega, ?_, h3⟩
        rcases Nat.lt_or_ge s.next (t + max) with h4 | h4
        · omega
        · have : s.next = t + max := by omega
          exact absurd (by rw [h.cur, this, Nat.add_mod_right, h3]) e
    · intro k ht
      change (s.slots.set s.current (some s.next))[k]? = _ at ht
      rw [List.getElem?_set] at ht
      show s.next + 1 ≤ k
      split at ht
      · rename_i e
        rw [if_pos (by rw [h.len]; exact hcur)] at ht
        cases ht
      · rename_i e
        have h1 := h.empty k ht
        have hk : k < max := by
          rw [← h.len]
          exact (List.getElem?_eq_some_iff.1 ht).1
        rcases Nat.lt_or_ge s.next k with h2 | h2
        · omega
        · have : s.next = k := by omega
          exact absurd (by rw [h.cur, this, Nat.mod_eq_of_lt hk]) e

theorem robin (max : Nat) (hm : 0 < max) (s : State) (h : Reaches max s) : Robin max s := by
  induction h with
  | init => exact robin_init max
  | step _ hs ih => exact robin_step max hm _ _ ih hs

/-! ## Theorems -/

/-- While a request is not answered, at most `max - 1` further requests are taken
care of, however many threads are idle. -/
theorem starves (max : Nat) (hm : 0 < max) (s : State) (h : Reaches max s) (t : Nat) (ht : t < s.next) (hd : t ∉ s.done) :
    s.next ≤ t + max := by
  obtain ⟨k, hk⟩ := (C50.inv_reaches max hm s h).live t ht hd
  exact ((robin max hm s h).slot k t hk).2.1

/-- Nobody waits once all earlier requests are answered: the next connection is
accepted, and a thread is started for it. -/
theorem serves_partial (max : Nat) (hm : 0 < max) (s : State) (h : Reaches max s) (hi : Idle s) (hp : s.pc ≠ .stopped) :
    ∃ s', Advances max s s' ∧ s'.next = s.next + 1 := by
  have create : ∀ s : State, s.pc = .create → ∃ s', Advances max s s' ∧ s'.next = s.next + 1 := fun s hc =>
    ⟨_, .step (.refl s) (.created s hc) rfl (by simp), rfl⟩
  have trans : ∀ {a b c : State}, Advances max a b → Advances max b c → Advances max a c := by
    intro a b c h1 h2
    induction h2 with
    | refl => exact h1
    | step _ hs hd hp ih => exact .step ih hs hd hp
  have join : ∀ s : State, Reaches max s → Idle s → s.pc = .join → ∃ s', Advances max s s' ∧ s'.next = s.next + 1 := by
    intro s h hi hj
    have hr := robin max hm s h
    have hcur : s.current < s.slots.length := by rw [hr.len, hr.cur]; exact Nat.mod_lt _ hm
    cases hs : s.slots[s.current]'hcur with
    | none =>
      obtain ⟨s', h1, h2⟩ := create { s with pc := .create } rfl
      exact ⟨s', trans (.step (.refl s) (.noJoin s hj (by rw [List.getElem?_eq_getElem hcur, hs])) rfl (by simp)) h1, h2⟩
    | some t =>
      have he : s.slots[s.current]? = some (some t) := by rw [List.getElem?_eq_getElem hcur, hs]
      obtain ⟨s', h1, h2⟩ := create { s with pc := .create, trace := s.trace ++ [.join t] } rfl
      exact ⟨s', trans (.step (.refl s) (.joined s t hj he (hi t (hr.slot _ _ he).1)) rfl (by simp)) h1, h2⟩
  cases hpc : s.pc with
  | stopped => exact absurd hpc hp
  | create => exact create s hpc
  | join => exact join s h hi hpc
  | accept =>
    obtain ⟨s', h1, h2⟩ := join _ (.step h (.accepted s hpc)) hi rfl
    exact ⟨s', trans (.step (.refl s) (.accepted s hpc) rfl (by simp)) h1, h2⟩

/-- The state after `n` requests of which all but the first are answered. -/
theorem busy (max : Nat) (n : Nat) (h1 : 1 ≤ n) (h2 : n ≤ max) :
    ∃ s, Reaches max s ∧ s.pc = .accept ∧ s.next = n ∧ IdleBut 0 s := by
  have hm : 0 < max := by omega
  induction n with
  | zero => omega
  | succ n ih =>
    rcases Nat.eq_zero_or_pos n with rfl | hn
    · have hz : (init max).slots[(init max).current]? = some none := by simp [init, hm]
      refine ⟨_, .step (.step (.step .init (.accepted _ rfl)) (.noJoin _ rfl hz)) (.created _ rfl), rfl, rfl, ?_⟩
      refine ⟨Nat.one_pos, fun u hu => ?_⟩
      change u < 1 at hu
      obtain rfl : u = 0 := by omega
      simp [init]
    · obtain ⟨s, hr, hpc, hnext, hi⟩ := ih hn (by omega)
      have rob := robin max hm s hr
      have hcur : s.current = n := by rw [rob.cur, hnext, Nat.mod_eq_of_lt (by omega)]
      have hslot : s.slots[s.current]? = some none := by
        have hlt : s.current < s.slots.length := by rw [rob.len, hcur]; omega
        rw [List.getElem?_eq_getElem hlt]
        cases e : s.slots[s.current]'hlt with
        | none => rfl
        | some t =>
          have := rob.slot s.current t (by rw [List.getElem?_eq_getElem hlt, e])
          rw [hcur, hnext] at this
          rw [Nat.mod_eq_of_lt (by omega)] at this
          omega
      have hdone : n ∉ s.done := fun hd => by
        have := (C50.inv_reaches max hm s hr).doneLt n hd
        omega
      refine ⟨_, .step (.step (.step (.step hr (.accepted s hpc)) (.noJoin _ rfl hslot)) (.created _ rfl))
        (.finished _ n ?_ hdone), rfl, ?_, ?_⟩
      · show n < s.next + 1
        omega
      · show s.next + 1 = _
        omega
      · refine ⟨?_, fun u hu => ?_⟩
        · show 0 < s.next + 1
          omega
        · change u < s.next + 1 at hu
          show u ∈ n :: s.done ↔ u ≠ 0
          rw [List.mem_cons]
          by_cases e : u = n
          · subst e
            simp; omega
          · rw [hi.2 u (by omega)]
            simp [e]

/-- One client that sends nothing makes all others wait: with any number of threads,
the server can come to a state in which a connection waits to be served, all threads
but one are idle, and nothing happens until the silent client is done. -/
theorem silent_violated (max : Nat) (hm : 0 < max) : ∃ s, Reaches max s ∧ s.pc = .join ∧ IdleBut 0 s ∧
    ∀ s', Step max s s' → s'.pc ≠ .stopped → 0 ∈ s'.done := by
  obtain ⟨s, hr, hpc, hnext, hi⟩ := busy max max (by omega) (Nat.le_refl _)
  have hr' := Reaches.step hr (.accepted s hpc)
  refine ⟨_, hr', rfl, hi, ?_⟩
  have rob := robin max hm s hr
  have hcur : s.current = 0 := by rw [rob.cur, hnext, Nat.mod_self]
  have h0 : (0 : Nat) ∉ s.done := fun hd => (hi.2 0 hi.1).1 hd rfl
  obtain ⟨k, hk⟩ := (C50.inv_reaches max hm s hr).live 0 hi.1 h0
  have hk0 : k = 0 := by have := (rob.slot k 0 hk).2.2; simpa using this.symm
  subst hk0
  intro s' hs hns
  generalize hq : ({ s with pc := PC.join } : State) = q at hs
  cases hs with
  | accepted hp => subst hq; cases hp
  | acceptFailed hp => exact absurd rfl hns
  | noJoin hp hn =>
    subst hq
    change s.slots[s.current]? = _ at hn
    rw [hcur, hk] at hn; cases hn
  | joined t hp hn hd =>
    subst hq
    change s.slots[s.current]? = _ at hn
    rw [hcur, hk] at hn; cases hn
    exact absurd hd h0
  | joinFailed t hp hn => exact absurd rfl hns
  | created hp => subst hq; cases hp
  | createFailed hp => exact absurd rfl hns
  | finished t h1 h2 =>
    subst hq
    show 0 ∈ t :: s.done
    by_cases e : t = 0
    · simp [e]
    · exact absurd ((hi.2 t h1).2 e) h2

/-- A connection that cannot be accepted, for instance because the client gave up
early, ends the server for everyone. -/
theorem aborted_violated (max : Nat) (s : State) (h : Reaches max s) (hp : s.pc = .accept) :
    ∃ s', Step max s s' ∧ Reaches max s' ∧ s'.pc = .stopped ∧ ∀ s'', Advances max s' s'' → s''.next = s'.next := by
  refine ⟨_, .acceptFailed s hp, .step h (.acceptFailed s hp), rfl, ?_⟩
  intro s'' ha
  have : s''.next = s.next ∧ s''.pc = .stopped := by
    induction ha with
    | refl => exact ⟨rfl, rfl⟩
    | step _ hs hd hne ih =>
      obtain ⟨h1, h2⟩ := ih
      cases hs <;> simp_all
  exact this.1

/-! Non-vacuity: two requests of two threads, both answered. -/

example : ∃ s, Reaches 2 s ∧ Idle s ∧ s.pc = .accept ∧ s.next = 2 := by
  refine ⟨_, .step (.step (.step (.step (.step (.step (.step (.step .init
    (.accepted _ rfl)) (.noJoin _ rfl rfl)) (.created _ rfl)) (.finished _ 0 (by decide) (by decide)))
    (.accepted _ rfl)) (.noJoin _ rfl rfl)) (.created _ rfl)) (.finished _ 1 (by decide) (by decide)), ?_, rfl, rfl⟩
  unfold Idle
  decide

example : ∃ s, Reaches 3 s ∧ 0 < s.next ∧ 0 ∉ s.done := by
  obtain ⟨s, h1, -, -, h2⟩ := busy 3 2 (by omega) (by omega)
  exact ⟨s, h1, h2.1, fun h => (h2.2 0 h2.1).1 h rfl⟩

end Blogc.C98
