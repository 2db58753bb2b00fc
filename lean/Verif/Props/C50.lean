import Verif.Model.Threads

/-!
# C50: worker thread slots are reused only after their thread ended
-/

namespace Blogc.C50

open Blogc.Threads

/-- The threads started in a history. -/
def started (tr : List Event) : List Nat :=
  tr.filterMap fun | .start _ t => some t | _ => none

/-- The threads started and not ended after a history. -/
def live (tr : List Event) : List Nat := (started tr).filter fun t => .finish t ∉ tr

/-- The threads joined in a history. -/
def joins (tr : List Event) : List Nat :=
  tr.filterMap fun | .join t => some t | _ => none

/-- Whenever a thread is started in a slot, the earlier threads of this slot have
ended and been joined. -/
def SlotsReusedAfterJoin (tr : List Event) : Prop :=
  ∀ before after k t, tr = before ++ .start k t :: after →
    ∀ t', .start k t' ∈ before → .finish t' ∈ before ∧ .join t' ∈ before

structure Inv (max : Nat) (s : State) : Prop where
  len : s.slots.length = max
  cur : s.current < max
  started : started s.trace = List.range s.next
  done : ∀ t, t ∈ s.done ↔ .finish t ∈ s.trace
  doneLt : ∀ t ∈ s.done, t < s.next
  slotLt : ∀ (t k : Nat), s.slots[k]? = some (some t) → t < s.next
  slotInj : ∀ (t k k' : Nat), s.slots[k]? = some (some t) → s.slots[k']? = some (some t) → k = k'
  live : ∀ t, t < s.next → t ∉ s.done → ∃ k : Nat, s.slots[k]? = some (some t)
  -- every thread started in a slot is the one recorded there, or was joined
  history : ∀ (k t : Nat), .start k t ∈ s.trace →
    s.slots[k]? = some (some t) ∨ (t ∈ s.done ∧ .join t ∈ s.trace)
  joinDone : ∀ t, .join t ∈ s.trace → t ∈ s.done
  create : s.pc = .create → ∀ t, s.slots[s.current]? = some (some t) → t ∈ s.done ∧ .join t ∈ s.trace
  fresh : ∀ (t k : Nat), s.slots[k]? = some (some t) → .join t ∈ s.trace →
    k = s.current ∧ s.pc ≠ .join ∧ s.pc ≠ .accept
  joinsNodup : (joins s.trace).Nodup
  reuse : SlotsReusedAfterJoin s.trace

theorem started_append (a b : List Event) : started (a ++ b) = started a ++ started b := by
  simp [started]

theorem joins_append (a b : List Event) : joins (a ++ b) = joins a ++ joins b := by
  simp [joins]

theorem mem_joins (tr : List Event) (t : Nat) : t ∈ joins tr ↔ .join t ∈ tr := by
  unfold joins
  rw [List.mem_filterMap]
  constructor
  · rintro ⟨e, he, h⟩
    cases e with
    | start => simp at h
    | finish => simp at h
    | join t' => simp at h; exact h ▸ he
  · intro h; exact ⟨_, h, rfl⟩

theorem mem_started (tr : List Event) (t : Nat) : t ∈ started tr ↔ ∃ k, .start k t ∈ tr := by
  unfold started
  rw [List.mem_filterMap]
  constructor
  · rintro ⟨e, he, h⟩
    cases e with
    | start k t' => simp at h; exact ⟨k, h ▸ he⟩
    | finish => simp at h
    | join t' => simp at h
  · rintro ⟨k, h⟩; exact ⟨_, h, rfl⟩

theorem reuse_append (tr : List Event) (e : Event) (h : SlotsReusedAfterJoin tr)
    (he : ∀ k t, e = .start k t → ∀ t', .start k t' ∈ tr → .finish t' ∈ tr ∧ .join t' ∈ tr) :
    SlotsReusedAfterJoin (tr ++ [e]) := by
  intro before after k t hs t' ht'
  rcases List.eq_nil_or_concat after with rfl | ⟨after', e', rfl⟩
  · have := List.append_inj' hs rfl
    obtain ⟨rfl, h2⟩ := this
    simp at h2
    exact he k t h2 t' ht'
  · have hs' : tr ++ [e] = (before ++ .start k t :: after') ++ [e'] := by rw [hs]; simp
    obtain ⟨rfl, -⟩ := List.append_inj' hs' rfl
    exact h before after' k t rfl t' ht'

theorem inv_init (max : Nat) (h : 0 < max) : Inv max (init max) := by
  constructor
  case reuse => intro b a k t hs; simp [init] at hs
  all_goals simp [init, started, joins, List.getElem?_replicate, h]

theorem inv_pc (max : Nat) (s : State) (pc : PC) (h : Inv max s)
    (hc : pc = .create → s.pc = .join ∧ s.slots[s.current]? = some none)
    (hj : pc = .join ∨ pc = .accept → s.pc = .join ∨ s.pc = .accept) :
    Inv max { s with pc := pc } := by
  obtain ⟨h1, h2, h3, h4, h5, h6, h7, h8, h9, h10, h11, h12, h13, h14⟩ := h
  refine ⟨h1, h2, h3, h4, h5, h6, h7, h8, h9, h10, ?_, ?_, h13, h14⟩
  · intro e t ht
    have := (hc e).2
    rw [show s.slots[s.current]? = some (some t) from ht] at this
    cases this
  · intro t k hk ht
    obtain ⟨a, b, c⟩ := h12 t k hk ht
    refine ⟨a, ?_, ?_⟩
    · intro e
      rcases hj (.inl e) with e' | e'
      · exact b e'
      · exact c e'
    · intro e
      rcases hj (.inr e) with e' | e'
      · exact b e'
      · exact c e'

theorem inv_step (max : Nat) (hmax : 0 < max) (s s' : State) (h : Inv max s) (hs : Step max s s') :
    Inv max s' := by
  cases hs with
  | accepted hp =>
    exact inv_pc max s _ h (by simp) (by simp [hp])
  | acceptFailed hp => exact inv_pc max s _ h (by simp) (by simp)
  | noJoin hp hn => exact inv_pc max s _ h (by simp [hp, hn]) (by simp)
  | joinFailed t hp hn => exact inv_pc max s _ h (by simp) (by simp)
  | createFailed hp => exact inv_pc max s _ h (by simp) (by simp)
  | joined t hp hslot hd =>
    obtain ⟨h1, h2, h3, h4, h5, h6, h7, h8, h9, h10, h11, h12, h13, h14⟩ := h
    have hnew : .join t ∉ s.trace := fun m => (h12 t _ hslot m).2.1 hp
    refine ⟨h1, h2, ?_, ?_, h5, h6, h7, h8, ?_, ?_, ?_, ?_, ?_, ?_⟩
    · simp only [started_append, h3]; simp [started]
    · intro u; simp [h4]
    · intro k u hu
      simp only [List.mem_append, List.mem_singleton] at hu ⊢
      rcases hu with hu | hu
      · rcases h9 k u hu with h | ⟨ha, hb⟩
        · exact .inl h
        · exact .inr ⟨ha, .inl hb⟩
      · cases hu
    · intro u hu
      simp only [List.mem_append, List.mem_singleton] at hu
      rcases hu with hu | hu
      · exact h10 u hu
      · cases hu; exact hd
    · intro _ u hu
      simp only [] at hu
      rw [hslot] at hu
      cases hu
      exact ⟨hd, by simp⟩
    · intro u k hk hu
      simp only [List.mem_append, List.mem_singleton] at hu
      rcases hu with hu | hu
      · exact ⟨(h12 u k hk hu).1, by simp, by simp⟩
      · cases hu
        exact ⟨h7 t k s.current hk hslot, by simp, by simp⟩
    · simp only [joins_append]
      rw [List.nodup_append]
      refine ⟨h13, by simp [joins], ?_⟩
      intro a ha b hb
      simp [joins] at hb
      subst hb
      rintro rfl
      exact hnew ((mem_joins _ _).1 ha)
    · exact reuse_append _ _ h14 (by simp)
  | created hp =>
    obtain ⟨h1, h2, h3, h4, h5, h6, h7, h8, h9, h10, h11, h12, h13, h14⟩ := h
    have hlt : s.current < s.slots.length := by omega
    have hset : ∀ k t : Nat, (s.slots.set s.current (some s.next))[k]? = some (some t) →
        (k = s.current ∧ t = s.next) ∨ (k ≠ s.current ∧ s.slots[k]? = some (some t)) := by
      intro k t hk
      by_cases e : k = s.current
      · subst e
        rw [List.getElem?_set_self hlt] at hk
        cases hk
        exact .inl ⟨rfl, rfl⟩
      · rw [List.getElem?_set_ne (fun e' => e e'.symm)] at hk
        exact .inr ⟨e, hk⟩
    have hnotjoined : .join s.next ∉ s.trace := fun m => by
      have := h5 _ (h10 _ m); omega
    refine ⟨by simp [h1], ?_, ?_, ?_, ?_, ?_, ?_, ?_, ?_, ?_, by simp, ?_, ?_, ?_⟩
    · show nextSlot max s.current < max
      unfold nextSlot; split <;> omega
    · simp only [started_append, h3]
      simp [started, List.range_succ]
    · intro t; simp [h4]
    · intro t ht
      have := h5 t ht
      show t < s.next + 1
      omega
    · intro t k hk
      show t < s.next + 1
      rcases hset k t hk with ⟨-, rfl⟩ | ⟨-, hk⟩
      · omega
      · have := h6 t k hk; omega
    · intro t k k' hk hk'
      rcases hset k t hk with ⟨e1, e2⟩ | ⟨e, hk⟩ <;>
        rcases hset k' t hk' with ⟨e3, e4⟩ | ⟨e', hk'⟩
      · rw [e1, e3]
      · have := h6 _ _ hk'; omega
      · have := h6 _ _ hk; omega
      · exact h7 t k k' hk hk'
    · intro t ht hd
      show ∃ k : Nat, (s.slots.set s.current (some s.next))[k]? = some (some t)
      by_cases e : t = s.next
      · exact ⟨s.current, by rw [List.getElem?_set_self hlt, e]⟩
      · have ht' : t < s.next + 1 := ht
        obtain ⟨k, hk⟩ := h8 t (by omega) hd
        have hne : k ≠ s.current := by
          rintro rfl
          exact hd (h11 hp t hk).1
        exact ⟨k, by rw [List.getElem?_set_ne (fun e' => hne e'.symm), hk]⟩
    · intro k t ht
      simp only [List.mem_append, List.mem_singleton] at ht ⊢
      rcases ht with ht | ht
      · rcases h9 k t ht with h | ⟨ha, hb⟩
        · by_cases e : k = s.current
          · subst e
            have := h11 hp t h
            exact .inr ⟨this.1, .inl this.2⟩
          · exact .inl (by rw [List.getElem?_set_ne (fun e' => e e'.symm), h])
        · exact .inr ⟨ha, .inl hb⟩
      · cases ht
        exact .inl (by rw [List.getElem?_set_self hlt])
    · intro t ht
      simp only [List.mem_append, List.mem_singleton] at ht
      rcases ht with ht | ht
      · exact h10 t ht
      · cases ht
    · intro t k hk ht
      simp only [List.mem_append, List.mem_singleton] at ht
      rcases ht with ht | ht
      · exfalso
        rcases hset k t hk with ⟨-, rfl⟩ | ⟨e, hk⟩
        · exact hnotjoined ht
        · exact e (h12 t k hk ht).1
      · cases ht
    · simp only [joins_append]
      simpa [joins] using h13
    · refine reuse_append _ _ h14 ?_
      intro k t e t' ht'
      cases e
      rcases h9 _ _ ht' with h | ⟨ha, hb⟩
      · have := h11 hp t' h
        exact ⟨(h4 t').1 this.1, this.2⟩
      · exact ⟨(h4 t').1 ha, hb⟩
  | finished t ht hd =>
    obtain ⟨h1, h2, h3, h4, h5, h6, h7, h8, h9, h10, h11, h12, h13, h14⟩ := h
    have hjoin : ∀ u, .join u ∈ s.trace ++ [.finish t] ↔ .join u ∈ s.trace := by simp
    refine ⟨h1, h2, ?_, ?_, ?_, h6, h7, ?_, ?_, ?_, ?_, ?_, ?_, ?_⟩
    · simp only [started_append, h3]; simp [started]
    · intro u
      simp only [List.mem_cons, List.mem_append, h4, List.not_mem_nil, or_false, Event.finish.injEq]
      exact Or.comm
    · intro u hu
      rcases List.mem_cons.1 hu with rfl | hu
      · exact ht
      · exact h5 u hu
    · intro u hu hn
      exact h8 u hu (fun m => hn (by simp [m]))
    · intro k u hu
      simp only [List.mem_append, List.mem_singleton] at hu
      rcases hu with hu | hu
      · rcases h9 k u hu with h | ⟨ha, hb⟩
        · exact .inl h
        · exact .inr ⟨by simp [ha], by simp [hb]⟩
      · cases hu
    · intro u hu
      have := h10 u ((hjoin u).1 hu)
      simp [this]
    · intro e u hu
      have := h11 e u hu
      exact ⟨by simp [this.1], by simp [this.2]⟩
    · intro u k hk hu
      exact h12 u k hk ((hjoin u).1 hu)
    · simp only [joins_append]
      simpa [joins] using h13
    · exact reuse_append _ _ h14 (by simp)

theorem inv_reaches (max : Nat) (hmax : 0 < max) (s : State) (h : Reaches max s) : Inv max s := by
  induction h with
  | init => exact inv_init max hmax
  | step _ hs ih => exact inv_step max hmax _ _ ih hs

/-- In every history there are never more than the configured number of live
request threads. -/
theorem bounded (max : Nat) (hmax : 0 < max) (s : State) (h : Reaches max s) :
    (live s.trace).length ≤ max := by
  have inv := inv_reaches max hmax s h
  have hnd : (live s.trace).Nodup := by
    unfold live
    rw [inv.started]
    exact List.Nodup.sublist List.filter_sublist List.nodup_range
  have hsub : live s.trace ⊆ s.slots.filterMap id := by
    intro t ht
    unfold live at ht
    rw [List.mem_filter, inv.started, List.mem_range] at ht
    have hf : t ∉ s.done := by
      rw [inv.done]
      simpa using ht.2
    obtain ⟨k, hk⟩ := inv.live t ht.1 hf
    rw [List.mem_filterMap]
    exact ⟨some t, List.mem_of_getElem? hk, rfl⟩
  have h1 := hnd.length_le_of_subset hsub
  have h2 := List.length_filterMap_le id s.slots
  have := inv.len
  omega

/-- In every history a thread is started in a slot only after the earlier threads
of the slot have ended and been joined. -/
theorem reused_after_join (max : Nat) (hmax : 0 < max) (s : State) (h : Reaches max s) :
    SlotsReusedAfterJoin s.trace := (inv_reaches max hmax s h).reuse

/-- No thread is joined twice (which would be undefined), and slots are only
accessed within the array. -/
theorem joined_once (max : Nat) (hmax : 0 < max) (s : State) (h : Reaches max s) :
    (joins s.trace).Nodup ∧ s.current < s.slots.length := by
  have inv := inv_reaches max hmax s h
  exact ⟨inv.joinsNodup, by rw [inv.len]; exact inv.cur⟩

/-- With one thread: two connections are served one after the other. -/
example : ∃ s, Reaches 1 s ∧
    s.trace = [.start 0 0, .finish 0, .join 0, .start 0 1] ∧ live s.trace = [1] := by
  refine ⟨_, .step (.step (.step (.step (.step (.step (.step .init
    (.accepted _ rfl)) (.noJoin _ rfl rfl)) (.created _ rfl)) (.finished _ 0 (by decide) (by decide)))
    (.accepted _ rfl)) (.joined _ 0 rfl rfl (by decide))) (.created _ rfl), rfl, by decide⟩

end Blogc.C50
