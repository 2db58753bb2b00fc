import Verif.Lemmas.BlogcMemoryPages
import Verif.Lemmas.MainDefined
import Verif.Spec.CommandValues

/-!
# Lemmas about the memory of blogc: the command line and the end
-/

namespace Blogc.BlogcMem

open Blogc Blogc.Spec.Account

/-! ## The command line -/

/-- The lists of names. -/
def nameThings (o : Main.Opts) : List Thing :=
  (if o.entries = [] then [] else [.entries]) ++ if o.sources = [] then [] else [.sources]

/-- The values of options. -/
def slotThings (s : Slots) : List Thing :=
  s.template.toList.map Thing.template ++ s.output.toList.map Thing.output ++ s.print.toList.map Thing.print

/-- The values of options for arguments before the `i`-th. -/
def ValuesBelow (i : Nat) (xs : List Thing) : Prop :=
  ∀ x ∈ xs, ∃ j, j < i ∧ (x = .template j ∨ x = .output j ∨ x = .print j)

theorem ValuesBelow.mono {i j : Nat} {xs : List Thing} (h : ValuesBelow i xs) (hij : i ≤ j) : ValuesBelow j xs := fun x hx => by
  obtain ⟨k, hk, e⟩ := h x hx
  exact ⟨k, by omega, e⟩

theorem ValuesBelow.plain {i : Nat} {xs : List Thing} (h : ValuesBelow i xs) {x : Thing}
    (hx : (∀ j, j < i → x ≠ .template j) ∧ (∀ j, j < i → x ≠ .output j) ∧ ∀ j, j < i → x ≠ .print j) : x ∉ xs := fun hm => by
  obtain ⟨j, hj, e | e | e⟩ := h x hm
  · exact hx.1 j hj e
  · exact hx.2.1 j hj e
  · exact hx.2.2 j hj e

/-- What is in use after some arguments; `lost` are values nothing points to. -/
def argState (lost : List Thing) (o : Main.Opts) (s : Slots) : List Thing := lost ++ (.config :: slotThings s ++ nameThings o)

/-- The value an option replaces. -/
def lostBy (c : Byte) (s : Slots) : List Thing :=
  if c = c!"t" then s.template.toList.map Thing.template
  else if c = c!"o" then s.output.toList.map Thing.output
  else if c = c!"p" then s.print.toList.map Thing.print
  else []

theorem nothing_off (x : Thing) : nothing x = false := rfl

theorem names_mem {o : Main.Opts} {x : Thing} (h : x ∈ nameThings o) : x = .entries ∨ x = .sources := by
  unfold nameThings at h
  rcases List.mem_append.1 h with h | h
  · split at h
    · cases h
    · exact .inl (List.mem_singleton.1 h)
  · split at h
    · cases h
    · exact .inr (List.mem_singleton.1 h)

theorem argState_not {i : Nat} {lost : List Thing} {o : Main.Opts} {s : Slots} (hlost : ValuesBelow i lost)
    (hs : ValuesBelow i (slotThings s)) {x : Thing}
    (hx : (∀ j, j < i → x ≠ .template j) ∧ (∀ j, j < i → x ≠ .output j) ∧ ∀ j, j < i → x ≠ .print j) (h1 : x ≠ .config)
    (h2 : x ∉ nameThings o) : x ∉ argState lost o s := by
  intro h
  unfold argState at h
  rcases List.mem_append.1 h with h | h
  · exact hlost.plain hx h
  · rw [List.cons_append, List.mem_cons] at h
    rcases h with h | h
    · exact h1 h
    · rcases List.mem_append.1 h with h | h
      · exact hs.plain hx h
      · exact h2 h

theorem entries_not {o : Main.Opts} (h : o.entries = []) : Thing.entries ∉ nameThings o := by
  unfold nameThings
  rw [if_pos h]
  split <;> simp

theorem sources_not {o : Main.Opts} (h : o.sources = []) : Thing.sources ∉ nameThings o := by
  unfold nameThings
  rw [if_pos h]
  split <;> simp

/-- A name is put into a list. -/
theorem putName_ok {xs ys : List Thing} {list : Thing} {empty : Bool} (hs : .str ∉ xs) (hl : list ≠ .str)
    (h1 : empty = true → list ∉ xs) (h2 : empty = false → list ∈ xs) (hy : ∀ x, x ∈ ys ↔ x ∈ xs ∨ x = list) (r : List Event) :
    inUse ([.acquire .str, appendTo list empty, .give .str list] ++ r) (plus nothing xs) = inUse r (plus nothing ys) := by
  simp only [List.cons_append, List.nil_append]
  rw [do_acquire (nothing_off _) hs]
  have hfin : ∀ zs, list ∈ zs → (∀ x, x ∈ zs ↔ x = .str ∨ x ∈ ys) →
      inUse (.give .str list :: r) (plus nothing zs) = inUse r (plus nothing ys) := by
    intro zs hz hz'
    rw [do_give (nothing_off _) ((hz' _).2 (.inl rfl)) (.inr hz) hl.symm]
    congr 1
    refine plus_congr fun x => ?_
    have : Thing.str ∉ ys := fun h => ((hy _).1 h).elim hs fun e => hl e.symm
    rw [List.mem_filter, hz']
    grind
  cases empty with
  | true =>
    show inUse (.acquire list :: _) _ = _
    rw [do_acquire (nothing_off _) (by simp [h1 rfl, hl])]
    exact hfin _ (by simp) fun x => by simp only [List.mem_cons, hy]; grind
  | false =>
    show inUse (.use list :: _) _ = _
    rw [do_use (.inr (by simp [h2 rfl]))]
    exact hfin _ (by simp [h2 rfl]) fun x => by
      have := h2 rfl
      simp only [List.mem_cons, hy]
      grind

/-- The option takes a value. -/
def Takes (c : Byte) : Prop := c = c!"e" ∨ c = c!"t" ∨ c = c!"o" ∨ c = c!"p" ∨ c = c!"D"

theorem slots_values {i : Nat} {s : Slots} (h : ValuesBelow i (slotThings s)) (c : Byte) :
    ValuesBelow (i + 1) (slotThings (slotsAfter c i s)) := by
  intro x hx
  unfold slotsAfter at hx
  have hmono := h.mono (Nat.le_succ i)
  repeat' split at hx
  all_goals
    simp only [slotThings, Option.toList_some, List.map_cons, List.map_nil, List.mem_append, List.mem_singleton] at hx hmono
  · rcases hx with (rfl | hx) | hx
    · exact ⟨i, Nat.lt_succ_self i, .inl rfl⟩
    · exact hmono x (by simp only [slotThings, List.mem_append]; grind)
    · exact hmono x (by simp only [slotThings, List.mem_append]; grind)
  · rcases hx with (hx | rfl) | hx
    · exact hmono x (by simp only [slotThings, List.mem_append]; grind)
    · exact ⟨i, Nat.lt_succ_self i, .inr (.inl rfl)⟩
    · exact hmono x (by simp only [slotThings, List.mem_append]; grind)
  · rcases hx with (hx | hx) | rfl
    · exact hmono x (by simp only [slotThings, List.mem_append]; grind)
    · exact hmono x (by simp only [slotThings, List.mem_append]; grind)
    · exact ⟨i, Nat.lt_succ_self i, .inr (.inr rfl)⟩
  · exact hmono x (by simp only [slotThings, List.mem_append]; grind)

theorem lost_values {i : Nat} {s : Slots} (h : ValuesBelow i (slotThings s)) (c : Byte) : ValuesBelow i (lostBy c s) := by
  intro x hx
  refine h x ?_
  unfold lostBy at hx
  simp only [slotThings, List.mem_append]
  repeat' split at hx
  · exact .inl (.inl hx)
  · exact .inl (.inr hx)
  · exact .inr hx
  · cases hx

/-- An option with its value. -/
theorem value_ok {c : Byte} (hc : Takes c) {i : Nat} {v : Str} {o : Main.Opts} {s : Slots} {lost : List Thing}
    (hlost : ValuesBelow i lost) (hs : ValuesBelow i (slotThings s)) (r : List Event) :
    (∀ o', Main.withValue c v o = .ok (.ok o') →
      inUse (valueEvents c i v o ++ r) (plus nothing (argState lost o s)) =
        inUse r (plus nothing (argState (lost ++ lostBy c s) o' (slotsAfter c i s)))) ∧
    (∀ e, Main.withValue c v o = .ok (.error e) →
      inUse (valueEvents c i v o ++ r) (plus nothing (argState lost o s)) =
        inUse r (plus nothing (argState lost o (slotsAfter c i s)))) := by
  have hstr : Thing.str ∉ argState lost o s := argState_not hlost hs (by simp) (by simp) fun h => by
    rcases names_mem h with h | h <;> cases h
  have hnew : ∀ x, (∃ j, i ≤ j ∧ (x = .template j ∨ x = .output j ∨ x = .print j)) → x ∉ argState lost o s := by
    rintro x ⟨j, hj, e⟩
    refine argState_not hlost hs ?_ (by rcases e with rfl | rfl | rfl <;> simp) fun h => by
      rcases names_mem h with h | h <;> rcases e with e | e | e <;> rw [h] at e <;> cases e
    rcases e with rfl | rfl | rfl <;> simp <;> omega
  rcases hc with rfl | rfl | rfl | rfl | rfl
  · constructor
    · intro o' h
      simp only [Main.withValue, if_true] at h
      cases h
      simp only [valueEvents, if_true, slotsAfter, lostBy]
      refine putName_ok hstr (by simp) (fun h => ?_) (fun h => ?_) (fun x => ?_) r
      · exact argState_not hlost hs (by simp) (by simp) (entries_not (by simpa using h))
      · have : o.entries ≠ [] := by simpa using h
        simp [argState, nameThings, this]
      · simp [argState, nameThings]
        grind
    · intro e h
      simp [Main.withValue] at h
  · constructor
    · intro o' h
      simp [Main.withValue] at h
      subst h
      simp only [valueEvents, slotsAfter, lostBy, if_true, if_neg (show c!"t" ≠ c!"e" by decide), List.singleton_append]
      rw [do_acquire (nothing_off _) (hnew _ ⟨i, Nat.le_refl i, .inl rfl⟩)]
      congr 1
      refine plus_congr fun x => ?_
      simp only [argState, slotThings, nameThings, List.mem_append, List.mem_cons, List.cons_append, Option.toList_some,
        List.map_cons, List.map_nil, List.not_mem_nil, or_false]
      grind
    · intro e h
      simp [Main.withValue] at h
  · constructor
    · intro o' h
      simp [Main.withValue] at h
      subst h
      simp only [valueEvents, slotsAfter, lostBy, if_true, if_neg (show c!"o" ≠ c!"e" by decide),
        if_neg (show c!"o" ≠ c!"t" by decide), List.singleton_append]
      rw [do_acquire (nothing_off _) (hnew _ ⟨i, Nat.le_refl i, .inr (.inl rfl)⟩)]
      congr 1
      refine plus_congr fun x => ?_
      simp only [argState, slotThings, nameThings, List.mem_append, List.mem_cons, List.cons_append, Option.toList_some,
        List.map_cons, List.map_nil, List.not_mem_nil, or_false]
      grind
    · intro e h
      simp [Main.withValue] at h
  · constructor
    · intro o' h
      simp [Main.withValue] at h
      subst h
      simp only [valueEvents, slotsAfter, lostBy, if_true, if_neg (show c!"p" ≠ c!"e" by decide),
        if_neg (show c!"p" ≠ c!"t" by decide), if_neg (show c!"p" ≠ c!"o" by decide), List.singleton_append]
      rw [do_acquire (nothing_off _) (hnew _ ⟨i, Nat.le_refl i, .inr (.inr rfl)⟩)]
      congr 1
      refine plus_congr fun x => ?_
      simp only [argState, slotThings, nameThings, List.mem_append, List.mem_cons, List.cons_append, Option.toList_some,
        List.map_cons, List.map_nil, List.not_mem_nil, or_false]
      grind
    · intro e h
      simp [Main.withValue] at h
  · have hw : Main.withValue c!"D" v o = Main.define v o := by simp [Main.withValue]
    have hsl : slotsAfter c!"D" i s = s := by simp [slotsAfter]
    have hlo : lostBy c!"D" s = [] := by simp [lostBy]
    have hpc : Thing.pieces ∉ argState lost o s := argState_not hlost hs (by simp) (by simp) fun h => by
      rcases names_mem h with h | h <;> cases h
    have hev : valueEvents c!"D" i v o = defineEvents v o := by simp [valueEvents]
    rw [hw, hsl, hlo, List.append_nil, hev]
    unfold defineEvents
    rw [Utf8.validate_eq]
    constructor
    · intro o' h
      have hst : argState lost o' s = argState lost o s := by
        unfold Main.define at h
        rw [Utf8.validate_eq] at h
        simp only [Res.bind] at h
        repeat' split at h
        all_goals first | cases h; rfl | cases h
      rw [hst, h]
      split
      · simp only [List.cons_append, List.nil_append]
        rw [do_acquire (nothing_off _) hpc, do_use (.inr (by simp)), do_acquire (nothing_off _) (by simp [hstr]),
          do_use (.inr (by simp)), do_give (nothing_off _) (by simp) (.inr (by simp [argState])) (by simp),
          do_release (nothing_off _) (by simp)]
        congr 1
        refine plus_congr fun x => ?_
        simp only [List.mem_filter, List.mem_cons]
        grind
      · rfl
    · intro e h
      rw [h]
      split
      · simp only [List.cons_append, List.nil_append]
        rw [do_acquire (nothing_off _) hpc, do_use (.inr (by simp)), do_release (nothing_off _) (by simp)]
        congr 1
        refine plus_congr fun x => ?_
        simp only [List.mem_filter, List.mem_cons]
        grind
      · rfl

open Blogc.Spec.CommandValues

/-- How often the option `c` will get a value. -/
def left (c : Byte) : Option Byte → List Str → Nat
  | none, args => times c args
  | some _, [] => 0
  | some d, _ :: rest => (if d = c then 1 else 0) + times c rest

/-- No option gets a value twice. -/
def Once (p : Option Byte) (args : List Str) (s : Slots) : Prop :=
  s.template.toList.length + left c!"t" p args ≤ 1 ∧ s.output.toList.length + left c!"o" p args ≤ 1 ∧
    s.print.toList.length + left c!"p" p args ≤ 1

theorem Once.step {c : Byte} (hc : Takes c) {p : Option Byte} {args rest : List Str} {s : Slots} {i : Nat} (h : Once p args s)
    (ht : ∀ d, left d p args = (if c = d then 1 else 0) + left d none rest) :
    lostBy c s = [] ∧ Once none rest (slotsAfter c i s) := by
  obtain ⟨h1, h2, h3⟩ := h
  rw [ht] at h1 h2 h3
  have he : ∀ {o : Option Nat} {n : Nat}, o.toList.length + (1 + n) ≤ 1 → o = none ∧ n = 0 := by
    intro o n h
    cases o with
    | none => exact ⟨rfl, by simp at h; omega⟩
    | some x => simp at h; omega
  unfold Once
  rcases hc with rfl | rfl | rfl | rfl | rfl
  · simp at h1 h2 h3
    simpa [lostBy, slotsAfter] using ⟨h1, h2, h3⟩
  · obtain ⟨e, e'⟩ := he h1
    simp [lostBy, slotsAfter, e, e'] at h2 h3 ⊢
    exact ⟨h2, h3⟩
  · obtain ⟨e, e'⟩ := he h2
    simp [lostBy, slotsAfter, e, e'] at h1 h3 ⊢
    exact ⟨h1, h3⟩
  · obtain ⟨e, e'⟩ := he h3
    simp [lostBy, slotsAfter, e, e'] at h1 h2 ⊢
    exact ⟨h1, h2⟩
  · simp at h1 h2 h3
    simpa [lostBy, slotsAfter] using ⟨h1, h2, h3⟩

theorem times_plain {a : Str} (h : a.head? ≠ some c!"-") (d : Byte) : ∀ rest, times d (a :: rest) = times d rest := by
  have hb : ∀ x, isBare x a = false := by
    intro x
    unfold isBare
    rw [beq_eq_false_iff_ne]
    rintro rfl
    exact h rfl
  have hj : isJoined d a = false := by
    unfold isJoined
    rw [Bool.and_eq_false_iff, beq_eq_false_iff_ne]
    left
    cases a with
    | nil => simp
    | cons a0 a =>
      intro e
      apply h
      simp only [List.take_succ_cons, List.cons.injEq] at e
      simp [e.1]
  intro rest
  cases rest with
  | nil => simp [times, hj]
  | cons v rest => simp [times, hb, hj]

theorem times_bare {c : Byte} (hc : Takes c) (d : Byte) : ∀ rest,
    times d ([c!"-", c] :: rest) = left d (some c) rest := by
  intro rest
  cases rest with
  | nil => simp [times, isJoined, left]
  | cons v rest =>
    have : (b!"etopD".any fun x => isBare x [c!"-", c]) = true := by
      rcases hc with rfl | rfl | rfl | rfl | rfl <;> decide
    have hb : isBare d [c!"-", c] = decide (c = d) := by
      unfold isBare
      by_cases h : c = d <;> simp [h]
    rw [times, if_pos this, hb]
    simp [left]

theorem times_joined {c : Byte} {v : Str} (hv : v ≠ []) (d : Byte) : ∀ rest,
    times d ((c!"-" :: c :: v) :: rest) = (if c = d then 1 else 0) + times d rest := by
  have hb : ∀ x, isBare x (c!"-" :: c :: v) = false := by
    intro x
    simp [isBare, hv]
  have hj : isJoined d (c!"-" :: c :: v) = decide (c = d) := by
    have : 0 < v.length := List.length_pos_iff.2 hv
    by_cases h : c = d <;> simp [isJoined, this, h]
  intro rest
  cases rest with
  | nil => simp [times, hj]
  | cons w rest => simp [times, hb, hj]

theorem times_flag {c : Byte} (hc : ¬ Takes c) {v : Str} {d : Byte} (hd : Takes d) : ∀ rest,
    times d ((c!"-" :: c :: v) :: rest) = times d rest := by
  have hcd : c ≠ d := fun e => hc (e ▸ hd)
  have hb : (b!"etopD".any fun x => isBare x (c!"-" :: c :: v)) = false := by
    rw [List.any_eq_false]
    intro x hx
    have : Takes x := by simpa [Takes, or_comm, or_assoc, or_left_comm] using hx
    have : c ≠ x := fun e => hc (e ▸ this)
    simp [isBare, this]
  have hj : isJoined d (c!"-" :: c :: v) = false := by simp [isJoined, hcd]
  intro rest
  cases rest with
  | nil => simp [times, hj]
  | cons w rest => simp only [times, hb, hj]; simp

/-- The command line. -/
theorem args_ok (make : Bool) : ∀ (args : List Str) (p : Option Byte) (i : Nat) (o : Main.Opts) (s : Slots) (lost : List Thing),
    (∀ c, p = some c → Takes c) → ValuesBelow i lost → ValuesBelow i (slotThings s) →
    ∃ lost', ValuesBelow (i + args.length) lost' ∧
      ValuesBelow (i + args.length) (slotThings (argEvents make p i args o s).2.2.1) ∧
      (Once p args s → lost' = lost) ∧
      inUse (argEvents make p i args o s).2.2.2 (plus nothing (argState lost o s)) =
        some (plus nothing (argState lost' (argEvents make p i args o s).2.1 (argEvents make p i args o s).2.2.1))
  | [], p, i, o, s, lost, _, hl, hs => ⟨lost, by simpa using hl, by cases p <;> simpa [argEvents] using hs, fun _ => rfl, by
      cases p <;> rfl⟩
  | v :: rest, some c, i, o, s, lost, hp, hl, hs => by
    have hc := hp c rfl
    have hlen : i + (v :: rest).length = i + 1 + rest.length := by simp only [List.length_cons]; omega
    obtain ⟨r, hr⟩ := Main.withValue_defined c v o
    have hv := fun r => value_ok hc (v := v) (o := o) hl hs r
    rw [argEvents.eq_def]
    simp only [hr]
    cases r with
    | error e =>
      simp only
      have := (hv []).2 e hr
      rw [List.append_nil] at this
      exact ⟨lost, hl.mono (by simp), (slots_values hs c).mono (by simp [hlen]), fun _ => rfl, this⟩
    | ok o' =>
      simp only
      obtain ⟨lost', a1, a2, a3, a4⟩ := args_ok make rest none (i + 1) o' (slotsAfter c i s) (lost ++ lostBy c s) (by simp)
        (fun x hx => (List.mem_append.1 hx).elim (hl.mono (Nat.le_succ i) x) ((lost_values hs c).mono (Nat.le_succ i) x))
        (slots_values hs c)
      rw [hlen]
      refine ⟨lost', a1, a2, fun h => ?_, ?_⟩
      · obtain ⟨e1, e2⟩ := h.step (i := i) hc (fun d => rfl)
        rw [a3 e2, e1, List.append_nil]
      · rw [(hv _).1 o' hr, a4]
  | a :: rest, none, i, o, s, lost, _, hl, hs => by
    have hlen : i + (a :: rest).length = i + 1 + rest.length := by simp only [List.length_cons]; omega
    rw [argEvents.eq_def]
    by_cases hh : a.head? = some c!"-"
    · obtain ⟨more, rfl⟩ : ∃ more, a = c!"-" :: more := by
        cases a with
        | nil => cases hh
        | cons a0 more => exact ⟨more, by simp only [List.head?_cons, Option.some.injEq] at hh; rw [hh]⟩
      cases more with
      | nil => exact ⟨lost, hl.mono (by simp), hs.mono (by simp), fun _ => rfl, rfl⟩
      | cons c attached =>
        simp only [List.head?_cons, if_true, List.tail_cons]
        by_cases hc : Takes c
        · have hc' : c = c!"e" ∨ c = c!"t" ∨ c = c!"o" ∨ c = c!"p" ∨ c = c!"D" := hc
          by_cases hat : attached = []
          · subst hat
            have ho : Main.option make c [] o = .ok (.wait c) := by
              rcases hc with rfl | rfl | rfl | rfl | rfl <;> simp [Main.option]
            simp only [ho, ne_eq, not_true_eq_false, and_false, if_false, List.nil_append]
            obtain ⟨lost', a1, a2, a3, a4⟩ := args_ok make rest (some c) (i + 1) o s lost (by rintro _ ⟨⟩; exact hc)
              (hl.mono (Nat.le_succ i)) (hs.mono (Nat.le_succ i))
            rw [hlen]
            refine ⟨lost', a1, a2, fun h => a3 ?_, a4⟩
            obtain ⟨h1, h2, h3⟩ := h
            simp only [left] at h1 h2 h3
            rw [times_bare hc] at h1 h2 h3
            exact ⟨h1, h2, h3⟩
          · obtain ⟨r, hr⟩ := Main.withValue_defined c attached o
            have hv := fun r => value_ok hc (v := attached) (o := o) hl hs r
            have ho : Main.option make c attached o = .ok (match r with
                | .error s => .stop s
                | .ok o => .go o) := by
              unfold Main.option
              rcases hc with rfl | rfl | rfl | rfl | rfl <;> simp [hat, hr, Res.bind] <;> cases r <;> rfl
            simp only [ho, hc', ne_eq, hat, not_false_eq_true, and_self, if_true]
            cases r with
            | error e =>
              simp only
              have := (hv []).2 e hr
              rw [List.append_nil] at this
              exact ⟨lost, hl.mono (by simp), (slots_values hs c).mono (by simp [hlen]), fun _ => rfl, this⟩
            | ok o' =>
              simp only
              obtain ⟨lost', a1, a2, a3, a4⟩ := args_ok make rest none (i + 1) o' (slotsAfter c i s) (lost ++ lostBy c s) (by simp)
                (fun x hx => (List.mem_append.1 hx).elim (hl.mono (Nat.le_succ i) x) ((lost_values hs c).mono (Nat.le_succ i) x))
                (slots_values hs c)
              rw [hlen]
              refine ⟨lost', a1, a2, fun h => ?_, ?_⟩
              · obtain ⟨e1, e2⟩ := h.step (i := i) hc (rest := rest) (fun d => times_joined hat d rest)
                rw [a3 e2, e1, List.append_nil]
              · rw [(hv _).1 o' hr, a4]
        · have hc' : ¬ (c = c!"e" ∨ c = c!"t" ∨ c = c!"o" ∨ c = c!"p" ∨ c = c!"D") := hc
          simp only [hc', false_and, if_false, List.nil_append]
          have hgo : ∀ o', o'.entries = o.entries → o'.sources = o.sources →
              ∃ lost', ValuesBelow (i + ((c!"-" :: c :: attached) :: rest).length) lost' ∧
                ValuesBelow (i + ((c!"-" :: c :: attached) :: rest).length)
                  (slotThings (argEvents make none (i + 1) rest o' s).2.2.1) ∧
                (Once none ((c!"-" :: c :: attached) :: rest) s → lost' = lost) ∧
                inUse (argEvents make none (i + 1) rest o' s).2.2.2 (plus nothing (argState lost o s)) =
                  some (plus nothing (argState lost' (argEvents make none (i + 1) rest o' s).2.1
                    (argEvents make none (i + 1) rest o' s).2.2.1)) := by
            intro o' h1 h2
            obtain ⟨lost', a1, a2, a3, a4⟩ := args_ok make rest none (i + 1) o' s lost (by simp)
              (hl.mono (Nat.le_succ i)) (hs.mono (Nat.le_succ i))
            rw [hlen]
            refine ⟨lost', a1, a2, fun h => a3 ?_, ?_⟩
            · obtain ⟨h1, h2, h3⟩ := h
              simp only [left] at h1 h2 h3
              rw [times_flag hc (by simp [Takes])] at h1 h2 h3
              exact ⟨h1, h2, h3⟩
            · have : argState lost o s = argState lost o' s := by simp only [argState, nameThings, h1, h2]
              rw [this, a4]
          have hstop : ∃ lost', ValuesBelow (i + ((c!"-" :: c :: attached) :: rest).length) lost' ∧
                ValuesBelow (i + ((c!"-" :: c :: attached) :: rest).length) (slotThings s) ∧
                (Once none ((c!"-" :: c :: attached) :: rest) s → lost' = lost) ∧
                inUse [] (plus nothing (argState lost o s)) = some (plus nothing (argState lost' o s)) :=
            ⟨lost, hl.mono (by simp), hs.mono (by simp), fun _ => rfl, rfl⟩
          unfold Main.option
          simp only [hc', if_false]
          by_cases g1 : c = c!"h"
          · simp only [g1, if_true]; subst g1; exact hstop
          by_cases g2 : c = c!"v"
          · simp only [g1, g2, if_false, if_true]; subst g2; simpa using hstop
          by_cases g3 : c = c!"d"
          · simp only [g1, g2, if_false]; subst g3; simp only [if_true]; exact hgo _ rfl rfl
          by_cases g4 : c = c!"i"
          · simp only [g1, g2, g3, if_false]; subst g4; simp only [if_true]; exact hgo _ rfl rfl
          by_cases g5 : c = c!"l"
          · simp only [g1, g2, g3, g4, if_false]; subst g5; simp only [if_true]; exact hgo _ rfl rfl
          simp only [g1, g2, g3, g4, g5, if_false]
          split
          next hx => split at hx <;> cases hx
          next hx => split at hx <;> cases hx
          next => exact hstop
    · simp only [hh, if_false]
      obtain ⟨lost', a1, a2, a3, a4⟩ := args_ok make rest none (i + 1) { o with sources := o.sources ++ [a] } s lost (by simp)
        (hl.mono (Nat.le_succ i)) (hs.mono (Nat.le_succ i))
      rw [hlen]
      refine ⟨lost', a1, a2, fun h => a3 ?_, ?_⟩
      · obtain ⟨h1, h2, h3⟩ := h
        simp only [left] at h1 h2 h3
        rw [times_plain hh] at h1 h2 h3
        exact ⟨h1, h2, h3⟩
      · rw [putName_ok (ys := argState lost { o with sources := o.sources ++ [a] } s) ?_ (by simp) (fun h => ?_) (fun h => ?_) (fun x => ?_), a4]
        · exact argState_not hl hs (by simp) (by simp) fun h => by rcases names_mem h with h | h <;> cases h
        · exact argState_not hl hs (by simp) (by simp) (sources_not (by simpa using h))
        · have : o.sources ≠ [] := by simpa using h
          simp [argState, nameThings, this]
        · simp [argState, nameThings]
          grind

/-- The control flow is that of the model of the command line. -/
theorem args_same (make : Bool) : ∀ (args : List Str) (p : Option Byte) (i : Nat) (o : Main.Opts) (s : Slots),
    (∀ c, p = some c → Takes c) →
    (∀ o', Main.argLoop make p args o = .ok (.ok o') →
      (argEvents make p i args o s).1 = false ∧ (argEvents make p i args o s).2.1 = o') ∧
    (∀ e, Main.argLoop make p args o = .ok (.error e) → (argEvents make p i args o s).1 = true)
  | [], p, i, o, s, _ => by
    rw [Main.argLoop, argEvents.eq_def]
    exact ⟨fun o' h => by cases h; cases p <;> exact ⟨rfl, rfl⟩, fun e h => by cases h⟩
  | v :: rest, some c, i, o, s, hp => by
    obtain ⟨r, hr⟩ := Main.withValue_defined c v o
    rw [Main.argLoop, argEvents.eq_def]
    simp only [hr, Res.bind]
    cases r with
    | error e => exact ⟨fun o' h => (by cases h), fun e h => rfl⟩
    | ok o' => exact args_same make rest none (i + 1) o' _ (by simp)
  | a :: rest, none, i, o, s, _ => by
    rw [Main.argLoop.eq_def, argEvents.eq_def]
    cases a with
    | nil => exact args_same make rest none (i + 1) _ _ (by simp)
    | cons a0 more =>
      by_cases h0 : a0 = c!"-"
      · subst h0
        simp only [List.head?_cons, if_true, List.tail_cons]
        cases more with
        | nil => exact ⟨fun o' h => (by cases h), fun e h => rfl⟩
        | cons c attached =>
          obtain ⟨r, hr⟩ := Main.option_defined make c attached o
          simp only [hr, Res.bind]
          cases r with
          | stop st => exact ⟨fun o' h => (by cases h), fun e h => rfl⟩
          | go o' => exact args_same make rest none (i + 1) o' _ (by simp)
          | wait d =>
            refine args_same make rest (some d) (i + 1) o _ ?_
            rintro _ ⟨⟩
            unfold Main.option at hr
            repeat' split at hr
            all_goals try (cases hr; done)
            · cases hr; assumption
            · obtain ⟨w, hw⟩ := Main.withValue_defined c attached o
              rw [hw] at hr
              cases w <;> cases hr
      · simp only [List.head?_cons, Option.some.injEq, h0, if_false]
        exact args_same make rest none (i + 1) _ _ (by simp)

end Blogc.BlogcMem
