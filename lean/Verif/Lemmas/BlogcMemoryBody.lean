import Verif.Lemmas.BlogcMemoryMain

/-!
# Lemmas about the memory of blogc: entries, output and cleanup
-/

namespace Blogc.BlogcMem

open Blogc Blogc.Spec.Account

/-! ## Entries given with -e -/

/-- The list of entries, and their tables. -/
def entryThings (es : List (Option Nat)) : List Thing :=
  (if es = [] then [] else [.entrySources]) ++ (es.filterMap id).map Thing.table

/-- Keys and tables of files before the `n`-th, and the list of them. -/
def FilesBelow (n : Nat) (xs : List Thing) : Prop := ∀ x ∈ xs, x = .kept ∨ ∃ i, i < n ∧ (x = .key i ∨ x = .table i)

theorem FilesBelow.mono {n m : Nat} {xs : List Thing} (h : FilesBelow n xs) (hm : n ≤ m) : FilesBelow m xs := fun x hx => by
  rcases h x hx with e | ⟨i, hi, e⟩
  · exact .inl e
  · exact .inr ⟨i, by omega, e⟩

theorem FilesBelow.not {n : Nat} {xs : List Thing} (h : FilesBelow n xs) {x : Thing} (h1 : x ≠ .kept)
    (h2 : ∀ i, i < n → x ≠ .key i ∧ x ≠ .table i) : x ∉ xs := fun hx => by
  rcases h x hx with e | ⟨i, hi, e | e⟩
  · exact h1 e
  · exact (h2 i hi).1 e
  · exact (h2 i hi).2 e

theorem entryThings_mem {es : List (Option Nat)} {x : Thing} :
    x ∈ entryThings es ↔ (es ≠ [] ∧ x = .entrySources) ∨ ∃ i, some i ∈ es ∧ x = .table i := by
  unfold entryThings
  rw [List.mem_append, List.mem_map]
  refine or_congr ?_ ?_
  · by_cases h : es = [] <;> simp [h]
  · constructor
    · rintro ⟨i, hi, rfl⟩
      obtain ⟨a, ha, e⟩ := List.mem_filterMap.1 hi
      exact ⟨i, by simpa [← e] using ha, rfl⟩
    · rintro ⟨i, hi, rfl⟩
      exact ⟨i, List.mem_filterMap.2 ⟨some i, hi, rfl⟩, rfl⟩

theorem entries_ok {w : World} {m : Option Str} {l : InUse} (hl : Base l) (hc : l .config = true) (he : l .entries = true) :
    ∀ (fs : List Str) (n : Nat) (acc : List (Option Nat)) (X : List Thing), (∀ f ∈ fs, f ≠ [] → Readable w m f) →
    FilesBelow n X → (∀ i, some i ∈ acc → i < n) → (acc.filterMap id).Nodup →
    ∃ K, KeysBelow (n + fs.length) K ∧ ((∀ f ∈ fs, Ended w f) → K = []) ∧
      ((entryEvents w m n acc fs).1.filterMap id).Nodup ∧ (∀ i, some i ∈ (entryEvents w m n acc fs).1 → some i ∈ acc ∨ n ≤ i) ∧
      inUse (entryEvents w m n acc fs).2.2 (plus l (X ++ entryThings acc)) =
        some (plus l ((if (entryEvents w m n acc fs).2.1 then [.err] else []) ++ K ++ X ++
          entryThings (entryEvents w m n acc fs).1))
  | [], n, acc, X, _, _, _, hn => ⟨[], (fun _ h => by cases h), fun _ => rfl, hn, fun i h => .inl h, rfl⟩
  | f :: fs, n, acc, X, hr, hX, ha, hn => by
    have hlen : n + (f :: fs).length = n + 1 + fs.length := by simp only [List.length_cons]; omega
    have hnot : ∀ x, x ≠ .kept → x ≠ .entrySources → (∀ i, i < n → x ≠ .key i ∧ x ≠ .table i) → x ∉ X ++ entryThings acc := by
      intro x h1 h2 h3 h
      rcases List.mem_append.1 h with h | h
      · exact hX.not h1 h3 h
      · rcases entryThings_mem.1 h with ⟨-, e⟩ | ⟨i, hi, e⟩
        · exact h2 e
        · exact (h3 i (ha i hi)).2 e
    have hsrcs : acc = [] → Thing.entrySources ∉ X ++ entryThings acc := by
      rintro rfl h
      rcases List.mem_append.1 h with h | h
      · exact hX.not (by simp) (by simp) h
      · simp [entryThings] at h
    -- one more entry
    have happ : ∀ (e : Option Nat) (Y : List Thing) (r : List Event), (∀ x, x ∈ Y ↔ x ∈ X ++ entryThings acc ∨ ∃ i, e = some i ∧ x = .table i) →
        inUse (appendTo .entrySources acc.isEmpty :: r) (plus l Y) = inUse r (plus l (X ++ entryThings (acc ++ [e]))) := by
      intro e Y r hY
      have hset : ∀ x, x ∈ Thing.entrySources :: Y ↔ x ∈ X ++ entryThings (acc ++ [e]) := by
        intro x
        simp only [List.mem_cons, hY, List.mem_append, entryThings_mem, List.mem_singleton]
        have : acc ++ [e] ≠ [] := by simp
        grind
      by_cases h : acc = []
      · have h' : acc.isEmpty = true := by simpa using h
        have : Thing.entrySources ∉ Y := fun hm => ((hY _).1 hm).elim (hsrcs h) fun ⟨i, _, e⟩ => by cases e
        rw [h']
        show inUse (.acquire .entrySources :: r) _ = _
        rw [do_acquire (hl.off rfl) this]
        exact congrArg _ (plus_congr hset)
      · have h' : acc.isEmpty = false := by simpa using h
        have hin : Thing.entrySources ∈ Y := (hY _).2 (.inl (List.mem_append_right _ (entryThings_mem.2 (.inl ⟨h, rfl⟩))))
        rw [h']
        show inUse (.use .entrySources :: r) _ = _
        rw [do_use (.inr hin)]
        exact congrArg _ (plus_congr fun x => by rw [← hset, List.mem_cons]; exact ⟨.inr, fun h => h.elim (fun e => e ▸ hin) id⟩)
    unfold entryEvents
    by_cases hf : f = []
    · simp only [if_pos hf]
      obtain ⟨K, k1, k2, k3, k4, k5⟩ := entries_ok hl hc he fs n (acc ++ [none]) X (fun f hf => hr f (by simp [hf])) hX
        (fun i hi => ha i (by simpa using hi)) (by simpa using hn)
      refine ⟨K, k1.mono (by simp), fun h => k2 fun f hf => h f (by simp [hf]), k3, fun i hi => ?_, ?_⟩
      · simpa using k4 i hi
      · simp only [List.cons_append, List.nil_append]
        rw [do_use (.inl he), happ none _ _ (fun x => by simp), k5]
    · simp only [if_neg hf]
      obtain ⟨r, hrr⟩ := hr f (by simp) hf
      have hfree : Free (plus l (X ++ entryThings acc)) (ownFile n) := by
        refine Free.plus (fun x hx => hl.off ?_) fun x hx => hnot x ?_ ?_ ?_
        all_goals
          simp only [ownFile, own, List.cons_append, List.nil_append, List.mem_cons, List.not_mem_nil, or_false] at hx
          rcases hx with rfl | rfl | rfl | rfl | rfl | rfl | rfl | rfl | rfl | rfl | rfl | rfl | rfl | rfl
          all_goals first | rfl | simp
        all_goals intro i hi; omega
      have herr : plus l (X ++ entryThings acc) .err = false := by
        have h1 : l .err = false := hl.off rfl
        have h2 := hnot .err (by simp) (by simp) (by simp)
        simp only [plus, h1, h2, decide_false, Bool.or_self]
      have hcfg : plus l (X ++ entryThings acc) .config = true := by simp [plus, hc]
      have hs := source_ok (e := .err) (.inl rfl) hfree herr hcfg hrr
      have hsrc : source w m f = r := by unfold source; rw [hrr]; rfl
      rw [hsrc]
      cases r with
      | none =>
        simp only
        refine ⟨[], (fun x h => by cases h), fun _ => rfl, hn, fun i h => .inl h, ?_⟩
        simp only [List.cons_append, List.nil_append, if_true]
        rw [do_use (.inl he), inUse_append, hs.2 rfl, Option.bind_some, plus_plus, do_use (.inr (by simp))]
        rfl
      | some s =>
        simp only
        obtain ⟨k, h1, h2⟩ := hs.1 rfl
        obtain ⟨K, k1, k2, k3, k4, k5⟩ := entries_ok hl hc he fs (n + 1) (acc ++ [some n])
          ((if k then [.key n] else []) ++ X) (fun f hf => hr f (by simp [hf]))
          (fun x hx => (List.mem_append.1 hx).elim (fun h => by
            cases k
            · cases h
            · exact .inr ⟨n, Nat.lt_succ_self n, .inl (List.mem_singleton.1 h)⟩) (hX.mono (Nat.le_succ n) x))
          (fun i hi => by
            simp only [List.mem_append, List.mem_singleton, Option.some.injEq] at hi
            rcases hi with hi | rfl
            · exact Nat.lt_succ_of_lt (ha i hi)
            · exact Nat.lt_succ_self i)
          (by
            rw [List.filterMap_append, List.nodup_append]
            refine ⟨hn, by simp, fun a haa b hb => ?_⟩
            obtain ⟨a', ha', e⟩ := List.mem_filterMap.1 haa
            have ha2 : some a ∈ acc := by simpa [← e] using ha'
            have hb' : b = n := by simpa using hb
            subst hb'
            exact Nat.ne_of_lt (ha a ha2))
        refine ⟨K ++ if k then [.key n] else [], fun x hx => ?_, fun h => ?_, k3, fun i hi => ?_, ?_⟩
        · rw [hlen]
          rcases List.mem_append.1 hx with hx | hx
          · exact k1 x hx
          · cases k
            · cases hx
            · exact ⟨n, by omega, List.mem_singleton.1 hx⟩
        · have : k = false := h2 (h f (by simp))
          simp [this, k2 fun f hf => h f (by simp [hf])]
        · rcases k4 i hi with h | h
          · simp only [List.mem_append, List.mem_singleton, Option.some.injEq] at h
            rcases h with h | h
            · exact .inl h
            · exact .inr (by omega)
          · exact .inr (by omega)
        · simp only [List.cons_append, List.nil_append, List.append_assoc]
          rw [do_use (.inl he), inUse_append, h1, Option.bind_some, plus_plus]
          have hap := happ (some n) (.table n :: (X ++ entryThings acc)) (entryEvents w m (n + 1) (acc ++ [some n]) fs).2.2
            (fun x => by simp only [List.mem_cons, Option.some.injEq]; grind)
          have hgo : inUse (appendTo .entrySources acc.isEmpty :: (entryEvents w m (n + 1) (acc ++ [some n]) fs).2.2)
              (plus l (held n k ++ (X ++ entryThings acc))) = inUse (entryEvents w m (n + 1) (acc ++ [some n]) fs).2.2
              (plus l ((if k then [.key n] else []) ++ X ++ entryThings (acc ++ [some n]))) := by
            cases k with
            | false => exact hap
            | true =>
              by_cases h : acc = []
              · have h' : acc.isEmpty = true := by simpa using h
                rw [h']
                show inUse (.acquire .entrySources :: _) _ = _
                rw [do_acquire (hl.off rfl) (by
                  intro hm
                  rcases List.mem_append.1 hm with hm | hm
                  · simp [held] at hm
                  · exact hsrcs h hm)]
                congr 1
                refine plus_congr fun x => ?_
                have : acc ++ [some n] ≠ [] := by simp
                simp only [held, List.mem_cons, List.mem_append, entryThings_mem, if_true, List.cons_append, List.nil_append,
                  List.not_mem_nil, or_false]
                grind
              · have h' : acc.isEmpty = false := by simpa using h
                rw [h']
                show inUse (.use .entrySources :: _) _ = _
                rw [do_use (.inr (List.mem_append_right _ (List.mem_append_right _ (entryThings_mem.2 (.inl ⟨h, rfl⟩)))))]
                congr 1
                refine plus_congr fun x => ?_
                have : acc ++ [some n] ≠ [] := by simp
                simp only [held, List.mem_cons, List.mem_append, entryThings_mem, if_true, List.cons_append, List.nil_append,
                  List.not_mem_nil, or_false]
                grind
          rw [hgo, k5]
          congr 1
          refine plus_congr fun x => ?_
          simp only [List.mem_append]
          grind

/-! ## Releasing many things -/

theorem releases_ok : ∀ (rs : List Thing) (xs : List Thing), rs.Nodup → (∀ x ∈ rs, x ∈ xs) →
    inUse (rs.map Event.release) (plus nothing xs) = some (plus nothing (xs.filter fun x => x ∉ rs))
  | [], xs, _, _ => by simp [inUse_nil]
  | y :: rs, xs, hn, h => by
    rw [List.nodup_cons] at hn
    rw [List.map_cons, do_release (nothing_off _) (h y (by simp)), releases_ok rs _ hn.2 ?_]
    · rw [List.filter_filter]
      congr 2
      refine List.filter_congr fun x _ => ?_
      simp [Bool.and_comm]
    · intro x hx
      rw [List.mem_filter]
      refine ⟨h x (by simp [hx]), ?_⟩
      have : x ≠ y := fun e => hn.1 (e ▸ hx)
      simpa using this

/-- What is released at the end. -/
def cleanupThings (s : Slots) (noEntries : Bool) (es : List (Option Nat)) (noSources : Bool) : List Thing :=
  .config :: slotThings s ++ (if noEntries then [] else [.entries]) ++ ((es.filterMap id).map Thing.table ++
    if es = [] then [] else [.entrySources]) ++ if noSources then [] else [.sources]

theorem cleanup_eq (s : Slots) (noEntries : Bool) (es : List (Option Nat)) (noSources : Bool) :
    cleanup s noEntries es noSources true = (cleanupThings s noEntries es noSources).map Event.release := by
  have hs : ∀ (mk : Nat → Thing) (o : Option Nat), freeSlot mk o = (o.toList.map mk).map Event.release := by
    intro mk o
    cases o <;> rfl
  unfold cleanup cleanupThings slotThings
  rw [hs, hs, hs]
  cases noEntries <;> cases noSources <;> by_cases h : es = [] <;>
    simp [h, List.map_append, List.map_map, Function.comp_def]

def cleanup2Things (kept : List Nat) (err : Bool) : List Thing :=
  kept.map Thing.table ++ (if kept = [] then [] else [.kept]) ++ if err then [.err] else []

theorem cleanup2_eq (kept : List Nat) (err : Bool) :
    cleanup2 kept err = (cleanup2Things kept err).map Event.release := by
  unfold cleanup2 cleanup2Things freeTables
  cases err <;> by_cases h : kept = [] <;> simp [h, List.map_map, Function.comp_def]

theorem nodup_append' {a b : List Thing} (h1 : a.Nodup) (h2 : b.Nodup) (h3 : ∀ x ∈ a, x ∉ b) : (a ++ b).Nodup :=
  List.nodup_append.2 ⟨h1, h2, fun x hx _ hy e => h3 x hx (e ▸ hy)⟩

theorem opt_nodup (b : Prop) [Decidable b] (x : Thing) : (if b then [] else [x]).Nodup := by
  split <;> simp

theorem opt_mem {x : Thing} {b : Prop} [Decidable b] {y : Thing} (h : x ∈ (if b then [] else [y])) : x = y := by
  split at h
  · cases h
  · exact List.mem_singleton.1 h

theorem slots_nodup (s : Slots) : (slotThings s).Nodup := by
  obtain ⟨a, b, c⟩ := s
  unfold slotThings
  cases a <;> cases b <;> cases c <;> simp

theorem slots_mem {s : Slots} {x : Thing} (hx : x ∈ slotThings s) :
    (∃ i, x = .template i) ∨ (∃ i, x = .output i) ∨ ∃ i, x = .print i := by
  simp only [slotThings, List.mem_append, List.mem_map] at hx
  rcases hx with (⟨i, -, rfl⟩ | ⟨i, -, rfl⟩) | ⟨i, -, rfl⟩
  · exact .inl ⟨i, rfl⟩
  · exact .inr (.inl ⟨i, rfl⟩)
  · exact .inr (.inr ⟨i, rfl⟩)

theorem cleanup2_nodup {kept : List Nat} (hk : kept.Nodup) (err : Bool) : (cleanup2Things kept err).Nodup := by
  have hkt : (kept.map Thing.table).Nodup := List.Nodup.map (fun a b e => by cases e; rfl) hk
  unfold cleanup2Things
  refine nodup_append' (nodup_append' hkt (opt_nodup _ _) fun x hx hy => ?_) (by cases err <;> simp) fun x hx hy => ?_
  · obtain ⟨i, -, rfl⟩ := List.mem_map.1 hx
    cases opt_mem hy
  · cases err
    · cases hy
    · cases List.mem_singleton.1 hy
      rcases List.mem_append.1 hx with hx | hx
      · simp at hx
      · cases opt_mem hx

theorem cleanup_nodup1 {es : List (Option Nat)} (he : (es.filterMap id).Nodup) (s : Slots) (a b : Bool) :
    (cleanupThings s a es b).Nodup := by
  have het : ((es.filterMap id).map Thing.table).Nodup := List.Nodup.map (fun a b e => by cases e; rfl) he
  unfold cleanupThings
  rw [List.cons_append, List.cons_append, List.cons_append]
  have hslot : ∀ x ∈ slotThings s ++ (if a then [] else [Thing.entries]),
      (∃ i, x = .template i) ∨ (∃ i, x = .output i) ∨ (∃ i, x = .print i) ∨ x = .entries := by
    intro x hx
    rcases List.mem_append.1 hx with hx | hx
    · rcases slots_mem hx with h | h | h
      · exact .inl h
      · exact .inr (.inl h)
      · exact .inr (.inr (.inl h))
    · exact .inr (.inr (.inr (opt_mem hx)))
  have hent : ∀ x ∈ (es.filterMap id).map Thing.table ++ (if es = [] then [] else [Thing.entrySources]),
      (∃ i, x = .table i) ∨ x = .entrySources := by
    intro x hx
    rcases List.mem_append.1 hx with hx | hx
    · obtain ⟨i, -, rfl⟩ := List.mem_map.1 hx
      exact .inl ⟨i, rfl⟩
    · exact .inr (opt_mem hx)
  refine List.nodup_cons.2 ⟨fun h => ?_, nodup_append' (nodup_append' (nodup_append' (slots_nodup s) (opt_nodup _ _) fun x hx hy => ?_)
      (nodup_append' het (opt_nodup _ _) fun x hx hy => ?_) fun x hx hy => ?_) (opt_nodup _ _) fun x hx hy => ?_⟩
  · rcases List.mem_append.1 h with h | h
    · rcases List.mem_append.1 h with h | h
      · rcases hslot _ h with ⟨i, e⟩ | ⟨i, e⟩ | ⟨i, e⟩ | e <;> cases e
      · rcases hent _ h with ⟨i, e⟩ | e <;> cases e
    · cases opt_mem h
  · rcases slots_mem hx with ⟨i, rfl⟩ | ⟨i, rfl⟩ | ⟨i, rfl⟩ <;> cases opt_mem hy
  · obtain ⟨i, -, rfl⟩ := List.mem_map.1 hx
    cases opt_mem hy
  · rcases hslot _ hx with ⟨i, rfl⟩ | ⟨i, rfl⟩ | ⟨i, rfl⟩ | rfl <;> rcases hent _ hy with ⟨j, e⟩ | e <;> cases e
  · cases opt_mem hy
    rcases List.mem_append.1 hx with h | h
    · rcases hslot _ h with ⟨i, e⟩ | ⟨i, e⟩ | ⟨i, e⟩ | e <;> cases e
    · rcases hent _ h with ⟨i, e⟩ | e <;> cases e

theorem cleanup_nodup {kept : List Nat} {es : List (Option Nat)} (hk : kept.Nodup) (he : (es.filterMap id).Nodup)
    (hd : ∀ i ∈ kept, some i ∉ es) {err : Bool} {s : Slots} {a b : Bool} :
    (cleanup2Things kept err ++ cleanupThings s a es b).Nodup := by
  refine nodup_append' (cleanup2_nodup hk err) (cleanup_nodup1 he s a b) fun x hx hy => ?_
  have h1 : (∃ i, i ∈ kept ∧ x = .table i) ∨ x = .kept ∨ x = .err := by
    unfold cleanup2Things at hx
    rcases List.mem_append.1 hx with h | h
    · rcases List.mem_append.1 h with h | h
      · obtain ⟨i, hi, rfl⟩ := List.mem_map.1 h
        exact .inl ⟨i, hi, rfl⟩
      · exact .inr (.inl (opt_mem h))
    · cases err
      · cases h
      · exact .inr (.inr (List.mem_singleton.1 h))
  have hent : ∀ i, x = .table i → some i ∈ es := by
    rintro i rfl
    simp only [cleanupThings, List.mem_append, List.mem_cons] at hy
    rcases hy with (((h | h) | h) | h | h) | h
    · cases h
    · rcases slots_mem h with ⟨i, e⟩ | ⟨i, e⟩ | ⟨i, e⟩ <;> cases e
    · cases opt_mem h
    · obtain ⟨j, hj, e⟩ := List.mem_map.1 h
      cases e
      obtain ⟨a, ha, e⟩ := List.mem_filterMap.1 hj
      simpa [← e] using ha
    · cases opt_mem h
    · cases opt_mem h
  rcases h1 with ⟨i, hi, e⟩ | h1
  · exact hd i hi (hent i e)
  · simp only [cleanupThings, List.mem_append, List.mem_cons] at hy
    rcases hy with (((h | h) | h) | h | h) | h
    · rcases h1 with rfl | rfl <;> cases h
    · rcases slots_mem h with ⟨i, e⟩ | ⟨i, e⟩ | ⟨i, e⟩ <;> rcases h1 with rfl | rfl <;> cases e
    · rcases h1 with rfl | rfl <;> cases opt_mem h
    · obtain ⟨j, hj, e⟩ := List.mem_map.1 h
      rcases h1 with rfl | rfl <;> cases e
    · rcases h1 with rfl | rfl <;> cases opt_mem h
    · rcases h1 with rfl | rfl <;> cases opt_mem h

/-- At the end, only lost values and keys are left. -/
theorem end_ok {kept : List Nat} {err : Bool} {s : Slots} {o : Main.Opts} {es : List (Option Nat)} {K lost xs : List Thing}
    (hk : kept.Nodup) (he : (es.filterMap id).Nodup) (hd : ∀ i ∈ kept, some i ∉ es)
    (hx : ∀ x, x ∈ xs ↔ (err = true ∧ x = .err) ∨ x ∈ K ∨ x ∈ listed .kept kept ∨ x ∈ entryThings es ∨ x ∈ argState lost o s) :
    ∃ ys, (∀ y ∈ ys, y ∈ K ∨ y ∈ lost) ∧
      inUse (cleanup2 kept err ++ cleanup s o.entries.isEmpty es o.sources.isEmpty true) (plus nothing xs) =
        some (plus nothing ys) := by
  rw [cleanup2_eq, cleanup_eq, ← List.map_append]
  have hiff : ∀ x, x ∈ cleanup2Things kept err ++ cleanupThings s o.entries.isEmpty es o.sources.isEmpty ↔
      (err = true ∧ x = .err) ∨ x ∈ listed .kept kept ∨ x ∈ entryThings es ∨ x ∈ argState [] o s := by
    intro x
    cases err <;> simp [cleanup2Things, cleanupThings, listed, entryThings, argState, nameThings] <;> grind
  refine ⟨_, ?_, releases_ok _ _ ?_ ?_⟩
  · intro y hy
    rw [List.mem_filter, hx] at hy
    have hy2 := of_decide_eq_true hy.2
    rw [hiff] at hy2
    have hy1 := hy.1
    simp only [argState, List.mem_append, List.not_mem_nil, false_or] at hy1 hy2
    grind
  · exact cleanup_nodup hk he hd
  · intro x h
    rw [hx]
    rcases (hiff x).1 h with h | h | h | h
    · exact .inl h
    · exact .inr (.inr (.inl h))
    · exact .inr (.inr (.inr (.inl h)))
    · refine .inr (.inr (.inr (.inr ?_)))
      simp only [argState, List.mem_append, List.not_mem_nil, false_or] at h ⊢
      exact .inr h

end Blogc.BlogcMem
