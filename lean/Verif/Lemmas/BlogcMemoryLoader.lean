import Verif.Lemmas.BlogcMemory
import Verif.Props.C10

/-!
# Lemmas about the memory of blogc: the loader
-/

namespace Blogc.BlogcMem

open Blogc Blogc.Spec.Account

/-- The things that `main` has when it calls the loader. -/
def isMain : Thing → Bool
  | .config | .sources | .entries | .template _ | .output _ | .print _ => true
  | _ => false

/-- Only those are in use. -/
def Base (l : InUse) : Prop := ∀ x, l x = true → isMain x = true

theorem Base.off {l : InUse} (h : Base l) {x : Thing} (hx : isMain x = false) : l x = false := by
  cases e : l x with
  | false => rfl
  | true => rw [h x e] at hx; cases hx

/-- Keys of files before the `n`-th. -/
def KeysBelow (n : Nat) (K : List Thing) : Prop := ∀ x ∈ K, ∃ i, i < n ∧ x = .key i

theorem KeysBelow.mono {n m : Nat} {K : List Thing} (h : KeysBelow n K) (hm : n ≤ m) : KeysBelow m K := fun x hx => by
  obtain ⟨i, hi, e⟩ := h x hx
  exact ⟨i, Nat.lt_of_lt_of_le hi hm, e⟩

theorem KeysBelow.not {n : Nat} {K : List Thing} (h : KeysBelow n K) {x : Thing} (hx : ∀ i, i < n → x ≠ .key i) : x ∉ K :=
  fun hk => by
    obtain ⟨i, hi, e⟩ := h x hk
    exact hx i hi e

/-- Releasing tables. -/
theorem release_tables {l : InUse} (hl : Base l) : ∀ (ts : List Nat) (xs : List Thing) (r : List Event), ts.Nodup →
    (∀ i ∈ ts, .table i ∈ xs) →
    inUse (ts.map (fun n => .release (.table n)) ++ r) (plus l xs) =
      inUse r (plus l (xs.filter fun x => x ∉ ts.map Thing.table))
  | [], xs, r, _, _ => by
    simp
  | i :: ts, xs, r, hn, hm => by
    rw [List.nodup_cons] at hn
    rw [List.map_cons, List.cons_append, do_release (hl.off rfl) (hm i (by simp)),
      release_tables hl ts _ r hn.2 ?_]
    · congr 2
      rw [List.filter_filter]
      refine List.filter_congr fun x _ => ?_
      simp [Bool.and_comm]
    · intro j hj
      rw [List.mem_filter]
      refine ⟨hm j (by simp [hj]), ?_⟩
      have : j ≠ i := fun e => hn.1 (e ▸ hj)
      simpa using this

theorem freeTables_ok {l : InUse} (hl : Base l) {ts : List Nat} {xs : List Thing} {list : Thing} (hm : isMain list = false)
    (hn : ts.Nodup) (ht : ∀ i ∈ ts, .table i ∈ xs) (hlist : ts ≠ [] → list ∈ xs) (hne : ∀ i, list ≠ .table i) (r : List Event) :
    inUse (freeTables list ts ++ r) (plus l xs) =
      inUse r (plus l (xs.filter fun x => x ∉ ts.map Thing.table ∧ (ts ≠ [] → x ≠ list))) := by
  unfold freeTables
  rw [List.append_assoc, release_tables hl ts xs _ hn ht]
  by_cases h : ts = []
  · subst h
    simp
  · rw [if_neg h, List.singleton_append, do_release (hl.off hm)]
    · congr 2
      rw [List.filter_filter]
      refine List.filter_congr fun x _ => ?_
      simp only [ne_eq, h, not_false_eq_true, true_imp_iff, decide_not, Bool.decide_and, Bool.and_comm]
    · rw [List.mem_filter]
      refine ⟨hlist h, ?_⟩
      simpa using fun i _ => (hne i).symm

/-- The tables of some sources, and the list of them. -/
def listed (list : Thing) (ts : List Nat) : List Thing := (if ts = [] then [] else [list]) ++ ts.map Thing.table

theorem freeListed_ok {l : InUse} (hl : Base l) {ts : List Nat} {xs : List Thing} {list : Thing} (hm : isMain list = false)
    (hn : ts.Nodup) (hne : ∀ i, list ≠ .table i) (h1 : list ∉ xs) (h2 : ∀ i, .table i ∉ xs) (r : List Event) :
    inUse (freeTables list ts ++ r) (plus l (xs ++ listed list ts)) = inUse r (plus l xs) := by
  rw [freeTables_ok hl hm hn (fun i hi => by simp [listed, hi]) (fun h => by simp [listed, h]) hne]
  congr 1
  refine plus_congr fun x => ?_
  rw [List.mem_filter]
  constructor
  · rintro ⟨hx, hc⟩
    have hc := of_decide_eq_true hc
    rcases List.mem_append.1 hx with hx | hx
    · exact hx
    · rcases List.mem_append.1 hx with hx | hx
      · by_cases hts : ts = []
        · simp [hts] at hx
        · rw [if_neg hts] at hx
          exact absurd (by simpa using hx) (hc.2 hts)
      · exact absurd hx hc.1
  · intro hx
    refine ⟨List.mem_append_left _ hx, decide_eq_true ⟨fun h => ?_, fun _ e => h1 (e ▸ hx)⟩⟩
    obtain ⟨i, -, rfl⟩ := List.mem_map.1 h
    exact h2 i hx

/-- All files read end with a line end. -/
def Ended (w : World) (f : Str) : Prop :=
  ∀ s, Program.readText w.files w.fuel f = .ok (some s) → ∃ c, s.getLast? = some c ∧ Source.isNl c = true

/-- Reading the file is defined, and the bounds of the model suffice. -/
def Readable (w : World) (m : Option Str) (f : Str) : Prop :=
  ∃ r, Program.readSource w.files w.depth w.fuel m f = .ok r

/-- What is in use while the sources are loaded. -/
def loading (K : List Thing) (acc : List Nat) : List Thing := K ++ listed .loaded acc

theorem loading_free {l : InUse} (hl : Base l) {n : Nat} {K : List Thing} (hK : KeysBelow n K) {acc : List Nat}
    (ha : ∀ i ∈ acc, i < n) : Free (plus l (loading K acc)) (ownFile n) := by
  refine Free.plus (fun x hx => hl.off ?_) fun x hx hm => ?_
  · simp only [ownFile, own, List.cons_append, List.nil_append, List.mem_cons, List.not_mem_nil, or_false] at hx
    rcases hx with rfl | rfl | rfl | rfl | rfl | rfl | rfl | rfl | rfl | rfl | rfl | rfl | rfl | rfl <;> rfl
  · rcases List.mem_append.1 hm with hm | hm
    · obtain ⟨i, hi, rfl⟩ := hK x hm
      simp [ownFile, own] at hx
      omega
    · rcases List.mem_append.1 hm with hm | hm
      · split at hm
        · cases hm
        · simp only [List.mem_singleton] at hm
          subst hm
          simp [ownFile, own] at hx
      · obtain ⟨i, hi, rfl⟩ := List.mem_map.1 hm
        have := ha i hi
        simp [ownFile, own] at hx
        omega

/-- One more source. -/
theorem append_loaded {l : InUse} (hl : Base l) {n : Nat} {K : List Thing} {k : Bool} {acc : List Nat} (hK : KeysBelow n K)
    (r : List Event) :
    inUse (appendTo .loaded acc.isEmpty :: r) (plus l (held n k ++ loading K acc)) =
      inUse r (plus l (loading (K ++ if k then [.key n] else []) (acc ++ [n]))) := by
  have hs : ∀ x, x ∈ Thing.loaded :: (held n k ++ loading K acc) ↔
      x ∈ loading (K ++ if k then [.key n] else []) (acc ++ [n]) := by
    intro x
    simp only [loading, listed, held, List.append_eq_nil_iff, List.cons_ne_self, and_false, if_false, List.map_append,
      List.map_cons, List.map_nil, List.mem_cons, List.mem_append, List.cons_append, List.not_mem_nil, or_false]
    by_cases ha : acc = [] <;> simp [ha] <;> grind
  unfold appendTo
  by_cases ha : acc = []
  · subst ha
    simp only [List.isEmpty_nil, if_true]
    rw [do_acquire (hl.off rfl), plus_congr hs]
    intro hm
    rcases List.mem_append.1 hm with hm | hm
    · cases k <;> simp [held] at hm
    · rcases List.mem_append.1 hm with hm | hm
      · exact hK.not (by simp) hm
      · simp [listed] at hm
  · have : acc.isEmpty = false := by simpa using ha
    rw [this]
    simp only [Bool.false_eq_true, if_false]
    have hin : Thing.loaded ∈ held n k ++ loading K acc := by simp [loading, listed, ha]
    rw [do_use (.inr hin)]
    congr 1
    refine plus_congr fun x => ?_
    rw [← hs x, List.mem_cons]
    exact ⟨.inr, fun h => h.elim (fun e => e ▸ hin) id⟩

theorem load_ok {w : World} {stamp : Str → Option Str} {m : Option Str} {sort : Bool} {l : InUse} (hl : Base l)
    (hc : l .config = true) : ∀ (fs : List Str) (n : Nat) (acc : Tables) (dates : Nat) (K : List Thing),
    (∀ f ∈ fs, Readable w m f) → KeysBelow n K → (acc.map (·.1)).Nodup → (∀ i ∈ acc.map (·.1), i < n) →
    ∃ K', KeysBelow (n + fs.length) K' ∧ ((∀ f ∈ fs, Ended w f) → K' = K) ∧
      match (load w stamp m sort n acc dates fs).1 with
      | none => inUse (load w stamp m sort n acc dates fs).2 (plus l (loading K (acc.map (·.1)))) = some (plus l (.err :: K'))
      | some (ts, _) => (ts.map (·.1)).Nodup ∧ (∀ i ∈ ts.map (·.1), i < n + fs.length) ∧
        inUse (load w stamp m sort n acc dates fs).2 (plus l (loading K (acc.map (·.1)))) =
          some (plus l (loading K' (ts.map (·.1))))
  | [], n, acc, dates, K, _, hK, hn, hb => ⟨K, by simpa using hK, fun _ => rfl, by
      refine ⟨hn, by simpa using hb, rfl⟩⟩
  | f :: fs, n, acc, dates, K, hr, hK, hn, hb => by
    obtain ⟨r, hrr⟩ := hr f (by simp)
    have hfree := loading_free hl hK hb
    have htmp : plus l (loading K (acc.map (·.1))) .tmpErr = false := by
      have h1 : l .tmpErr = false := hl.off rfl
      have h2 : Thing.tmpErr ∉ K := hK.not (by simp)
      simp [plus, h1, h2, loading, listed]
    have hcfg : plus l (loading K (acc.map (·.1))) .config = true := by simp [plus, hc]
    have hs := source_ok (e := .tmpErr) (.inr rfl) hfree htmp hcfg hrr
    have hsrc : source w m f = r := by unfold source; rw [hrr]; rfl
    have hKl : ∀ {x}, (∀ i, x ≠ Thing.key i) → x ∉ K := fun h => hK.not fun i _ => h i
    simp only [load, hsrc]
    cases r with
    | none =>
      refine ⟨K, hK.mono (Nat.le_add_right _ _), fun _ => rfl, ?_⟩
      simp only
      rw [List.append_assoc, inUse_append, hs.2 rfl, Option.bind_some, plus_plus]
      simp only [List.cons_append, List.nil_append]
      rw [do_acquire (hl.off rfl) (by simp [loading, listed, hKl]), do_use (.inr (by simp)), do_release (hl.off rfl) (by simp)]
      have he : plus l (List.filter (fun x => decide (x ≠ .tmpErr)) (.err :: .tmpErr :: loading K (acc.map (·.1)))) =
          plus l ((.err :: K) ++ listed .loaded (acc.map (·.1))) := by
        refine plus_congr fun x => ?_
        have : Thing.tmpErr ∉ loading K (acc.map (·.1)) := by simp [loading, listed, hKl]
        simp only [List.mem_filter, List.mem_cons, loading, List.cons_append, List.mem_append] at this ⊢
        grind
      rw [he, ← List.append_nil (freeTables _ _), freeListed_ok hl rfl hn (by simp) (by simp [hKl]) (by simp [hKl])]
      rfl
    | some s =>
      obtain ⟨k, h1, h2⟩ := hs.1 rfl
      have hK' : KeysBelow (n + 1) (K ++ if k then [.key n] else []) := by
        intro x hx
        rcases List.mem_append.1 hx with hx | hx
        · exact hK.mono (Nat.le_succ _) x hx
        · cases k with
          | false => cases hx
          | true => exact ⟨n, Nat.lt_succ_self _, by simpa using hx⟩
      have hKl' : ∀ {x}, (∀ i, x ≠ Thing.key i) → x ∉ K ++ if k then [.key n] else [] := fun h => hK'.not fun i _ => h i
      have hkk : (∀ f' ∈ f :: fs, Ended w f') → (K ++ if k then [Thing.key n] else []) = K := by
        intro h
        have : k = false := h2 (h f (by simp))
        simp [this]
      have ht : ∀ ⦃x⦄, x ∈ held n k ++ loading K (acc.map (·.1)) ↔
          x ∈ .table n :: (K ++ if k then [.key n] else []) ++ listed .loaded (acc.map (·.1)) := by
        intro x
        simp only [held, loading, List.mem_append, List.mem_cons, List.cons_append]
        grind
      have hnt : Thing.table n ∉ (K ++ if k then [.key n] else []) ++ listed .loaded (acc.map (·.1)) := by
        have : n ∉ acc.map (·.1) := fun h => Nat.lt_irrefl _ (hb n h)
        rw [List.mem_append]
        rintro (h | h)
        · exact hKl' (by simp) h
        · unfold listed at h
          rcases List.mem_append.1 h with h | h
          · split at h <;> simp at h
          · obtain ⟨i, hi, e⟩ := List.mem_map.1 h
            cases e
            exact this hi
      have hacc' : ∀ s' : Trie Str, ((acc ++ [(n, s')]).map (·.1)) = acc.map (·.1) ++ [n] := fun s' => by simp
      have hn' : (acc.map (·.1) ++ [n]).Nodup := by
        rw [List.nodup_append]
        refine ⟨hn, by simp, fun a ha b hb' => ?_⟩
        simp only [List.mem_singleton] at hb'
        subst hb'
        exact Nat.ne_of_lt (hb a ha)
      have hb' : ∀ i ∈ acc.map (·.1) ++ [n], i < n + 1 := by
        intro i hi
        rcases List.mem_append.1 hi with hi | hi
        · exact Nat.lt_succ_of_lt (hb i hi)
        · simp only [List.mem_singleton] at hi
          omega
      have hlen : n + (f :: fs).length = n + 1 + fs.length := by
        simp only [List.length_cons]
        omega
      -- after an error with this source
      have hbad : ∀ pre : List Event,
          inUse pre (plus l (held n k ++ loading K (acc.map (·.1)))) =
            some (plus l (.err :: .table n :: (K ++ if k then [.key n] else []) ++ listed .loaded (acc.map (·.1)))) →
          inUse (pre ++ [.release (.table n)] ++ freeTables .loaded (acc.map (·.1)))
            (plus l (held n k ++ loading K (acc.map (·.1)))) = some (plus l (.err :: (K ++ if k then [.key n] else []))) := by
        intro pre hp
        rw [List.append_assoc, inUse_append, hp, Option.bind_some, List.singleton_append, do_release (hl.off rfl) (by simp)]
        have he : plus l (List.filter (fun x => decide (x ≠ .table n)) (.err :: .table n ::
            (K ++ if k then [.key n] else []) ++ listed .loaded (acc.map (·.1)))) =
            plus l ((.err :: (K ++ if k then [.key n] else [])) ++ listed .loaded (acc.map (·.1))) := by
          refine plus_congr fun x => ?_
          simp only [List.mem_filter, List.mem_cons, List.cons_append] at hnt ⊢
          grind
        rw [he, ← List.append_nil (freeTables _ _),
          freeListed_ok hl rfl hn (by simp) (by simp [hKl]) (by simp [hKl])]
        rfl
      have hpos : inUse (sourceEvents w .tmpErr n m f ++ [.use (.table n)]) (plus l (loading K (acc.map (·.1)))) =
          some (plus l (held n k ++ loading K (acc.map (·.1)))) := by
        rw [inUse_append, h1, Option.bind_some, plus_plus, do_use (.inr (by simp [held])), inUse_nil]
      have hnot : ∀ {x}, (∀ i, x ≠ Thing.key i) → (∀ i, x ≠ Thing.table i) → x ≠ .loaded →
          x ∉ held n k ++ loading K (acc.map (·.1)) := by
        intro x h1 h2 h3 h
        rw [ht] at h
        simp only [List.cons_append, List.mem_cons] at h
        rcases h with h | h
        · exact h2 n h
        · rcases List.mem_append.1 h with h | h
          · exact hKl' h1 h
          · rcases List.mem_append.1 h with h | h
            · split at h
              · cases h
              · exact h3 (by simpa using h)
            · obtain ⟨i, -, e⟩ := List.mem_map.1 h
              exact h2 i e.symm
      have hstate : ∀ xs, (∀ x, x ∈ xs ↔ x ∈ Thing.err :: (held n k ++ loading K (acc.map (·.1)))) →
          plus l xs = plus l (.err :: .table n :: (K ++ if k then [.key n] else []) ++ listed .loaded (acc.map (·.1))) :=
        fun xs h => plus_congr fun x => by rw [h, List.mem_cons, ht]; simp
      -- going on with the other sources
      have hgo : ∀ s' : Trie Str, ∀ d, ∀ pre : List Event,
          inUse pre (plus l (loading K (acc.map (·.1)))) = some (plus l (held n k ++ loading K (acc.map (·.1)))) →
          ∃ K', KeysBelow (n + (f :: fs).length) K' ∧ ((∀ f' ∈ f :: fs, Ended w f') → K' = K) ∧
            match (load w stamp m sort (n + 1) (acc ++ [(n, s')]) d fs).1 with
            | none => inUse (pre ++ [appendTo .loaded acc.isEmpty] ++ (load w stamp m sort (n + 1) (acc ++ [(n, s')]) d fs).2)
                (plus l (loading K (acc.map (·.1)))) = some (plus l (.err :: K'))
            | some (ts, _) => (ts.map (·.1)).Nodup ∧ (∀ i ∈ ts.map (·.1), i < n + (f :: fs).length) ∧
              inUse (pre ++ [appendTo .loaded acc.isEmpty] ++ (load w stamp m sort (n + 1) (acc ++ [(n, s')]) d fs).2)
                (plus l (loading K (acc.map (·.1)))) = some (plus l (loading K' (ts.map (·.1)))) := by
        intro s' d pre hp
        obtain ⟨K', a1, a2, a3⟩ := load_ok (w := w) (stamp := stamp) (m := m) (sort := sort) hl hc fs (n + 1)
          (acc ++ [(n, s')]) d (K ++ if k then [.key n] else []) (fun f hf => hr f (by simp [hf])) hK'
          (by rw [hacc']; exact hn') (by rw [hacc']; exact hb')
        have hrun : ∀ r, inUse (pre ++ [appendTo .loaded acc.isEmpty] ++ r) (plus l (loading K (acc.map (·.1)))) =
            inUse r (plus l (loading (K ++ if k then [.key n] else []) (acc.map (·.1) ++ [n]))) := by
          intro r
          rw [List.append_assoc, inUse_append, hp, Option.bind_some, List.singleton_append]
          have := append_loaded hl (k := k) (acc := acc.map (·.1)) hK r
          rwa [List.isEmpty_map] at this
        rw [hlen]
        refine ⟨K', a1, fun h => (a2 fun f hf => h f (by simp [hf])).trans (hkk h), ?_⟩
        simp only [hacc'] at a3
        split
        · rename_i hx
          rw [hx] at a3
          rw [hrun]
          exact a3
        · rename_i ts x hx
          rw [hx] at a3
          rw [hrun]
          exact a3
      by_cases hsort : sort = true
      · subst hsort
        simp only [if_true]
        cases hd : s.lookup b!"DATE" with
        | none =>
          refine ⟨_, by rw [hlen]; exact hK'.mono (Nat.le_add_right _ _), hkk, ?_⟩
          simp only
          rw [show sourceEvents w .tmpErr n m f ++ [.use (.table n)] ++ [.acquire .err, .release (.table n)] ++
              freeTables .loaded (acc.map (·.1)) = (sourceEvents w .tmpErr n m f ++ [.use (.table n)]) ++
              ([.acquire .err] ++ [.release (.table n)] ++ freeTables .loaded (acc.map (·.1))) by simp,
            inUse_append, hpos, Option.bind_some]
          refine hbad _ ?_
          rw [do_acquire (hl.off rfl) (hnot (by simp) (by simp) (by simp)), inUse_nil]
          exact congrArg some (hstate _ fun x => Iff.rfl)
        | some d =>
          simp only
          cases hst : stamp d with
          | none =>
            refine ⟨_, by rw [hlen]; exact hK'.mono (Nat.le_add_right _ _), hkk, ?_⟩
            simp only
            rw [show sourceEvents w .tmpErr n m f ++ [.use (.table n)] ++ [.use (.table n), .acquire .tmpErr, .acquire .err,
                .use .tmpErr, .release .tmpErr, .release (.table n)] ++
                freeTables .loaded (acc.map (·.1)) = (sourceEvents w .tmpErr n m f ++ [.use (.table n)]) ++
                ([.use (.table n), .acquire .tmpErr, .acquire .err, .use .tmpErr, .release .tmpErr] ++
                  [.release (.table n)] ++ freeTables .loaded (acc.map (·.1))) by simp,
              inUse_append, hpos, Option.bind_some]
            refine hbad _ ?_
            have hnt' := hnot (x := .tmpErr) (by simp) (by simp) (by simp)
            rw [do_use (.inr (by simp [held])), do_acquire (hl.off rfl) hnt', do_acquire (hl.off rfl)
              (by rw [List.mem_cons]; rintro (h | h); cases h; exact hnot (by simp) (by simp) (by simp) h),
              do_use (.inr (by simp)), do_release (hl.off rfl) (by simp), inUse_nil]
            refine congrArg some (hstate _ fun x => ?_)
            rw [List.mem_filter]
            grind
          | some ts =>
            simp only
            have := hgo (Loader.set s b!"c" ts) ((if (some d).isSome = true then 1 else 0) + dates)
              (sourceEvents w .tmpErr n m f ++ [.use (.table n)] ++ [.use (.table n), .acquire .timestamp, .give .timestamp (.table n)]) (by
                rw [inUse_append, hpos, Option.bind_some]
                have hnt' := hnot (x := .timestamp) (by simp) (by simp) (by simp)
                rw [do_use (.inr (by simp [held])), do_acquire (hl.off rfl) hnt',
                  do_give (hl.off rfl) (by simp) (.inr (by simp [held])) (by simp), inUse_nil]
                refine congrArg some (plus_congr fun x => ?_)
                rw [List.mem_filter]
                grind)
            simpa only [List.append_assoc, List.cons_append, List.nil_append] using this
      · have : sort = false := by simpa using hsort
        subst this
        simp only [Bool.false_eq_true, if_false]
        exact hgo s _ _ hpos

end Blogc.BlogcMem
