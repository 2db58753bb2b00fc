import Verif.Lemmas.BlogcMemoryLoader

/-!
# Lemmas about the memory of blogc: order and choice of the sources
-/

namespace Blogc.BlogcMem

open Blogc Blogc.Spec.Account

theorem order_ok (sort reverse : Bool) (l : Tables) : ∃ r, order sort reverse l = some r ∧ r.Perm l := by
  unfold order
  cases sort with
  | true =>
    obtain ⟨r, h, hp⟩ := C10.sort_safe
      (fun _ (a b : Nat × Trie Str) => if reverse then Loader.sortSourceReverse a.2 b.2 else Loader.sortSource a.2 b.2) l
      (l.length + 1) (by omega)
    simp only [if_true, h]
    exact ⟨r, rfl, hp⟩
  | false =>
    cases reverse with
    | true => exact ⟨_, rfl, List.reverse_perm l⟩
    | false => exact ⟨_, rfl, .refl _⟩

/-- Using things that are in use changes nothing. -/
theorem uses_ok {l : InUse} {xs : List Thing} : ∀ (us : List Thing), (∀ u ∈ us, l u = true ∨ u ∈ xs) → ∀ r : List Event,
    inUse (us.map Event.use ++ r) (plus l xs) = inUse r (plus l xs)
  | [], _, _ => rfl
  | u :: us, h, r => by
    rw [List.map_cons, List.cons_append, do_use (h u (by simp)), uses_ok us (fun u hu => h u (by simp [hu])) r]

theorem tables_used {l : InUse} {xs : List Thing} (ts : List Nat) (h : ∀ i ∈ ts, .table i ∈ xs) (r : List Event) :
    inUse (ts.map (fun n => Event.use (.table n)) ++ r) (plus l xs) = inUse r (plus l xs) := by
  have := uses_ok (l := l) (xs := xs) (ts.map Thing.table) (by
    intro u hu
    obtain ⟨i, hi, rfl⟩ := List.mem_map.1 hu
    exact .inr (h i hi)) r
  rwa [List.map_map] at this

theorem KeysBelow.plain {n : Nat} {K : List Thing} (h : KeysBelow n K) {x : Thing} (hx : ∀ i, x ≠ .key i) : x ∉ K :=
  h.not fun i _ => hx i

theorem orderEvents_list (sort reverse : Bool) (ts : Tables) :
    (orderEvents sort reverse ts).1 = .loaded ∨ (orderEvents sort reverse ts).1 = .reversed := by
  unfold orderEvents
  cases sort <;> cases reverse <;> simp

theorem orderEvents_ok {l : InUse} (hl : Base l) {n : Nat} {K : List Thing} (hK : KeysBelow n K) (sort reverse : Bool)
    (ts : Tables) (r : List Event) :
    inUse ((orderEvents sort reverse ts).2 ++ r) (plus l (K ++ listed .loaded (ts.map (·.1)))) =
      inUse r (plus l (K ++ listed (orderEvents sort reverse ts).1 (ts.map (·.1)))) := by
  unfold orderEvents
  by_cases ht : ts = []
  · subst ht
    cases sort <;> cases reverse <;> simp [listed]
  have ht' : ts.map (·.1) ≠ [] := by simpa using ht
  cases sort with
  | true =>
    simp only [if_true, if_neg ht, List.cons_append]
    rw [do_use (.inr (by simp [listed, ht]))]
    have := tables_used (l := l) (xs := K ++ listed .loaded (ts.map (·.1))) (ts.map (·.1)) (fun i hi => by
      unfold listed
      exact List.mem_append_right _ (List.mem_append_right _ (List.mem_map_of_mem hi))) r
    rw [List.map_map] at this
    exact this
  | false =>
    cases reverse with
    | false => rfl
    | true =>
      simp only [Bool.false_eq_true, if_false, if_true, if_neg ht, List.cons_append, List.nil_append]
      rw [do_use (.inr (by simp [listed, ht])), do_acquire (hl.off rfl) (by simp [listed, hK.plain]),
        do_release (hl.off rfl) (by simp [listed, ht])]
      congr 1
      refine plus_congr fun x => ?_
      have h1 : Thing.loaded ∉ K := hK.plain (by simp)
      unfold listed
      rw [if_neg ht', if_neg ht']
      simp only [List.mem_filter, List.mem_cons, List.mem_append, List.mem_map, List.not_mem_nil, or_false]
      grind

/-- What keeps a page of sources. -/
theorem page_ok {l : InUse} (hl : Base l) (hc : l .config = true) (ft : Option Str) (paged : Bool) (start stop : Nat) :
    ∀ (ts : Tables) (counter : Nat) (empty : Bool) (ys : List Thing) (r : List Event),
    (ts.map (·.1)).Nodup → (∀ i ∈ ts.map (·.1), .table i ∉ ys) → .tags ∉ ys → (empty = true → .kept ∉ ys) →
    (empty = false → .kept ∈ ys) →
    inUse ((pageEvents ft paged start stop ts counter empty).2 ++ r) (plus l (ys ++ (ts.map (·.1)).map Thing.table)) =
      inUse r (plus l (ys ++ listed .kept ((pageEvents ft paged start stop ts counter empty).1.map (·.1))))
  | [], counter, empty, ys, r, _, _, _, _, _ => by
    simp [pageEvents, listed]
  | (n, s) :: ts, counter, empty, ys, r, hn, hy, ht, h1, h2 => by
    rw [List.map_cons, List.nodup_cons] at hn
    have hny : Thing.table n ∉ ys := hy n (by simp)
    have hmem : Thing.table n ∉ (ts.map (·.1)).map Thing.table := fun h => by
      obtain ⟨i, hi, e⟩ := List.mem_map.1 h
      cases e
      exact hn.1 hi
    -- looking at the tags
    have htag : ∀ r, inUse (tagEvents ft n s ++ r)
          (plus l (ys ++ (((n, s) :: ts).map (·.1)).map Thing.table)) =
        inUse r (plus l (ys ++ (((n, s) :: ts).map (·.1)).map Thing.table)) := by
      intro r
      unfold tagEvents
      cases ft with
      | none => rfl
      | some t =>
        simp only [List.cons_append]
        rw [do_use (.inr (by simp))]
        cases s.lookup b!"TAGS" with
        | none => rfl
        | some g =>
          simp only [List.cons_append, List.nil_append]
          rw [do_use (.inl hc), do_acquire (hl.off rfl) (by simp [ht]), do_use (.inr (by simp)),
            do_release (hl.off rfl) (by simp)]
          congr 1
          refine plus_congr fun x => ?_
          simp only [List.mem_filter, List.mem_cons, List.mem_append, List.mem_map]
          grind
    -- leaving it out
    have hdrop : ∀ r, inUse (.release (.table n) :: r) (plus l (ys ++ (((n, s) :: ts).map (·.1)).map Thing.table)) =
        inUse r (plus l (ys ++ (ts.map (·.1)).map Thing.table)) := by
      intro r
      rw [do_release (hl.off rfl) (by simp)]
      congr 1
      refine plus_congr fun x => ?_
      simp only [List.map_cons, List.mem_filter, List.mem_cons, List.mem_append] at hmem ⊢
      grind
    unfold pageEvents
    simp only
    split
    · rw [List.append_assoc, List.append_assoc, htag, List.singleton_append, hdrop]
      exact page_ok hl hc ft paged start stop ts counter empty ys r hn.2 (fun i hi => hy i (by simp [hi])) ht h1 h2
    · split
      · rw [List.append_assoc, List.append_assoc, htag, List.singleton_append, hdrop]
        exact page_ok hl hc ft paged start stop ts _ empty ys r hn.2 (fun i hi => hy i (by simp [hi])) ht h1 h2
      · rw [List.append_assoc, List.append_assoc, htag, List.singleton_append]
        have hk : inUse (appendTo .kept empty :: ((pageEvents ft paged start stop ts
              (if paged then counter + 1 else counter) false).2 ++ r))
              (plus l (ys ++ (((n, s) :: ts).map (·.1)).map Thing.table)) =
            inUse ((pageEvents ft paged start stop ts (if paged then counter + 1 else counter) false).2 ++ r)
              (plus l ((.kept :: .table n :: ys) ++ (ts.map (·.1)).map Thing.table)) := by
          cases empty with
          | true =>
            show inUse (.acquire .kept :: _) _ = _
            rw [do_acquire (hl.off rfl) (by simp [h1 rfl])]
            congr 1
            refine plus_congr fun x => ?_
            simp only [List.map_cons, List.mem_cons, List.mem_append, List.cons_append]
            grind
          | false =>
            show inUse (.use .kept :: _) _ = _
            rw [do_use (.inr (by simp [h2 rfl]))]
            congr 1
            refine plus_congr fun x => ?_
            have := h2 rfl
            simp only [List.map_cons, List.mem_cons, List.mem_append, List.cons_append]
            grind
        rw [hk, page_ok hl hc ft paged start stop ts _ false _ r hn.2 ?_ ?_ ?_ ?_]
        · congr 1
          refine plus_congr fun x => ?_
          unfold listed
          simp only [List.map_cons, List.mem_cons, List.mem_append, List.cons_append, List.cons_ne_nil, reduceCtorEq, if_false]
          split <;> grind
        · intro i hi
          have := hy i (by simp [hi])
          simp only [List.mem_cons, this, or_false, Thing.table.injEq, reduceCtorEq, false_or]
          rintro rfl
          exact hn.1 hi
        · simp [ht]
        · simp
        · simp

theorem page_sublist (ft : Option Str) (paged : Bool) (start stop : Nat) : ∀ (ts : Tables) (counter : Nat) (empty : Bool),
    (pageEvents ft paged start stop ts counter empty).1.Sublist ts
  | [], _, _ => List.Sublist.slnil
  | (n, s) :: ts, counter, empty => by
    unfold pageEvents
    simp only
    split
    · exact (page_sublist ft paged start stop ts _ _).cons _
    · split
      · exact (page_sublist ft paged start stop ts _ _).cons _
      · exact (page_sublist ft paged start stop ts _ _).cons_cons _

theorem copy_ok {l : InUse} (hl : Base l) (hc : l .config = true) {xs : List Thing} (hs : .str ∉ xs) {n : Nat}
    (hn : .table n ∈ xs) (s : Trie Str) (r : List Event) :
    inUse (copyEvents n s ++ r) (plus l xs) = inUse r (plus l xs) := by
  have hp : ∀ (b : Bool) r, inUse ((if b then putNew .config else []) ++ r) (plus l xs) = inUse r (plus l xs) := by
    intro b r
    cases b
    · rfl
    · exact putNew_ok (hl.off rfl) hs (.inl hc) (by simp) r
  unfold copyEvents
  rw [List.append_assoc, List.append_assoc, List.append_assoc, List.singleton_append, do_use (.inr hn), hp,
    List.singleton_append, do_use (.inr hn), hp]

theorem firstLast_ok {l : InUse} (hl : Base l) (hc : l .config = true) {xs : List Thing} (hs : .str ∉ xs) :
    ∀ (ts : Tables) (first : Bool) (r : List Event), (∀ i ∈ ts.map (·.1), .table i ∈ xs) →
    inUse (firstLastEvents first ts ++ r) (plus l xs) = inUse r (plus l xs)
  | [], _, _, _ => rfl
  | (n, s) :: ts, first, r, h => by
    have hp : ∀ (b : Bool) r, inUse ((if b then copyEvents n s else []) ++ r) (plus l xs) = inUse r (plus l xs) := by
      intro b r
      cases b
      · rfl
      · exact copy_ok hl hc hs (h n (by simp)) s r
    unfold firstLastEvents
    rw [List.append_assoc, List.append_assoc, hp, hp, firstLast_ok hl hc hs ts false r fun i hi => h i (by simp [hi])]

theorem pageVar_ok {l : InUse} (hl : Base l) (hc : l .config = true) {xs : List Thing} (hs : .str ∉ xs) (page last : Nat)
    (e : Bool) (r : List Event) :
    inUse (pageVarEvents page last e ++ r) (plus l xs) = inUse r (plus l xs) := by
  have hp : ∀ r, inUse (putNew .config ++ r) (plus l xs) = inUse r (plus l xs) :=
    putNew_ok (hl.off rfl) hs (.inl hc) (by simp)
  unfold pageVarEvents
  simp only [List.append_assoc]
  rw [hp]
  repeat' split
  all_goals simp only [hp, List.nil_append]

theorem select_ok {l : InUse} (hl : Base l) (hc : l .config = true) {n : Nat} {K : List Thing} (hK : KeysBelow n K)
    (conf : Trie Str) {list : Thing} (hlist : list = .loaded ∨ list = .reversed) (ts : Tables) (hn : (ts.map (·.1)).Nodup) :
    (selectEvents conf list ts).1.Sublist ts ∧
    inUse (selectEvents conf list ts).2 (plus l (K ++ listed list (ts.map (·.1)))) =
      some (plus l (K ++ listed .kept ((selectEvents conf list ts).1.map (·.1)))) := by
  unfold selectEvents
  simp only
  refine ⟨page_sublist _ _ _ _ _ _ _, ?_⟩
  generalize hr : pageEvents (conf.lookup b!"FILTER_TAG") (conf.lookup b!"FILTER_PAGE").isSome
    ((Loader.pageOf (conf.lookup b!"FILTER_PAGE") - 1) * Loader.perPageOf (conf.lookup b!"FILTER_PER_PAGE"))
    ((Loader.pageOf (conf.lookup b!"FILTER_PAGE") - 1) * Loader.perPageOf (conf.lookup b!"FILTER_PER_PAGE") +
      Loader.perPageOf (conf.lookup b!"FILTER_PER_PAGE")) ts 0 true = p
  have hmain : isMain list = false := by rcases hlist with rfl | rfl <;> rfl
  have hne : list ≠ .tags ∧ list ≠ .kept ∧ (∀ i, list ≠ .table i) ∧ list ≠ .str ∧ ∀ i, list ≠ .key i := by
    rcases hlist with rfl | rfl <;> simp
  have hpage := fun r => page_ok hl hc (conf.lookup b!"FILTER_TAG") (conf.lookup b!"FILTER_PAGE").isSome
    ((Loader.pageOf (conf.lookup b!"FILTER_PAGE") - 1) * Loader.perPageOf (conf.lookup b!"FILTER_PER_PAGE"))
    ((Loader.pageOf (conf.lookup b!"FILTER_PAGE") - 1) * Loader.perPageOf (conf.lookup b!"FILTER_PER_PAGE") +
      Loader.perPageOf (conf.lookup b!"FILTER_PER_PAGE")) ts 0 true (K ++ if ts.map (·.1) = [] then [] else [list]) r hn
    (by
      intro i _ h
      rcases List.mem_append.1 h with h | h
      · exact hK.plain (by simp) h
      · split at h
        · cases h
        · exact hne.2.2.1 i (by simpa using (List.mem_singleton.1 h).symm))
    (by
      intro h
      rcases List.mem_append.1 h with h | h
      · exact hK.plain (by simp) h
      · split at h
        · cases h
        · exact hne.1 (List.mem_singleton.1 h).symm)
    (by
      intro _ h
      rcases List.mem_append.1 h with h | h
      · exact hK.plain (by simp) h
      · split at h
        · cases h
        · exact hne.2.1 (List.mem_singleton.1 h).symm)
    (by simp)
  rw [hr] at hpage
  have h0 : K ++ listed list (ts.map (·.1)) = (K ++ if ts.map (·.1) = [] then [] else [list]) ++ (ts.map (·.1)).map Thing.table := by
    unfold listed
    rw [List.append_assoc]
  have hsub : p.1.Sublist ts := hr ▸ page_sublist _ _ _ _ _ _ _
  have hstr : Thing.str ∉ K ++ listed .kept (p.1.map (·.1)) := by
    intro h
    rcases List.mem_append.1 h with h | h
    · exact hK.plain (by simp) h
    · unfold listed at h
      rcases List.mem_append.1 h with h | h
      · split at h <;> simp at h
      · simp at h
  simp only [List.append_assoc, List.cons_append, List.nil_append]
  rw [do_use (.inl hc), h0, hpage]
  have hrel : ∀ r, inUse ((if ts = [] then [] else [Event.release list]) ++ r)
      (plus l ((K ++ if ts.map (·.1) = [] then [] else [list]) ++ listed .kept (p.1.map (·.1)))) =
      inUse r (plus l (K ++ listed .kept (p.1.map (·.1)))) := by
    intro r
    by_cases h : ts = []
    · subst h
      simp
    · have h' : ts.map (·.1) ≠ [] := by simpa using h
      rw [if_neg h, if_neg h', List.singleton_append, do_release (hl.off hmain) (by simp)]
      congr 1
      refine plus_congr fun x => ?_
      have a1 : list ∉ K := hK.plain hne.2.2.2.2
      have a2 : list ∉ listed .kept (p.1.map (·.1)) := by
        intro h
        unfold listed at h
        rcases List.mem_append.1 h with h | h
        · split at h
          · cases h
          · exact hne.2.1 (List.mem_singleton.1 h)
        · obtain ⟨i, -, e⟩ := List.mem_map.1 h
          exact hne.2.2.1 i e.symm
      simp only [List.mem_filter, List.mem_append, List.mem_singleton]
      grind
  rw [hrel, firstLast_ok hl hc hstr p.1 true _ (fun i hi => by
    unfold listed
    exact List.mem_append_right _ (List.mem_append_right _ (List.mem_map_of_mem hi)))]
  have hpv := fun a b c => pageVar_ok hl hc hstr a b c []
  simp only [List.append_nil] at hpv
  split
  · split
    · rw [hpv]; rfl
    · rfl
  · rfl

/-- Reading the sources leaves their list; after an error, only the error. -/
theorem files_ok {w : World} {stamp : Str → Option Str} {conf : Trie Str} {l : InUse} (hl : Base l) (hc : l .config = true)
    (fs : List Str) (hr : ∀ f ∈ fs, Readable w (conf.lookup b!"TOCTREE_MAXDEPTH") f) :
    ∃ K, KeysBelow fs.length K ∧ ((∀ f ∈ fs, Ended w f) → K = []) ∧
      match (filesEvents w stamp conf fs).1 with
      | none => inUse (filesEvents w stamp conf fs).2 l = some (plus l (.err :: K))
      | some ts => (ts.map (·.1)).Nodup ∧ (∀ i ∈ ts.map (·.1), i < fs.length) ∧
        inUse (filesEvents w stamp conf fs).2 l = some (plus l (K ++ listed .kept (ts.map (·.1)))) := by
  obtain ⟨K, hK, hE, h⟩ := load_ok (w := w) (stamp := stamp) (m := conf.lookup b!"TOCTREE_MAXDEPTH")
    (sort := strToBool (conf.lookup b!"FILTER_SORT")) hl hc fs 0 [] 0 [] hr (fun _ hx => by cases hx) (by simp) (by simp)
  rw [Nat.zero_add] at hK h
  have hl0 : plus l (loading [] (([] : Tables).map (·.1))) = l := by
    show plus l [] = l
    exact plus_nil l
  rw [hl0] at h
  refine ⟨K, hK, hE, ?_⟩
  have huse : ∀ r, inUse (.use .config :: r) l = inUse r l := by
    intro r
    have := do_use (l := l) (xs := []) (x := .config) (.inl hc) r
    rwa [plus_nil] at this
  unfold filesEvents
  simp only
  generalize load w stamp (conf.lookup b!"TOCTREE_MAXDEPTH") (strToBool (conf.lookup b!"FILTER_SORT")) 0 [] 0 fs = r at h
  obtain ⟨r1, r2⟩ := r
  cases r1 with
  | none =>
    simp only at h ⊢
    rw [List.singleton_append, huse, h]
  | some x =>
    obtain ⟨ts, dates⟩ := x
    simp only at h ⊢
    obtain ⟨hn, hb, h⟩ := h
    by_cases hd : dates > 0 ∧ dates < fs.length
    · simp only [if_pos hd]
      rw [List.append_assoc, List.append_assoc, List.singleton_append, huse, inUse_append, h, Option.bind_some,
        List.singleton_append, do_acquire (hl.off rfl) (by simp [loading, listed, hK.plain])]
      have := freeListed_ok hl (list := .loaded) rfl hn (xs := .err :: K) (by simp) (by simp [hK.plain]) (by simp [hK.plain]) []
      rw [List.append_nil] at this
      exact this
    · simp only [if_neg hd]
      obtain ⟨ts', ho, hp⟩ := order_ok (strToBool (conf.lookup b!"FILTER_SORT")) (strToBool (conf.lookup b!"FILTER_REVERSE")) ts
      rw [ho]
      simp only
      have hpm : (ts'.map (·.1)).Perm (ts.map (·.1)) := hp.map _
      obtain ⟨s1, s2⟩ := select_ok hl hc hK conf (orderEvents_list (strToBool (conf.lookup b!"FILTER_SORT"))
        (strToBool (conf.lookup b!"FILTER_REVERSE")) ts) ts' (hpm.nodup_iff.2 hn)
      have sm : ((selectEvents conf (orderEvents (strToBool (conf.lookup b!"FILTER_SORT"))
        (strToBool (conf.lookup b!"FILTER_REVERSE")) ts).1 ts').1.map (·.1)).Sublist (ts'.map (·.1)) := s1.map _
      refine ⟨sm.nodup (hpm.nodup_iff.2 hn), fun i hi => hb i (hpm.mem_iff.1 (sm.subset hi)), ?_⟩
      simp only [List.append_assoc, List.cons_append, List.nil_append]
      rw [huse, inUse_append, h, Option.bind_some, do_use (.inl hc)]
      unfold loading
      rw [orderEvents_ok hl hK, ← s2]
      congr 1
      refine plus_congr fun x => ?_
      have e1 : ts.map (·.1) = [] ↔ ts'.map (·.1) = [] := ⟨fun h => (h ▸ hpm).eq_nil, fun h => (h ▸ hpm).nil_eq.symm⟩
      unfold listed
      simp only [e1, List.mem_append, (hpm.map Thing.table).mem_iff]

end Blogc.BlogcMem
