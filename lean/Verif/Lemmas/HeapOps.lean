import Verif.Lemmas.Heap
import Verif.Spec.Memory
import Verif.Props.C08

/-!
# The calls of a program keep its memory in order
-/

namespace Blogc.Mem

open Blogc Blogc.Spec

variable {α : Type}

theorem changed_refl {h : Heap α} {s : List Nat} (hs : s.Nodup) (hf : Finite h) : Changed h h s s :=
  ⟨hs, fun _ h1 h2 => absurd h1 h2, fun _ h1 h2 => absurd h1 h2, hf, fun _ _ _ => rfl⟩

/-! ## Lists -/

theorem append_ok {al : Heap α → Nat} (hal : AllocOk al) {h : Heap α} {p : Ptr} {l : List (Option α)} {s : List Nat}
    (hl : IsList h p l s) (hs : s.Nodup) (hf : Finite h) (d : Option α) {fuel : Nat} (hfuel : l.length < fuel) :
    ∃ h' p' s', append fuel al h p d = .ok (h', p') ∧ IsList h' p' (l ++ [d]) s' ∧ Changed h h' s s' := by
  have hn : h (al h) = none := hal h hf
  have hns : al h ∉ s := by
    intro hm
    have := hl.allocated hm
    rw [hn] at this
    cases this
  cases p with
  | none =>
    have hnil : l = [] ∧ s = [] := by
      cases l with
      | nil => exact ⟨rfl, hl.2⟩
      | cons => obtain ⟨_, _, _, e, -⟩ := hl; cases e
    obtain ⟨rfl, rfl⟩ := hnil
    refine ⟨_, _, [al h], rfl, ⟨al h, none, [], rfl, put_self .., ⟨rfl, rfl⟩, rfl⟩, by simp, ?_, by simp, put_finite hf .., ?_⟩
    · intro a ha _
      rw [List.mem_singleton.1 ha, hn]
    · intro a _ ha
      exact put_other (by simpa using ha)
  | some p =>
    have hl1 : IsList (put h (al h) (.item none d)) (some p) l s :=
      hl.frame fun a ha => put_other (by rintro rfl; exact hns ha)
    obtain ⟨b, d', k1, k2, k3, k4⟩ := lastItem_ok hl1 hfuel hs
    have hbn : b ≠ al h := by rintro rfl; exact hns k2
    refine ⟨put (put h (al h) (.item none d)) b (.item (some (al h)) d'), some p, s ++ [al h], ?_, ?_, ?_, ?_, ?_,
      put_finite (put_finite hf ..) .., ?_⟩
    · simp only [append, k1, Run.bind_ok, setItemNext_ok k3]
    · refine k4 _ _ _ _ (fun x _ hx => put_other hx) (put_self ..)
        ⟨al h, none, [], rfl, ?_, ⟨rfl, rfl⟩, rfl⟩
      rw [put_other hbn.symm]
      exact put_self ..
    · exact List.nodup_append'.2 ⟨hs, by simp, by simpa using hns⟩
    · intro a ha ha'
      rcases List.mem_append.1 ha with h | h
      · exact absurd h ha'
      · rw [List.mem_singleton.1 h, hn]
    · intro a ha ha'
      exact absurd (List.mem_append_left _ ha) ha'
    · intro a ha ha'
      simp only [List.mem_append, List.mem_singleton, not_or] at ha'
      rw [put_other (by rintro rfl; exact ha k2), put_other ha'.2]

theorem prepend_ok {al : Heap α → Nat} (hal : AllocOk al) {h : Heap α} {p : Ptr} {l : List (Option α)} {s : List Nat}
    (hl : IsList h p l s) (hs : s.Nodup) (hf : Finite h) (d : Option α) :
    IsList (prepend al h p d).1 (prepend al h p d).2 (d :: l) (al h :: s) ∧ Changed h (prepend al h p d).1 s (al h :: s) := by
  have hn : h (al h) = none := hal h hf
  have hns : al h ∉ s := by
    intro hm
    have := hl.allocated hm
    rw [hn] at this
    cases this
  refine ⟨⟨al h, p, s, rfl, put_self .., hl.frame fun a ha => put_other (by rintro rfl; exact hns ha), rfl⟩,
    List.nodup_cons.2 ⟨hns, hs⟩, ?_, ?_, put_finite hf .., ?_⟩
  · intro a ha ha'
    rcases List.mem_cons.1 ha with rfl | h
    · exact hn
    · exact absurd h ha'
  · intro a ha ha'
    exact absurd (List.mem_cons_of_mem _ ha) ha'
  · intro a _ ha
    exact put_other (by rintro rfl; exact ha (by simp))

theorem join_ok {h : Heap α} {p q : Ptr} {l l' : List (Option α)} {s s' : List Nat} (hl : IsList h p l s)
    (hl' : IsList h q l' s') (hs : s.Nodup) (hs' : s'.Nodup) (hd : s.Disjoint s') (hf : Finite h) {fuel : Nat}
    (hfuel : l.length < fuel) :
    ∃ h' p', appendList fuel h p q = .ok (h', p') ∧ IsList h' p' (l ++ l') (s ++ s') ∧
      Changed h h' (s ++ s') (s ++ s') := by
  have hn : (s ++ s').Nodup := List.nodup_append'.2 ⟨hs, hs', hd⟩
  cases p with
  | none =>
    have hnil : l = [] ∧ s = [] := by
      cases l with
      | nil => exact ⟨rfl, hl.2⟩
      | cons => obtain ⟨_, _, _, e, -⟩ := hl; cases e
    obtain ⟨rfl, rfl⟩ := hnil
    exact ⟨h, q, rfl, hl', changed_refl hn hf⟩
  | some p =>
    cases q with
    | none =>
      have hnil : l' = [] ∧ s' = [] := by
        cases l' with
        | nil => exact ⟨rfl, hl'.2⟩
        | cons => obtain ⟨_, _, _, e, -⟩ := hl'; cases e
      obtain ⟨rfl, rfl⟩ := hnil
      refine ⟨h, some p, rfl, ?_, changed_refl hn hf⟩
      rw [List.append_nil, List.append_nil]
      exact hl
    | some q =>
      obtain ⟨b, d', k1, k2, k3, k4⟩ := lastItem_ok hl hfuel hs
      refine ⟨put h b (.item (some q) d'), some p, ?_, ?_, hn, fun _ h1 h2 => absurd h1 h2, fun _ h1 h2 => absurd h1 h2,
        put_finite hf .., ?_⟩
      · simp only [appendList, k1, Run.bind_ok, setItemNext_ok k3]
      · exact k4 _ _ _ _ (fun x _ hx => put_other hx) (put_self ..)
          (hl'.frame fun a ha => put_other (by rintro rfl; exact hd k2 ha))
      · intro a ha _
        exact put_other (by rintro rfl; exact ha (List.mem_append_left _ k2))

theorem changed_free {h : Heap α} {s : List Nat} (hf : Finite h) :
    Changed h (fun a => if a ∈ s then none else h a) s [] := by
  refine ⟨List.nodup_nil, by simp, fun a ha _ => if_pos ha, ?_, fun a ha _ => if_neg ha⟩
  obtain ⟨n, hn⟩ := hf
  refine ⟨n, fun a ha => ?_⟩
  show (if a ∈ s then none else h a) = none
  split
  · rfl
  · exact hn a ha

/-! ## Tables -/

theorem insert_released (T : Trie α) (key : Str) (hk : NulFree key) (d : α) :
    (T.insert key d).2 = (T.lookup key).toList := by
  induction T generalizing key with
  | nil => rfl
  | node k dat nx ch ihn ihc =>
    rw [Trie.insert.eq_def, Trie.lookup.eq_def]
    simp only
    by_cases hkey : k = Trie.keyByte key
    · simp only [if_pos hkey]
      cases key with
      | nil => rw [if_pos (show k = 0 from hkey)]
      | cons c r =>
        rw [if_neg (show ¬ k = 0 by rw [hkey]; exact hk c (by simp))]
        exact ihc r fun x hx => hk x (by simp [hx])
    · simp only [if_neg hkey]
      exact ihn key hk

theorem free_perm (T : Trie α) (hw : T.WF) (pre : Str) :
    T.free.Perm ((T.foreach pre).flatMap fun e => e.2.toList) := by
  induction T generalizing pre with
  | nil => exact .refl _
  | node k dat nx ch ihn ihc =>
    obtain ⟨_, _, h3, h4, h5⟩ := hw
    rw [Trie.free, Trie.foreach, List.flatMap_append, List.flatMap_append, List.append_assoc, List.append_assoc]
    have e : ((if k = 0 then [(pre, dat)] else []) : List (Str × Option α)).flatMap (fun e => e.2.toList) = dat.toList := by
      split
      · simp
      · rename_i hk
        rw [h3 hk]
        rfl
    rw [e]
    exact (((ihn h4 pre).append (ihc h5 (pre ++ [k]))).trans List.perm_append_comm).append_left _

theorem foreach_perm (hist : List (Str × α)) (hh : CKeys hist) :
    ((Trie.inserts hist).1.foreach []).Perm ((keys hist).map fun k => (k, lastValue hist k)) := by
  have hn := C08.foreach_keys_nodup hist hh
  have e : (Trie.inserts hist).1.foreach []
      = (((Trie.inserts hist).1.foreach []).map (·.1)).map fun k => (k, lastValue hist k) := by
    rw [List.map_map]
    refine (List.map_id _).symm.trans (List.map_congr_left ?_)
    rintro ⟨k, v⟩ hm
    exact Prod.ext rfl ((C08.mem_foreach_iff hist hh k v).1 hm).2
  rw [e]
  apply List.Perm.map
  refine (List.perm_ext_iff_of_nodup hn (List.nodup_dedup _)).2 fun k => ?_
  rw [List.mem_dedup]
  constructor
  · intro hm
    obtain ⟨x, hx, rfl⟩ := List.mem_map.1 hm
    exact ((C08.mem_foreach_iff hist hh x.1 x.2).1 hx).1
  · intro hm
    exact List.mem_map.2 ⟨(k, lastValue hist k), (C08.mem_foreach_iff hist hh k _).2 ⟨hm, rfl⟩, rfl⟩

theorem free_values (hist : List (Str × α)) (hh : CKeys hist) :
    (Trie.inserts hist).1.free.Perm ((keys hist).flatMap fun k => (lastValue hist k).toList) := by
  refine (free_perm _ (C08.inserts_wf hist hh) []).trans ?_
  refine ((foreach_perm hist hh).flatMap_right _).trans ?_
  rw [List.flatMap_map]

theorem freeTrie_ok {t : Nat} {ff : Bool} {h : Heap α} {T : Trie α} {s : List Nat} (hl : IsTable h t ff T s)
    (hs : s.Nodup) {fuel : Nat} (hfuel : count T < fuel) :
    freeTrie fuel h t = .ok (fun a => if a ∈ s then none else h a, if ff then T.free else []) := by
  obtain ⟨r, s1, ht, hl, rfl⟩ := hl
  obtain ⟨hts, hs1⟩ := List.nodup_cons.1 hs
  have k := freeNode_ok hl ht hts hs1 hfuel
  have e : (fun a => if a ∈ s1 then none else h a) t = some (.trie r ff) := (if_neg hts).trans ht
  have g := release_ok (h := fun a => if a ∈ s1 then none else h a) (a := t) ((congrArg Option.isSome e).trans rfl)
  simp only [freeTrie, getTrie_ok ht, Run.bind_ok, k, g]
  congr 2
  funext b
  by_cases hb : b = t
  · simp [hb]
  · simp [hb]

/-! ## The variables -/

/-- A variable with the value `p` holds `o`, in the blocks `s`. -/
def Holds (h : Heap α) (p : Ptr) (o : Option (Obj α)) (s : List Nat) : Prop :=
  match o with
  | none => s = []
  | some (.list l) => IsList h p l s
  | some (.table ff hist) => CKeys hist ∧ ∃ t, p = some t ∧ IsTable h t ff (Trie.inserts hist).1 s

theorem Holds.frame {h h' : Heap α} {p : Ptr} {o : Option (Obj α)} {s : List Nat} (hh : Holds h p o s)
    (he : ∀ a ∈ s, h' a = h a) : Holds h' p o s := by
  match o, hh with
  | none, hh => exact hh
  | some (.list l), hh => exact IsList.frame hh he
  | some (.table ff hist), ⟨hc, t, hp, r, s1, ht, hl, hs⟩ =>
    refine ⟨hc, t, hp, r, s1, ?_, hl.frame fun a ha => he a (by simp [hs, ha]), hs⟩
    rw [he t (by simp [hs]), ht]

theorem Holds.allocated {h : Heap α} {p : Ptr} {o : Option (Obj α)} {s : List Nat} (hh : Holds h p o s) {a : Nat}
    (ha : a ∈ s) : (h a).isSome := by
  match o, hh with
  | none, hh =>
    rw [show s = [] from hh] at ha
    cases ha
  | some (.list l), hh => exact IsList.allocated hh ha
  | some (.table ff hist), ⟨hc, t, hp, r, s1, ht, hl, hs⟩ =>
    rw [hs] at ha
    rcases List.mem_cons.1 ha with rfl | ha
    · rw [ht]; rfl
    · exact hl.allocated ha

/-- Every variable has its own blocks, and there are no others. -/
structure Inv (st : State α) (σ : World α) (F : Nat → List Nat) : Prop where
  holds : ∀ x, Holds st.heap (st.vars x) (σ x) (F x)
  nodup : ∀ x, (F x).Nodup
  apart : ∀ x y, x ≠ y → (F x).Disjoint (F y)
  finite : Finite st.heap
  owned : ∀ a, (st.heap a).isSome → ∃ x, a ∈ F x

/-- A call that takes the blocks of `x` and `y` and leaves new ones to `x`. -/
theorem Inv.change {st st' : State α} {σ σ' : World α} {F : Nat → List Nat} (hi : Inv st σ F) (x y : Nat)
    {s s' : List Nat} (hs : ∀ a, a ∈ s ↔ a ∈ F x ∨ a ∈ F y) (hc : Changed st.heap st'.heap s s')
    (hx : Holds st'.heap (st'.vars x) (σ' x) s') (hy : y ≠ x → σ' y = none)
    (hσ : ∀ z, z ≠ x → z ≠ y → σ' z = σ z) (hv : ∀ z, z ≠ x → z ≠ y → st'.vars z = st.vars z) :
    ∃ F', Inv st' σ' F' := by
  have hout : ∀ z, z ≠ x → z ≠ y → ∀ a ∈ F z, a ∉ s ∧ a ∉ s' := by
    intro z hzx hzy a ha
    have h1 : a ∉ s := by
      intro h
      rcases (hs a).1 h with h | h
      · exact hi.apart z x hzx ha h
      · exact hi.apart z y hzy ha h
    refine ⟨h1, fun h => ?_⟩
    have := (hi.holds z).allocated ha
    rw [hc.fresh a h h1] at this
    cases this
  refine ⟨fun z => if z = x then s' else if z = y then [] else F z, ?_, ?_, ?_, hc.finite, ?_⟩
  · intro z
    by_cases hzx : z = x
    · subst hzx
      simpa using hx
    · by_cases hzy : z = y
      · subst hzy
        simp only [if_neg hzx, if_true, hy hzx]
        rfl
      · simp only [if_neg hzx, if_neg hzy, hσ z hzx hzy, hv z hzx hzy]
        exact (hi.holds z).frame fun a ha => hc.same a (hout z hzx hzy a ha).1 (hout z hzx hzy a ha).2
  · intro z
    show (if z = x then s' else if z = y then [] else F z).Nodup
    split
    · exact hc.nodup
    · split
      · exact List.nodup_nil
      · exact hi.nodup z
  · intro z w hzw
    show (if z = x then s' else if z = y then [] else F z).Disjoint (if w = x then s' else if w = y then [] else F w)
    intro a h1 h2
    split at h1 <;> split at h2
    · simp_all
    · split at h2
      · cases h2
      · rename_i h3 h4 h5
        exact (hout w h4 h5 a h2).2 h1
    · split at h1
      · cases h1
      · rename_i h3 h4 h5
        exact (hout z h3 h5 a h1).2 h2
    · split at h1
      · cases h1
      · split at h2
        · cases h2
        · exact hi.apart z w hzw h1 h2
  · intro a ha
    by_cases h1 : a ∈ s'
    · exact ⟨x, by simpa using h1⟩
    · by_cases h2 : a ∈ s
      · rw [hc.gone a h2 h1] at ha
        cases ha
      · rw [hc.same a h2 h1] at ha
        obtain ⟨z, hz⟩ := hi.owned a ha
        have hzx : z ≠ x := by
          rintro rfl
          exact h2 ((hs a).2 (.inl hz))
        have hzy : z ≠ y := by
          rintro rfl
          exact h2 ((hs a).2 (.inr hz))
        exact ⟨z, by simpa [hzx, hzy] using hz⟩

/-- A call that takes the blocks of `x` and leaves new ones to it. -/
theorem Inv.update {st : State α} {σ : World α} {F : Nat → List Nat} (hi : Inv st σ F) (x : Nat) {h' : Heap α} {p : Ptr}
    {o : Option (Obj α)} {s' : List Nat} (hc : Changed st.heap h' (F x) s') (hx : Holds h' p o s') :
    ∃ F', Inv (st.set h' x p) (σ.set x o) F' := by
  refine hi.change (st' := st.set h' x p) x x (s := F x) (s' := s') (by simp) hc ?_ (fun h => absurd rfl h) ?_ ?_
  · simpa [State.set, World.set] using hx
  · intro z hz _
    simp [World.set, hz]
  · intro z hz _
    simp [State.set, hz]

theorem set_self (st : State α) (h : Heap α) (x : Nat) : st.set h x (st.vars x) = ⟨h, st.vars⟩ := by
  unfold State.set
  congr 1
  funext y
  by_cases hy : y = x
  · simp [hy]
  · simp [hy]

/-- Rounds that are enough for a call. -/
def enough (σ : World α) : Op α → Nat
  | .append x _ | .join x _ | .length x | .items x | .freeList x _ => (σ.list x).length + 1
  | .insert x _ _ | .lookup x _ | .size x | .foreach x | .freeTable x => count (Trie.inserts (σ.hist x)).1 + 1
  | _ => 0

theorem exec_ok {al : Heap α → Nat} (hal : AllocOk al) {st : State α} {σ : World α} {F : Nat → List Nat}
    (hi : Inv st σ F) (op : Op α) (ho : Allowed σ op) {fuel : Nat} (hf : enough σ op ≤ fuel) :
    ∃ st' a r F', exec fuel al st op = .ok (st', a, r) ∧ Right σ op a r ∧ Inv st' (after σ op) F' := by
  cases op with
  | newList x =>
    have hx := hi.holds x
    rw [show σ x = none from ho] at hx
    obtain ⟨F', k⟩ := hi.update x (p := none) (o := some (.list [])) (changed_refl (hi.nodup x) hi.finite) ⟨rfl, hx⟩
    exact ⟨_, _, _, F', rfl, ⟨rfl, rfl⟩, k⟩
  | newTable x ff =>
    have hx := hi.holds x
    rw [show σ x = none from ho] at hx
    have hn := hal st.heap hi.finite
    obtain ⟨F', k⟩ := hi.update x (h' := (newTrie al ff st.heap).1) (p := some (newTrie al ff st.heap).2)
      (o := some (.table ff [])) (s' := [al st.heap])
      (by
        rw [show F x = [] from hx]
        refine ⟨by simp, ?_, by simp, put_finite hi.finite .., ?_⟩
        · intro a ha _
          rw [List.mem_singleton.1 ha, hn]
        · intro a _ ha
          exact put_other (by simpa using ha))
      ⟨fun _ h => (by cases h), _, rfl, none, [], put_self .., ⟨rfl, rfl⟩, rfl⟩
    exact ⟨_, _, _, F', rfl, ⟨rfl, rfl⟩, k⟩
  | append x d =>
    obtain ⟨l, hl⟩ := ho
    have hx := hi.holds x
    have hl' : σ.list x = l := by simp [World.list, hl]
    rw [hl] at hx
    simp only [enough, hl'] at hf
    obtain ⟨h', p', s', k1, k2, k3⟩ := append_ok hal hx (hi.nodup x) hi.finite d (fuel := fuel) (by omega)
    obtain ⟨F', k⟩ := hi.update x (p := p') (o := some (.list (l ++ [d]))) k3 k2
    refine ⟨st.set h' x p', .nothing, [], F', ?_, ⟨rfl, rfl⟩, ?_⟩
    · simp only [exec, k1, Run.bind_ok]
    · simpa only [after, hl'] using k
  | prepend x d =>
    obtain ⟨l, hl⟩ := ho
    have hx := hi.holds x
    have hl' : σ.list x = l := by simp [World.list, hl]
    rw [hl] at hx
    obtain ⟨k2, k3⟩ := prepend_ok hal hx (hi.nodup x) hi.finite d
    obtain ⟨F', k⟩ := hi.update x (p := (prepend al st.heap (st.vars x) d).2) (o := some (.list (d :: l))) k3 k2
    refine ⟨_, _, _, F', rfl, ⟨rfl, rfl⟩, ?_⟩
    simpa only [after, hl'] using k
  | join x y =>
    obtain ⟨hxy, ⟨l, hl⟩, l2, hl2⟩ := ho
    have hx := hi.holds x
    have hy := hi.holds y
    have hl' : σ.list x = l := by simp [World.list, hl]
    have hl2' : σ.list y = l2 := by simp [World.list, hl2]
    rw [hl] at hx
    rw [hl2] at hy
    simp only [enough, hl'] at hf
    obtain ⟨h', p', k1, k2, k3⟩ := join_ok hx hy (hi.nodup x) (hi.nodup y) (hi.apart x y hxy) hi.finite (fuel := fuel)
      (by omega)
    obtain ⟨F', k⟩ := hi.change (st' := st.set h' x p') (σ' := after σ (.join x y)) x y (s := F x ++ F y)
      (s' := F x ++ F y) (by simp) k3
      (by simpa [State.set, after, World.set, Holds, hxy, hl', hl2'] using k2)
      (fun _ => by simp [after, World.set]) (fun z h1 h2 => by simp [after, World.set, h1, h2])
      (fun z h1 h2 => by simp [State.set, h1])
    refine ⟨st.set h' x p', .nothing, [], F', ?_, ⟨rfl, rfl⟩, k⟩
    simp only [exec, k1, Run.bind_ok]
  | length x =>
    obtain ⟨l, hl⟩ := ho
    have hx := hi.holds x
    have hl' : σ.list x = l := by simp [World.list, hl]
    rw [hl] at hx
    simp only [enough, hl'] at hf
    refine ⟨st, .count l.length, [], F, ?_, ⟨by rw [hl'], rfl⟩, hi⟩
    simp only [exec, length_ok hx (fuel := fuel) (by omega), Run.bind_ok]
  | items x =>
    obtain ⟨l, hl⟩ := ho
    have hx := hi.holds x
    have hl' : σ.list x = l := by simp [World.list, hl]
    rw [hl] at hx
    simp only [enough, hl'] at hf
    refine ⟨st, .items l, [], F, ?_, ⟨by rw [hl'], rfl⟩, hi⟩
    simp only [exec, items_ok hx (fuel := fuel) (by omega), Run.bind_ok]
  | freeList x ff =>
    obtain ⟨l, hl⟩ := ho
    have hx := hi.holds x
    have hl' : σ.list x = l := by simp [World.list, hl]
    rw [hl] at hx
    simp only [enough, hl'] at hf
    have k1 := freeList_ok ff hx (hi.nodup x) (fuel := fuel) (by omega)
    obtain ⟨F', k⟩ := hi.update x (p := st.vars x) (o := none) (changed_free hi.finite) rfl
    rw [set_self] at k
    refine ⟨_, _, _, F', ?_, ⟨rfl, by rw [hl']⟩, k⟩
    simp only [exec, k1, Run.bind_ok]
  | insert x key d =>
    obtain ⟨hk, ff, hist, hl⟩ := ho
    have hx := hi.holds x
    have hl' : σ.hist x = hist := by simp [World.hist, hl]
    have hw : σ.owns x = ff := by simp [World.owns, hl]
    rw [hl] at hx
    obtain ⟨hc, t, hp, hx⟩ := hx
    simp only [enough, hl'] at hf
    obtain ⟨h', s', k1, k2, k3⟩ := insert_ok hal hk d hx (hi.nodup x) hi.finite (fuel := fuel) (by omega)
    have hc' : CKeys (hist ++ [(key, d)]) := by
      intro kv hm
      rcases List.mem_append.1 hm with h | h
      · exact hc kv h
      · rw [List.mem_singleton.1 h]
        exact hk
    obtain ⟨F', k⟩ := hi.update x (p := st.vars x) (o := some (.table ff (hist ++ [(key, d)]))) k3
      ⟨hc', t, hp, by rw [Trie.inserts_append]; exact k2⟩
    rw [set_self] at k
    refine ⟨⟨h', st.vars⟩, .nothing, if ff then (((Trie.inserts hist).1.insert key d).2) else [], F', ?_, ⟨rfl, ?_⟩,
      by simpa only [after, hl', hw] using k⟩
    · have e : st.table x = .ok t := by simp only [State.table, hp]
      simp only [exec, e, k1, Run.bind_ok]
    · rw [hw, hl', insert_released _ _ hk, C07.lookup_inserts hist hc key hk]
  | lookup x key =>
    obtain ⟨hk, ff, hist, hl⟩ := ho
    have hx := hi.holds x
    have hl' : σ.hist x = hist := by simp [World.hist, hl]
    rw [hl] at hx
    obtain ⟨hc, t, hp, r, s1, ht, hx, hs⟩ := hx
    simp only [enough, hl'] at hf
    have e : st.table x = .ok t := by simp only [State.table, hp]
    refine ⟨st, .value (lastValue hist key), [], F, ?_, ⟨by rw [hl'], rfl⟩, hi⟩
    have k := lookup_found hx (prev := none) (f := fuel) (fuel := fuel) (by omega) (by omega) key hk
    rw [C07.lookup_inserts hist hc key hk] at k
    simp only [exec, e, lookup, getTrie_ok ht, Run.bind_ok, lookupLoop_eq, k]
  | size x =>
    obtain ⟨ff, hist, hl⟩ := ho
    have hx := hi.holds x
    have hl' : σ.hist x = hist := by simp [World.hist, hl]
    rw [hl] at hx
    obtain ⟨hc, t, hp, r, s1, ht, hx, hs⟩ := hx
    simp only [enough, hl'] at hf
    have e : st.table x = .ok t := by simp only [State.table, hp]
    refine ⟨st, .count (keys hist).length, [], F, ?_, ⟨by rw [hl'], rfl⟩, hi⟩
    have k := sizeNode_ok hx (fuel := fuel) (by omega)
    rw [C08.size_eq_distinct hist hc] at k
    simp only [exec, e, size, getTrie_ok ht, Run.bind_ok, k]
    rfl
  | foreach x =>
    obtain ⟨ff, hist, hl⟩ := ho
    have hx := hi.holds x
    have hl' : σ.hist x = hist := by simp [World.hist, hl]
    rw [hl] at hx
    obtain ⟨hc, t, hp, r, s1, ht, hx, hs⟩ := hx
    simp only [enough, hl'] at hf
    have e : st.table x = .ok t := by simp only [State.table, hp]
    refine ⟨st, .visits ((Trie.inserts hist).1.foreach []), [], F, ?_, ⟨rfl, _, rfl, ?_⟩, hi⟩
    · have k := foreachNode_ok hx (fuel := fuel) (by omega) []
      simp only [exec, e, foreach, getTrie_ok ht, Run.bind_ok, k]
    · rw [hl']
      exact foreach_perm hist hc
  | freeTable x =>
    obtain ⟨ff, hist, hl⟩ := ho
    have hx := hi.holds x
    have hl' : σ.hist x = hist := by simp [World.hist, hl]
    have hw : σ.owns x = ff := by simp [World.owns, hl]
    rw [hl] at hx
    obtain ⟨hc, t, hp, hx⟩ := hx
    simp only [enough, hl'] at hf
    have e : st.table x = .ok t := by simp only [State.table, hp]
    have k1 := freeTrie_ok hx (hi.nodup x) (fuel := fuel) (by omega)
    obtain ⟨F', k⟩ := hi.update x (p := st.vars x) (o := none) (changed_free hi.finite) rfl
    rw [set_self] at k
    refine ⟨_, .nothing, if ff then (Trie.inserts hist).1.free else [], F', ?_, ⟨rfl, ?_⟩, k⟩
    · simp only [exec, e, k1, Run.bind_ok]
    · rw [hw, hl']
      cases ff with
      | false => exact .refl _
      | true => exact free_values hist hc

/-- Rounds that are enough for a program. -/
def enoughAll (σ : World α) : List (Op α) → Nat
  | [] => 0
  | op :: rest => max (enough σ op) (enoughAll (after σ op) rest)

theorem perform_ok (prog : List ((Heap α → Nat) × Op α)) (hal : ∀ c ∈ prog, AllocOk c.1) {st : State α} {σ : World α}
    {F : Nat → List Nat} (hi : Inv st σ F) (hl : Legal σ (prog.map (·.2))) {fuel : Nat}
    (hf : enoughAll σ (prog.map (·.2)) ≤ fuel) :
    ∃ st' out F', perform fuel prog st = .ok (st', out) ∧ AllRight σ (prog.map (·.2)) out ∧
      Inv st' (final σ (prog.map (·.2))) F' := by
  induction prog generalizing st σ F with
  | nil => exact ⟨st, [], F, rfl, rfl, hi⟩
  | cons c rest ih =>
    obtain ⟨al, op⟩ := c
    obtain ⟨h1, h2⟩ := hl
    simp only [List.map_cons, enoughAll, Nat.max_le] at hf
    obtain ⟨st1, a, r, F1, k1, k2, k3⟩ := exec_ok (hal (al, op) (by simp)) hi op h1 hf.1
    obtain ⟨st2, out, F2, k4, k5, k6⟩ := ih (fun c hc => hal c (by simp [hc])) k3 h2 hf.2
    refine ⟨st2, (a, r) :: out, F2, ?_, ⟨a, r, out, rfl, k2, k5⟩, k6⟩
    simp only [perform, k1, Run.bind_ok, k4]

end Blogc.Mem
