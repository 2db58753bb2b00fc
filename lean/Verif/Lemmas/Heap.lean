import Verif.Model.Heap
import Mathlib.Data.List.Nodup

/-!
# Lists and tables in memory

`IsList h p l s`: at the pointer `p` there is the list `l`, in the blocks `s`. `IsTrie` is
the same for the nodes of a table.
-/

namespace Blogc.Mem

open Blogc

variable {α : Type}

def IsList (h : Heap α) : Ptr → List (Option α) → List Nat → Prop
  | p, [], s => p = none ∧ s = []
  | p, d :: l, s => ∃ a n s', p = some a ∧ h a = some (.item n d) ∧ IsList h n l s' ∧ s = a :: s'

def IsTrie (h : Heap α) : Ptr → Trie α → List Nat → Prop
  | p, .nil, s => p = none ∧ s = []
  | p, .node k d nx ch, s => ∃ a pn pc sn sc, p = some a ∧ h a = some (.node k d pn pc) ∧
      IsTrie h pn nx sn ∧ IsTrie h pc ch sc ∧ s = a :: (sn ++ sc)

/-- Only finitely much is allocated. -/
def Finite (h : Heap α) : Prop := ∃ n, ∀ a, n ≤ a → h a = none

/-- `malloc` gives memory that was not allocated. -/
def AllocOk (al : Heap α → Nat) : Prop := ∀ h, Finite h → h (al h) = none

theorem put_self (h : Heap α) (a : Nat) (c : Cell α) : put h a c a = some c := if_pos rfl

theorem put_other {h : Heap α} {a b : Nat} {c : Cell α} (hb : b ≠ a) : put h a c b = h b := if_neg hb

theorem put_finite {h : Heap α} (hf : Finite h) (a : Nat) (c : Cell α) : Finite (put h a c) := by
  obtain ⟨n, hn⟩ := hf
  refine ⟨n + a + 1, fun b hb => ?_⟩
  rw [put_other (by omega), hn b (by omega)]

theorem release_ok {h : Heap α} {a : Nat} (hs : (h a).isSome) :
    release h a = .ok fun i => if i = a then none else h i := if_pos hs

theorem delete_finite {h : Heap α} (hf : Finite h) (a : Nat) : Finite fun i => if i = a then none else h i := by
  obtain ⟨n, hn⟩ := hf
  refine ⟨n, fun b hb => ?_⟩
  show (if b = a then none else h b) = none
  split
  · rfl
  · exact hn b hb

theorem IsList.frame {h h' : Heap α} {p : Ptr} {l : List (Option α)} {s : List Nat} (hl : IsList h p l s)
    (he : ∀ a ∈ s, h' a = h a) : IsList h' p l s := by
  induction l generalizing p s with
  | nil => exact hl
  | cons d l ih =>
    obtain ⟨a, n, s', rfl, h1, h2, rfl⟩ := hl
    exact ⟨a, n, s', rfl, (he a (by simp)).trans h1, ih h2 fun b hb => he b (by simp [hb]), rfl⟩

theorem IsList.allocated {h : Heap α} {p : Ptr} {l : List (Option α)} {s : List Nat} (hl : IsList h p l s) {a : Nat}
    (ha : a ∈ s) : (h a).isSome := by
  induction l generalizing p s with
  | nil => rw [hl.2] at ha; cases ha
  | cons d l ih =>
    obtain ⟨b, n, s', rfl, h1, h2, rfl⟩ := hl
    rcases List.mem_cons.1 ha with rfl | ha
    · rw [h1]; rfl
    · exact ih h2 ha

theorem IsTrie.frame {h h' : Heap α} {p : Ptr} {T : Trie α} {s : List Nat} (hl : IsTrie h p T s)
    (he : ∀ a ∈ s, h' a = h a) : IsTrie h' p T s := by
  induction T generalizing p s with
  | nil => exact hl
  | node k d nx ch ihn ihc =>
    obtain ⟨a, pn, pc, sn, sc, rfl, h1, h2, h3, rfl⟩ := hl
    exact ⟨a, pn, pc, sn, sc, rfl, (he a (by simp)).trans h1, ihn h2 fun b hb => he b (by simp [hb]),
      ihc h3 fun b hb => he b (by simp [hb]), rfl⟩

theorem IsTrie.allocated {h : Heap α} {p : Ptr} {T : Trie α} {s : List Nat} (hl : IsTrie h p T s) {a : Nat}
    (ha : a ∈ s) : (h a).isSome := by
  induction T generalizing p s with
  | nil => rw [hl.2] at ha; cases ha
  | node k d nx ch ihn ihc =>
    obtain ⟨b, pn, pc, sn, sc, rfl, h1, h2, h3, rfl⟩ := hl
    rcases List.mem_cons.1 ha with rfl | ha
    · rw [h1]; rfl
    · rcases List.mem_append.1 ha with ha | ha
      · exact ihn h2 ha
      · exact ihc h3 ha

theorem getNode_ok {h : Heap α} {a : Nat} {k : Byte} {d : Option α} {n c : Ptr} (e : h a = some (.node k d n c)) :
    getNode h (some a) = .ok ⟨k, d, n, c⟩ := by
  unfold getNode
  simp only [Option.bind_some, e]

theorem setNode_ok {h : Heap α} {a : Nat} {k : Byte} {d : Option α} {n c : Ptr} (e : h a = some (.node k d n c))
    (f : Node α → Node α) : setNode h (some a) f = .ok (put h a (.node (f ⟨k, d, n, c⟩).key (f ⟨k, d, n, c⟩).data
      (f ⟨k, d, n, c⟩).next (f ⟨k, d, n, c⟩).child)) := by
  unfold setNode
  simp only [e]

theorem getTrie_ok {h : Heap α} {t : Nat} {r : Ptr} {ff : Bool} (e : h t = some (.trie r ff)) :
    getTrie h t = .ok (r, ff) := by
  unfold getTrie
  simp only [e]

theorem getItem_ok {h : Heap α} {a : Nat} {n : Ptr} {d : Option α} (e : h a = some (.item n d)) :
    getItem h (some a) = .ok (n, d) := by
  unfold getItem
  simp only [Option.bind_some, e]

theorem setItemNext_ok {h : Heap α} {a : Nat} {n m : Ptr} {d : Option α} (e : h a = some (.item n d)) :
    setItemNext h a m = .ok (put h a (.item m d)) := by
  unfold setItemNext
  simp only [e]

/-! ## Reading -/

theorem length_ok {h : Heap α} {p : Ptr} {l : List (Option α)} {s : List Nat} (hl : IsList h p l s) {fuel : Nat}
    (hf : l.length < fuel) : length fuel h p = .ok l.length := by
  induction l generalizing p s fuel with
  | nil =>
    obtain ⟨rfl, rfl⟩ := hl
    cases fuel with
    | zero => cases hf
    | succ n => rfl
  | cons d l ih =>
    obtain ⟨a, n, s', rfl, h1, h2, rfl⟩ := hl
    cases fuel with
    | zero => cases hf
    | succ m => simp only [length, getItem_ok h1, Run.bind_ok, ih h2 (Nat.lt_of_succ_lt_succ hf), List.length_cons]

theorem items_ok {h : Heap α} {p : Ptr} {l : List (Option α)} {s : List Nat} (hl : IsList h p l s) {fuel : Nat}
    (hf : l.length < fuel) : items fuel h p = .ok l := by
  induction l generalizing p s fuel with
  | nil =>
    obtain ⟨rfl, rfl⟩ := hl
    cases fuel with
    | zero => cases hf
    | succ n => rfl
  | cons d l ih =>
    obtain ⟨a, n, s', rfl, h1, h2, rfl⟩ := hl
    cases fuel with
    | zero => cases hf
    | succ m => simp only [items, getItem_ok h1, Run.bind_ok, ih h2 (Nat.lt_of_succ_lt_succ hf)]

/-- The number of nodes. -/
def count : Trie α → Nat
  | .nil => 0
  | .node _ _ nx ch => count nx + count ch + 1

theorem sizeNode_ok {h : Heap α} {p : Ptr} {T : Trie α} {s : List Nat} (hl : IsTrie h p T s) {fuel : Nat}
    (hf : count T < fuel) : sizeNode fuel h p = .ok T.size := by
  induction T generalizing p s fuel with
  | nil =>
    obtain ⟨rfl, rfl⟩ := hl
    cases fuel with
    | zero => cases hf
    | succ n => rfl
  | node k d nx ch ihn ihc =>
    obtain ⟨a, pn, pc, sn, sc, rfl, h1, h2, h3, rfl⟩ := hl
    cases fuel with
    | zero => cases hf
    | succ m =>
      simp only [count] at hf
      simp only [sizeNode, getNode_ok h1, Run.bind_ok, ihn h2 (fuel := m) (by omega), ihc h3 (fuel := m) (by omega), Trie.size]

theorem foreachNode_ok {h : Heap α} {p : Ptr} {T : Trie α} {s : List Nat} (hl : IsTrie h p T s) {fuel : Nat}
    (hf : count T < fuel) (pre : Str) : foreachNode fuel h p pre = .ok (T.foreach pre) := by
  induction T generalizing p s fuel pre with
  | nil =>
    obtain ⟨rfl, rfl⟩ := hl
    cases fuel with
    | zero => cases hf
    | succ n => rfl
  | node k d nx ch ihn ihc =>
    obtain ⟨a, pn, pc, sn, sc, rfl, h1, h2, h3, rfl⟩ := hl
    cases fuel with
    | zero => cases hf
    | succ m =>
      simp only [count] at hf
      simp only [foreachNode, getNode_ok h1, Run.bind_ok, ihn h2 (fuel := m) (by omega), ihc h3 (fuel := m) (by omega),
        Trie.foreach]

/-- What `lookup` does after a search. -/
def lookupRest (fuel : Nat) (h : Heap α) (key : Str) (r : Ptr × Ptr) : Run (Option α) :=
  match r.2, key with
  | none, _ => .ok none
  | some a, [] => do
    let x ← getNode h (some a)
    .ok x.data
  | some a, _ :: rest => do
    let x ← getNode h (some a)
    if x.key = 0 then .ok x.data else lookupLoop fuel h rest x.child

theorem lookupLoop_eq (fuel : Nat) (h : Heap α) (key : Str) (p : Ptr) :
    lookupLoop fuel h key p = (search fuel h (Trie.keyByte key) none p).bind (lookupRest fuel h key) := by
  cases key with
  | nil =>
    show (search fuel h 0 none p).bind _ = _
    show _ = (search fuel h 0 none p).bind _
    congr 1
    funext r
    obtain ⟨r1, r2⟩ := r
    cases r2 <;> rfl
  | cons c rest =>
    show (search fuel h c none p).bind _ = _
    show _ = (search fuel h c none p).bind _
    congr 1
    funext r
    obtain ⟨r1, r2⟩ := r
    cases r2 <;> rfl

theorem lookup_found {h : Heap α} {p prev : Ptr} {T : Trie α} {s : List Nat} (hl : IsTrie h p T s) {f fuel : Nat}
    (hf : count T < f) (hfuel : count T < fuel) (key : Str) (hk : NulFree key) :
    (search f h (Trie.keyByte key) prev p).bind (lookupRest fuel h key) = .ok (T.lookup key) := by
  induction T generalizing p s f key prev with
  | nil =>
    obtain ⟨rfl, rfl⟩ := hl
    cases f with
    | zero => cases hf
    | succ n => rfl
  | node k d nx ch ihn ihc =>
    obtain ⟨a, pn, pc, sn, sc, rfl, h1, h2, h3, rfl⟩ := hl
    cases f with
    | zero => cases hf
    | succ m =>
      simp only [count] at hf hfuel
      unfold Trie.lookup
      by_cases hkey : k = Trie.keyByte key
      · rw [if_pos hkey]
        have e : search (m + 1) h (Trie.keyByte key) prev (some a) = .ok (prev, some a) := by
          simp only [search, getNode_ok h1, Run.bind_ok, if_pos hkey]
        rw [e]
        show lookupRest fuel h key (prev, some a) = _
        cases key with
        | nil =>
          rw [if_pos (show k = 0 from hkey)]
          simp only [lookupRest, getNode_ok h1, Run.bind_ok]
        | cons c rest =>
          have hk0 : ¬ k = 0 := by
            rw [hkey]
            exact hk c (by simp)
          rw [if_neg hk0]
          simp only [lookupRest, getNode_ok h1, Run.bind_ok, if_neg hk0]
          rw [lookupLoop_eq]
          exact ihc h3 (by omega) (by omega) rest fun x hx => hk x (by simp [hx])
      · rw [if_neg hkey]
        have e : search (m + 1) h (Trie.keyByte key) prev (some a) = search m h (Trie.keyByte key) (some a) pn := by
          simp only [search, getNode_ok h1, Run.bind_ok, if_neg hkey]
        rw [e]
        exact ihn h2 (by omega) (by omega) key hk

/-! ## Releasing -/

theorem freeList_ok (ff : Bool) {h : Heap α} {p : Ptr} {l : List (Option α)} {s : List Nat} (hl : IsList h p l s)
    (hs : s.Nodup) {fuel : Nat} (hf : l.length < fuel) :
    freeList ff fuel h p = .ok (fun a => if a ∈ s then none else h a, if ff then l.flatMap Option.toList else []) := by
  induction l generalizing p s fuel h with
  | nil =>
    obtain ⟨rfl, rfl⟩ := hl
    cases fuel with
    | zero => cases hf
    | succ n =>
      cases ff <;> rfl
  | cons d l ih =>
    obtain ⟨a, n, s', rfl, h1, h2, rfl⟩ := hl
    obtain ⟨ha, hs⟩ := List.nodup_cons.1 hs
    cases fuel with
    | zero => cases hf
    | succ m =>
      have h2' : IsList (fun i => if i = a then none else h i) n l s' :=
        h2.frame fun b hb => if_neg (by rintro rfl; exact ha hb)
      simp only [freeList, getItem_ok h1, Run.bind_ok, release_ok (show (h a).isSome by rw [h1]; rfl),
        ih h2' hs (Nat.lt_of_succ_lt_succ hf)]
      congr 2
      · funext b
        by_cases hb : b = a
        · simp [hb]
        · simp [hb]
      · cases ff <;> simp

theorem freeNode_ok {t : Nat} {ff : Bool} {root : Ptr} {h : Heap α} {p : Ptr} {T : Trie α} {s : List Nat}
    (hl : IsTrie h p T s) (ht : h t = some (.trie root ff)) (hts : t ∉ s) (hs : s.Nodup) {fuel : Nat}
    (hf : count T < fuel) :
    freeNode t fuel h p = .ok (fun a => if a ∈ s then none else h a, if ff then T.free else []) := by
  induction T generalizing p s fuel h with
  | nil =>
    obtain ⟨rfl, rfl⟩ := hl
    cases fuel with
    | zero => cases hf
    | succ n => cases ff <;> rfl
  | node k d nx ch ihn ihc =>
    obtain ⟨a, pn, pc, sn, sc, rfl, h1, h2, h3, rfl⟩ := hl
    obtain ⟨ha, hs⟩ := List.nodup_cons.1 hs
    obtain ⟨hsn, hsc, hd⟩ := List.nodup_append'.1 hs
    simp only [List.mem_append, not_or, List.mem_cons] at ha hts
    cases fuel with
    | zero => cases hf
    | succ m =>
      simp only [count] at hf
      have k1 := ihn h2 ht hts.2.1 hsn (fuel := m) (by omega)
      have e1 : (fun b => if b ∈ sn then none else h b) a = some (.node k d pn pc) := (if_neg ha.1).trans h1
      have g1 := getNode_ok (h := fun b => if b ∈ sn then none else h b) e1
      have h3' : IsTrie (fun b => if b ∈ sn then none else h b) pc ch sc :=
        h3.frame fun b hb => if_neg fun hb' => hd hb' hb
      have k2 := ihc h3' ((if_neg hts.2.1).trans ht) hts.2.2 hsc (fuel := m) (by omega)
      have e2 : (fun b => if b ∈ sc then none else if b ∈ sn then none else h b) a = some (.node k d pn pc) :=
        (if_neg ha.2).trans e1
      have g2 := release_ok (h := fun b => if b ∈ sc then none else if b ∈ sn then none else h b) (a := a)
        ((congrArg Option.isSome e2).trans rfl)
      simp only [freeNode, getNode_ok h1, Run.bind_ok, getTrie_ok ht, k1, g1, k2, g2]
      congr 2
      · funext b
        by_cases hb : b = a
        · simp [hb]
        · by_cases hb1 : b ∈ sn
          · simp [hb, hb1]
          · simp [hb, hb1]
      · cases ff <;> simp [Trie.free]

/-! ## Changing lists -/

theorem lastItem_ok {h : Heap α} {a : Nat} {l : List (Option α)} {s : List Nat} (hl : IsList h (some a) l s) {fuel : Nat}
    (hf : l.length < fuel) (hs : s.Nodup) : ∃ b d, lastItem fuel h a = .ok b ∧ b ∈ s ∧ h b = some (.item none d) ∧
      ∀ (h' : Heap α) (q : Ptr) (l' : List (Option α)) (s' : List Nat), (∀ x ∈ s, x ≠ b → h' x = h x) →
        h' b = some (.item q d) → IsList h' q l' s' → IsList h' (some a) (l ++ l') (s ++ s') := by
  induction l generalizing a s fuel with
  | nil => cases hl.1
  | cons d l ih =>
    obtain ⟨a', n, s', ha, h1, h2, rfl⟩ := hl
    cases ha
    obtain ⟨has, hs⟩ := List.nodup_cons.1 hs
    cases fuel with
    | zero => cases hf
    | succ m =>
      cases n with
      | none =>
        have hnil : l = [] ∧ s' = [] := by
          cases l with
          | nil => exact ⟨rfl, h2.2⟩
          | cons d l => obtain ⟨_, _, _, e, -⟩ := h2; cases e
        obtain ⟨rfl, rfl⟩ := hnil
        refine ⟨a, d, ?_, by simp, h1, fun h' q l' s' _ hb hl' => ⟨a, q, s', rfl, hb, hl', rfl⟩⟩
        simp only [lastItem, getItem_ok h1, Run.bind_ok]
      | some c =>
        obtain ⟨b, d', k1, k2, k3, k4⟩ := ih h2 (Nat.lt_of_succ_lt_succ hf) hs
        refine ⟨b, d', ?_, by simp [k2], k3, fun h' q l' s' he hb hl' => ?_⟩
        · simp only [lastItem, getItem_ok h1, Run.bind_ok, k1]
        · refine ⟨a, some c, _, rfl, ?_, k4 h' q l' s' (fun x hx => he x (by simp [hx])) hb hl', rfl⟩
          rw [he a (by simp) (by rintro rfl; exact has k2), h1]

/-! ## Insertion -/

/-- What a round of the loop of `bc_trie_insert` does after `place`. -/
def cont (fuel : Nat) (al : Heap α → Nat) (t : Nat) (d : α) (key : Str) (r : Ptr × Heap α) : Run (Heap α × List α) :=
  match key with
  | [] => do
    let x ← getNode r.2 r.1
    let ff ← getTrie r.2 t
    let h' ← setNode r.2 r.1 fun x => { x with data := some d }
    .ok (h', if ff.2 then x.data.toList else [])
  | _ :: rest => insertLoop fuel al t d rest r.1 r.2

theorem insertLoop_eq (fuel : Nat) (al : Heap α → Nat) (t : Nat) (d : α) (key : Str) (p : Ptr) (h : Heap α) :
    insertLoop fuel al t d key p h = (place fuel al t (Trie.keyByte key) p h).bind (cont fuel al t d key) := by
  cases key <;> rfl

/-- The blocks `s` become the blocks `s'`. -/
structure Changed (h h' : Heap α) (s s' : List Nat) : Prop where
  nodup : s'.Nodup
  fresh : ∀ a ∈ s', a ∉ s → h a = none
  gone : ∀ a ∈ s, a ∉ s' → h' a = none
  finite : Finite h'
  same : ∀ a, a ∉ s → a ∉ s' → h' a = h a

theorem fill {al : Heap α → Nat} (hal : AllocOk al) {t : Nat} {r : Nat} {ff : Bool} (fuel : Nat) (d : α) (key : Str)
    {h : Heap α} {a : Nat} (hf : Finite h) (ht : h t = some (.trie (some r) ff))
    (ha : h a = some (.node (Trie.keyByte key) none none none)) :
    ∃ h' s', cont fuel al t d key (some a, h) = .ok (h', []) ∧ IsTrie h' (some a) (Trie.chain key d) (a :: s') ∧
      (a :: s').Nodup ∧ (∀ b ∈ s', h b = none) ∧ Finite h' ∧ ∀ b, b ∉ a :: s' → h' b = h b := by
  induction key generalizing h a with
  | nil =>
    refine ⟨put h a (.node 0 (some d) none none), [], ?_, ⟨a, none, none, [], [], rfl, put_self .., ⟨rfl, rfl⟩,
      ⟨rfl, rfl⟩, rfl⟩, by simp, by simp, put_finite hf .., fun b hb => put_other (by simpa using hb)⟩
    have e := setNode_ok ha fun x => { x with data := some d }
    simp only [cont, getNode_ok ha, getTrie_ok ht, Run.bind_ok, e]
    cases ff <;> rfl
  | cons c rest ih =>
    have hn : h (al h) = none := hal h hf
    have hna : al h ≠ a := by intro e; rw [e, ha] at hn; cases hn
    have hnt : al h ≠ t := by intro e; rw [e, ht] at hn; cases hn
    have hta : t ≠ a := by rintro rfl; rw [ha] at ht; cases ht
    have e1 : newNode al h (Trie.keyByte rest) a = some (.node c none none none) := (put_other hna.symm).trans ha
    have hf2 : Finite (put (newNode al h (Trie.keyByte rest)) a (.node c none none (some (al h)))) :=
      put_finite (put_finite hf ..) ..
    have ht2 : put (newNode al h (Trie.keyByte rest)) a (.node c none none (some (al h))) t = some (.trie (some r) ff) := by
      rw [put_other hta]
      exact (put_other hnt.symm).trans ht
    have ha2 : put (newNode al h (Trie.keyByte rest)) a (.node c none none (some (al h))) (al h)
        = some (.node (Trie.keyByte rest) none none none) := by
      rw [put_other hna]
      exact put_self ..
    obtain ⟨h', s', k1, k2, k3, k4, k5, k6⟩ := ih hf2 ht2 ha2
    have has' : a ∉ al h :: s' := by
      intro hm
      rcases List.mem_cons.1 hm with e | hm
      · exact hna e.symm
      · have := k4 a hm
        rw [put_self] at this
        cases this
    refine ⟨h', al h :: s', ?_, ⟨a, none, some (al h), [], al h :: s', rfl, ?_, ⟨rfl, rfl⟩, k2, rfl⟩,
      List.nodup_cons.2 ⟨has', k3⟩, ?_, k5, ?_⟩
    · show insertLoop fuel al t d rest (some a) h = _
      rw [insertLoop_eq]
      have e2 := setNode_ok e1 fun x => { x with child := some (al h) }
      have ha' : h a = some (.node c none none none) := ha
      simp only [place, getTrie_ok ht, Run.bind_ok, getNode_ok ha', e2]
      exact k1
    · rw [k6 a has']
      exact put_self ..
    · intro b hb
      rcases List.mem_cons.1 hb with rfl | hb
      · exact hn
      · have := k4 b hb
        have h1 : b ≠ a := by rintro rfl; exact has' (by simp [hb])
        have h2 : b ≠ al h := by
          rintro rfl
          exact (List.nodup_cons.1 k3).1 hb
        rw [put_other h1] at this
        exact (put_other h2).symm.trans this
    · intro b hb
      simp only [List.mem_cons, not_or] at hb
      rw [k6 b (by simp [hb])]
      rw [put_other hb.1]
      exact put_other hb.2.1

/-- A node that is new, after another node was made to point to it. -/
theorem attach {al : Heap α → Nat} (hal : AllocOk al) {t : Nat} {r : Nat} {ff : Bool} (fuel : Nat) (d : α) (key : Str)
    {h : Heap α} {b : Nat} {c : Cell α} (hf : Finite h) (hb : (h b).isSome)
    (ht : put (newNode al h (Trie.keyByte key)) b c t = some (.trie (some r) ff)) :
    ∃ h' s', cont fuel al t d key (some (al h), put (newNode al h (Trie.keyByte key)) b c) = .ok (h', []) ∧
      IsTrie h' (some (al h)) (Trie.chain key d) s' ∧ s'.Nodup ∧ (∀ a ∈ s', h a = none) ∧ Finite h' ∧
      h' b = some c ∧ ∀ a, a ∉ s' → a ≠ b → h' a = h a := by
  have hn : h (al h) = none := hal h hf
  have hnb : al h ≠ b := by intro e; rw [← e, hn] at hb; cases hb
  obtain ⟨h', s', k1, k2, k3, k4, k5, k6⟩ := fill hal fuel d key (put_finite (put_finite hf ..) ..) ht
    (show put (newNode al h (Trie.keyByte key)) b c (al h) = some (.node (Trie.keyByte key) none none none) from
      (put_other hnb).trans (put_self ..))
  have hbs : b ∉ al h :: s' := by
    intro hm
    rcases List.mem_cons.1 hm with e | hm
    · exact hnb e.symm
    · have := k4 b hm
      rw [put_self] at this
      cases this
  refine ⟨h', al h :: s', k1, k2, k3, ?_, k5, ?_, ?_⟩
  · intro a ha
    rcases List.mem_cons.1 ha with rfl | ha
    · exact hn
    · have := k4 a ha
      have h1 : a ≠ b := by rintro rfl; exact hbs (by simp [ha])
      have h2 : a ≠ al h := by rintro rfl; exact (List.nodup_cons.1 k3).1 ha
      rw [put_other h1] at this
      exact (put_other h2).symm.trans this
  · rw [k6 b hbs]
    exact put_self ..
  · intro a ha hab
    rw [k6 a ha, put_other hab]
    exact put_other fun e => ha (by simp [e])

/-- The search, and what follows. -/
def scan (fuel : Nat) (al : Heap α → Nat) (t : Nat) (d : α) (key : Str) (f : Nat) (h : Heap α) (prev tmp : Ptr) :
    Run (Heap α × List α) :=
  (search f h (Trie.keyByte key) prev tmp).bind fun s =>
    (found al h (Trie.keyByte key) s).bind (cont fuel al t d key)

theorem scan_ok {al : Heap α → Nat} (hal : AllocOk al) {t : Nat} {r : Nat} {ff : Bool} (fuel : Nat) (d : α)
    {T : Trie α} {key : Str} (hk : NulFree key) {f : Nat} {h : Heap α} {prev : Ptr} {p : Nat} {s : List Nat}
    (hl : IsTrie h (some p) T s) (hs : s.Nodup) (hf : Finite h) (ht : h t = some (.trie (some r) ff))
    (hfl : count T < f) (hfuel : count T < fuel) :
    ∃ h' s', scan fuel al t d key f h prev (some p) = .ok (h', if ff then (T.insert key d).2 else []) ∧
      IsTrie h' (some p) (T.insert key d).1 s' ∧ (∀ a ∈ s, a ∈ s') ∧ Changed h h' s s' := by
  induction T generalizing p s f key prev with
  | nil => cases hl.1
  | node k dat nx ch ihn ihc =>
    obtain ⟨a, pn, pc, sn, sc, hpa, h1, h2, h3, rfl⟩ := hl
    cases hpa
    have hs0 := hs
    obtain ⟨ha, hs⟩ := List.nodup_cons.1 hs
    obtain ⟨hsn, hsc, hd⟩ := List.nodup_append'.1 hs
    simp only [List.mem_append, not_or] at ha
    have hta : t ≠ p := by rintro rfl; rw [h1] at ht; cases ht
    cases f with
    | zero => cases hfl
    | succ m =>
      simp only [count] at hfl hfuel
      by_cases hkey : k = Trie.keyByte key
      · have e : scan fuel al t d key (m + 1) h prev (some p) = cont fuel al t d key (some p, h) := by
          unfold scan
          simp only [search, getNode_ok h1, Run.bind_ok, if_pos hkey]
          show (found al h (Trie.keyByte key) (prev, some p)).bind _ = _
          unfold found
          rw [if_pos (Or.inr (by simp))]
          rfl
        rw [e]
        cases key with
        | nil =>
          have hk0 : k = 0 := hkey
          have ei : (Trie.node k dat nx ch).insert [] d = (.node k (some d) nx ch, dat.toList) := by
            rw [Trie.insert, if_pos hkey]
          rw [ei]
          refine ⟨put h p (.node k (some d) pn pc), p :: (sn ++ sc), ?_, ⟨p, pn, pc, sn, sc, rfl, put_self .., ?_, ?_, rfl⟩,
            fun _ hm => hm, hs0, fun _ h1 h2 => absurd h1 h2, fun _ h1 h2 => absurd h1 h2, put_finite hf .., ?_⟩
          · have e := setNode_ok h1 fun x => { x with data := some d }
            simp only [cont, getNode_ok h1, getTrie_ok ht, Run.bind_ok, e]
          · exact h2.frame fun b hb => put_other (by rintro rfl; exact ha.1 hb)
          · exact h3.frame fun b hb => put_other (by rintro rfl; exact ha.2 hb)
          · exact fun b hb _ => put_other (by rintro rfl; exact hb (by simp))
        | cons c rest =>
          have hkr : NulFree rest := fun x hx => hk x (by simp [hx])
          have ei : (Trie.node k dat nx ch).insert (c :: rest) d
              = (.node k dat nx (ch.insert rest d).1, (ch.insert rest d).2) := by
            rw [Trie.insert, if_pos hkey]
          rw [ei]
          show ∃ h' s', insertLoop fuel al t d rest (some p) h = _ ∧ _
          rw [insertLoop_eq]
          cases pc with
          | none =>
            have hnil : ch = .nil ∧ sc = [] := by
              cases ch with
              | nil => exact ⟨rfl, h3.2⟩
              | node => obtain ⟨_, _, _, _, _, e, -⟩ := h3; cases e
            obtain ⟨rfl, rfl⟩ := hnil
            have hna : al h ≠ p := by intro e; have := hal h hf; rw [e, h1] at this; cases this
            have e1 : newNode al h (Trie.keyByte rest) p = some (.node k dat pn none) := (put_other hna.symm).trans h1
            have e2 := setNode_ok e1 fun x => { x with child := some (al h) }
            have ht2 : put (newNode al h (Trie.keyByte rest)) p (.node k dat pn (some (al h))) t = some (.trie (some r) ff) := by
              rw [put_other hta]
              exact (put_other (by rintro rfl; rw [hal h hf] at ht; cases ht)).trans ht
            obtain ⟨h', s', k1, k2, k3, k4, k5, k6, k7⟩ := attach hal fuel d rest hf (by rw [h1]; rfl) ht2
            have hd' : ∀ b ∈ s', b ≠ p ∧ b ∉ sn := by
              intro b hb
              refine ⟨?_, fun hb' => ?_⟩
              · rintro rfl
                have := k4 b hb
                rw [h1] at this
                cases this
              · have := h2.allocated hb'
                rw [k4 b hb] at this
                cases this
            refine ⟨h', p :: (sn ++ s'), ?_, ⟨p, pn, some (al h), sn, s', rfl, k6, ?_, k2, rfl⟩, ?_, ?_, ?_, ?_, k5, ?_⟩
            · simp only [place, getTrie_ok ht, Run.bind_ok, getNode_ok h1, e2]
              refine Eq.trans k1 ?_
              cases ff <;> rfl
            · exact h2.frame fun b hb => k7 b (fun hb' => (hd' b hb').2 hb) (by rintro rfl; exact ha.1 hb)
            · intro b hb
              simp only [List.mem_cons, List.mem_append, List.not_mem_nil, or_false] at hb ⊢
              rcases hb with h | h
              · exact .inl h
              · exact .inr (.inl h)
            · refine List.nodup_cons.2 ⟨?_, List.nodup_append'.2 ⟨hsn, k3, fun b hb hb' => (hd' b hb').2 hb⟩⟩
              simp only [List.mem_append, not_or]
              exact ⟨ha.1, fun hp => (hd' p hp).1 rfl⟩
            · intro b hb hb'
              simp only [List.mem_cons, List.mem_append, not_or, List.not_mem_nil, not_false_eq_true, and_true] at hb hb'
              rcases hb with h | h | h
              · exact absurd h hb'.1
              · exact absurd h hb'.2
              · exact k4 b h
            · intro b hb hb'
              simp only [List.mem_cons, List.mem_append, not_or, List.not_mem_nil, or_false] at hb hb'
              rcases hb with h | h
              · exact absurd h hb'.1
              · exact absurd h hb'.2.1
            · intro b hb hb'
              simp only [List.mem_cons, List.mem_append, not_or] at hb'
              exact k7 b hb'.2.2 hb'.1
          | some c' =>
            obtain ⟨h', s', k1, k2, k3, k4⟩ := ihc hkr (f := fuel) (prev := none) h3 hsc (by omega) (by omega)
            have hd' : ∀ b ∈ s', b ≠ p ∧ b ∉ sn := by
              intro b hb
              by_cases hbc : b ∈ sc
              · exact ⟨by rintro rfl; exact ha.2 hbc, fun hb' => hd hb' hbc⟩
              · have hz := k4.fresh b hb hbc
                refine ⟨?_, fun hb' => ?_⟩
                · rintro rfl
                  rw [h1] at hz
                  cases hz
                · have := h2.allocated hb'
                  rw [hz] at this
                  cases this
            refine ⟨h', p :: (sn ++ s'), ?_, ⟨p, pn, some c', sn, s', rfl, ?_, ?_, k2, rfl⟩, ?_, ?_, ?_, ?_, k4.finite, ?_⟩
            · simp only [place, getTrie_ok ht, Run.bind_ok, getNode_ok h1]
              refine Eq.trans ?_ k1
              unfold scan
              cases search fuel h (Trie.keyByte rest) none (some c') <;> rfl
            · rw [k4.same p ha.2 fun hp => (hd' p hp).1 rfl, h1]
            · exact h2.frame fun b hb => k4.same b (fun hb' => hd hb hb') fun hb' => (hd' b hb').2 hb
            · intro b hb
              simp only [List.mem_cons, List.mem_append] at hb ⊢
              rcases hb with h | h | h
              · exact .inl h
              · exact .inr (.inl h)
              · exact .inr (.inr (k3 b h))
            · refine List.nodup_cons.2 ⟨?_, List.nodup_append'.2 ⟨hsn, k4.nodup, fun b hb hb' => (hd' b hb').2 hb⟩⟩
              simp only [List.mem_append, not_or]
              exact ⟨ha.1, fun hp => (hd' p hp).1 rfl⟩
            · intro b hb hb'
              simp only [List.mem_cons, List.mem_append, not_or] at hb hb'
              rcases hb with h | h | h
              · exact absurd h hb'.1
              · exact absurd h hb'.2.1
              · exact k4.fresh b h hb'.2.2
            · intro b hb hb'
              simp only [List.mem_cons, List.mem_append, not_or] at hb hb'
              rcases hb with h | h | h
              · exact absurd h hb'.1
              · exact absurd h hb'.2.1
              · exact absurd (k3 b h) hb'.2.2
            · intro b hb hb'
              simp only [List.mem_cons, List.mem_append, not_or] at hb hb'
              exact k4.same b hb.2.2 hb'.2.2
      · have ei : (Trie.node k dat nx ch).insert key d
            = (.node k dat (nx.insert key d).1 ch, (nx.insert key d).2) := by
          rw [Trie.insert.eq_def]
          simp only [if_neg hkey]
        rw [ei]
        have e : scan fuel al t d key (m + 1) h prev (some p) = scan fuel al t d key m h (some p) pn := by
          unfold scan
          simp only [search, getNode_ok h1, Run.bind_ok, if_neg hkey]
        rw [e]
        cases pn with
        | none =>
          have hnil : nx = .nil ∧ sn = [] := by
            cases nx with
            | nil => exact ⟨rfl, h2.2⟩
            | node => obtain ⟨_, _, _, _, _, e, -⟩ := h2; cases e
          obtain ⟨rfl, rfl⟩ := hnil
          have hna : al h ≠ p := by intro e; have := hal h hf; rw [e, h1] at this; cases this
          have e1 : newNode al h (Trie.keyByte key) p = some (.node k dat none pc) := (put_other hna.symm).trans h1
          have e2 := setNode_ok e1 fun x => { x with next := some (al h) }
          have ht2 : put (newNode al h (Trie.keyByte key)) p (.node k dat (some (al h)) pc) t = some (.trie (some r) ff) := by
            rw [put_other hta]
            exact (put_other (by rintro rfl; rw [hal h hf] at ht; cases ht)).trans ht
          obtain ⟨h', s', k1, k2, k3, k4, k5, k6, k7⟩ := attach hal fuel d key hf (by rw [h1]; rfl) ht2
          have hd' : ∀ b ∈ s', b ≠ p ∧ b ∉ sc := by
            intro b hb
            refine ⟨?_, fun hb' => ?_⟩
            · rintro rfl
              have := k4 b hb
              rw [h1] at this
              cases this
            · have := h3.allocated hb'
              rw [k4 b hb] at this
              cases this
          refine ⟨h', p :: (s' ++ sc), ?_, ⟨p, some (al h), pc, s', sc, rfl, k6, k2, ?_, rfl⟩, ?_, ?_, ?_, ?_, k5, ?_⟩
          · cases m with
            | zero => omega
            | succ m =>
              unfold scan
              simp only [search, Run.bind]
              show (found al h (Trie.keyByte key) (some p, none)).bind _ = _
              unfold found
              rw [if_neg (by simp)]
              simp only [e2, Run.bind_ok]
              refine Eq.trans k1 ?_
              cases ff <;> rfl
          · exact h3.frame fun b hb => k7 b (fun hb' => (hd' b hb').2 hb) (by rintro rfl; exact ha.2 hb)
          · intro b hb
            simp only [List.mem_cons, List.mem_append, List.not_mem_nil, false_or] at hb ⊢
            rcases hb with h | h
            · exact .inl h
            · exact .inr (.inr h)
          · refine List.nodup_cons.2 ⟨?_, List.nodup_append'.2 ⟨k3, hsc, fun b hb hb' => (hd' b hb).2 hb'⟩⟩
            simp only [List.mem_append, not_or]
            exact ⟨fun hp => (hd' p hp).1 rfl, ha.2⟩
          · intro b hb hb'
            simp only [List.mem_cons, List.mem_append, not_or, List.not_mem_nil, not_false_eq_true, true_and] at hb hb'
            rcases hb with h | h | h
            · exact absurd h hb'.1
            · exact k4 b h
            · exact absurd h hb'.2
          · intro b hb hb'
            simp only [List.mem_cons, List.mem_append, not_or, List.not_mem_nil, false_or] at hb hb'
            rcases hb with h | h
            · exact absurd h hb'.1
            · exact absurd h hb'.2.2
          · intro b hb hb'
            simp only [List.mem_cons, List.mem_append, not_or] at hb'
            exact k7 b hb'.2.1 hb'.1
        | some n' =>
          obtain ⟨h', s', k1, k2, k3, k4⟩ := ihn hk (f := m) (prev := some p) h2 hsn (by omega) (by omega)
          have hd' : ∀ b ∈ s', b ≠ p ∧ b ∉ sc := by
            intro b hb
            by_cases hbc : b ∈ sn
            · exact ⟨by rintro rfl; exact ha.1 hbc, fun hb' => hd hbc hb'⟩
            · have hz := k4.fresh b hb hbc
              refine ⟨?_, fun hb' => ?_⟩
              · rintro rfl
                rw [h1] at hz
                cases hz
              · have := h3.allocated hb'
                rw [hz] at this
                cases this
          refine ⟨h', p :: (s' ++ sc), k1, ⟨p, some n', pc, s', sc, rfl, ?_, k2, ?_, rfl⟩, ?_, ?_, ?_, ?_, k4.finite, ?_⟩
          · rw [k4.same p ha.1 fun hp => (hd' p hp).1 rfl, h1]
          · exact h3.frame fun b hb => k4.same b (fun hb' => hd hb' hb) fun hb' => (hd' b hb').2 hb
          · intro b hb
            simp only [List.mem_cons, List.mem_append] at hb ⊢
            rcases hb with h | h | h
            · exact .inl h
            · exact .inr (.inl (k3 b h))
            · exact .inr (.inr h)
          · refine List.nodup_cons.2 ⟨?_, List.nodup_append'.2 ⟨k4.nodup, hsc, fun b hb hb' => (hd' b hb).2 hb'⟩⟩
            simp only [List.mem_append, not_or]
            exact ⟨fun hp => (hd' p hp).1 rfl, ha.2⟩
          · intro b hb hb'
            simp only [List.mem_cons, List.mem_append, not_or] at hb hb'
            rcases hb with h | h | h
            · exact absurd h hb'.1
            · exact k4.fresh b h hb'.2.1
            · exact absurd h hb'.2.2
          · intro b hb hb'
            simp only [List.mem_cons, List.mem_append, not_or] at hb hb'
            rcases hb with h | h | h
            · exact absurd h hb'.1
            · exact absurd (k3 b h) hb'.2.1
            · exact absurd h hb'.2.2
          · intro b hb hb'
            simp only [List.mem_cons, List.mem_append, not_or] at hb hb'
            exact k4.same b hb.2.1 hb'.2.1

/-- At the address `t` there is a table with the nodes `T`. -/
def IsTable (h : Heap α) (t : Nat) (ff : Bool) (T : Trie α) (s : List Nat) : Prop :=
  ∃ r s', h t = some (.trie r ff) ∧ IsTrie h r T s' ∧ s = t :: s'

theorem insert_ok {al : Heap α → Nat} (hal : AllocOk al) {t : Nat} {ff : Bool} {T : Trie α} {key : Str} (hk : NulFree key)
    (d : α) {h : Heap α} {s : List Nat} (hl : IsTable h t ff T s) (hs : s.Nodup) (hf : Finite h) {fuel : Nat}
    (hfuel : count T < fuel) :
    ∃ h' s', insert fuel al h t key d = .ok (h', if ff then (T.insert key d).2 else []) ∧
      IsTable h' t ff (T.insert key d).1 s' ∧ Changed h h' s s' := by
  obtain ⟨r, s1, ht, hl, rfl⟩ := hl
  obtain ⟨hts, hs1⟩ := List.nodup_cons.1 hs
  show ∃ h' s', insertLoop fuel al t d key none h = _ ∧ _
  rw [insertLoop_eq]
  cases r with
  | none =>
    have hnil : T = .nil ∧ s1 = [] := by
      cases T with
      | nil => exact ⟨rfl, hl.2⟩
      | node => obtain ⟨_, _, _, _, _, e, -⟩ := hl; cases e
    obtain ⟨rfl, rfl⟩ := hnil
    have hna : al h ≠ t := by intro e; have := hal h hf; rw [e, ht] at this; cases this
    have e1 : newNode al h (Trie.keyByte key) t = some (.trie none ff) := (put_other hna.symm).trans ht
    have e2 : setRoot (newNode al h (Trie.keyByte key)) t (some (al h))
        = .ok (put (newNode al h (Trie.keyByte key)) t (.trie (some (al h)) ff)) := by
      unfold setRoot
      simp only [e1]
    obtain ⟨h', s', k1, k2, k3, k4, k5, k6, k7⟩ := attach hal fuel d key (c := .trie (some (al h)) ff) (t := t) hf
      (by rw [ht]; rfl) (put_self ..)
    have hts' : t ∉ s' := by
      intro hm
      have := k4 t hm
      rw [ht] at this
      cases this
    refine ⟨h', t :: s', ?_, ⟨some (al h), s', k6, k2, rfl⟩, List.nodup_cons.2 ⟨hts', k3⟩, ?_, ?_, k5, ?_⟩
    · simp only [place, getTrie_ok ht, Run.bind_ok, e2]
      refine Eq.trans k1 ?_
      cases ff <;> rfl
    · intro b hb hb'
      rcases List.mem_cons.1 hb with rfl | hb
      · exact absurd (by simp) hb'
      · exact k4 b hb
    · intro b hb hb'
      rw [List.mem_singleton.1 hb] at hb'
      exact absurd (by simp) hb'
    · intro b _ hb
      simp only [List.mem_cons, not_or] at hb
      exact k7 b hb.2 hb.1
  | some p =>
    obtain ⟨h', s', k1, k2, k3, k4⟩ := scan_ok hal fuel d hk (f := fuel) (prev := none) hl hs1 hf ht hfuel hfuel
    have hts' : t ∉ s' := by
      intro hm
      have := k4.fresh t hm hts
      rw [ht] at this
      cases this
    refine ⟨h', t :: s', ?_, ⟨some p, s', ?_, k2, rfl⟩, List.nodup_cons.2 ⟨hts', k4.nodup⟩, ?_, ?_, k4.finite, ?_⟩
    · simp only [place, getTrie_ok ht, Run.bind_ok]
      refine Eq.trans ?_ k1
      unfold scan
      cases search fuel h (Trie.keyByte key) none (some p) <;> rfl
    · rw [k4.same t hts hts', ht]
    · intro b hb hb'
      simp only [List.mem_cons, not_or] at hb hb'
      rcases hb with h | h
      · exact absurd h hb'.1
      · exact k4.fresh b h hb'.2
    · intro b hb hb'
      simp only [List.mem_cons, not_or] at hb hb'
      rcases hb with h | h
      · exact absurd h hb'.1
      · exact absurd (k3 b h) hb'.2
    · intro b hb hb'
      simp only [List.mem_cons, not_or] at hb hb'
      exact k4.same b hb.2 hb'.2

end Blogc.Mem
