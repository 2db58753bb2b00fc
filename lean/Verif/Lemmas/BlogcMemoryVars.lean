import Verif.Lemmas.BlogcMemorySame
import Verif.Lemmas.Loader

/-!
# The ledger gives the table of variables what the loader puts into it
-/

namespace Blogc.BlogcMem

open Blogc Blogc.Spec

/-- How many new texts are put into the table of variables. -/
def puts (evs : List Event) : Nat := evs.count (.give .str .config)

/-- The names that the loader may define. -/
def loaderNames : List Str :=
  [b!"DATE_FIRST", b!"FILENAME_FIRST", b!"DATE_LAST", b!"FILENAME_LAST", b!"CURRENT_PAGE", b!"PREVIOUS_PAGE", b!"NEXT_PAGE",
   b!"FIRST_PAGE", b!"LAST_PAGE"]

/-- `c'` defines what `c` defines, and `ks`. -/
def Adds (c c' : Trie Str) (ks : List Str) : Prop :=
  ∀ n, NulFree n → (c'.lookup n).isSome = ((c.lookup n).isSome || ks.contains n)

theorem Adds.refl (c : Trie Str) : Adds c c [] := fun n _ => by simp

theorem Adds.trans {c c' c'' : Trie Str} {ks ks' : List Str} (h : Adds c c' ks) (h' : Adds c' c'' ks') :
    Adds c c'' (ks ++ ks') := fun n hn => by
  rw [h' n hn, h n hn, Bool.or_assoc]
  congr 1
  simp [List.contains_eq_mem]

theorem adds_set (c : Trie Str) (k v : Str) (hk : NulFree k) : Adds c (Loader.set c k v) [k] := fun n hn => by
  rw [Loader.lookup_set c k n v hk hn]
  by_cases h : n = k <;> simp [h]

theorem adds_if (b : Prop) [Decidable b] (c : Trie Str) (k v : Str) (hk : NulFree k) :
    Adds c (if b then Loader.set c k v else c) (if b then [k] else []) := by
  split
  · exact adds_set c k v hk
  · exact Adds.refl c

theorem adds_unless (b : Bool) (c : Trie Str) (k v : Str) (hk : NulFree k) :
    Adds c (if b then c else Loader.set c k v) (if b then [] else [k]) := by
  cases b
  · exact adds_set c k v hk
  · exact Adds.refl c

def copyNames (s : Trie Str) (a b : Str) : List Str :=
  (if (s.lookup b!"DATE").isSome then [a] else []) ++ (if (s.lookup b!"FILENAME").isSome then [b] else [])

theorem adds_copy (c s : Trie Str) (src dst : Str) (hk : NulFree dst) :
    Adds c (Loader.copyVar c s src dst) (if (s.lookup src).isSome then [dst] else []) := by
  unfold Loader.copyVar
  cases s.lookup src with
  | none => exact Adds.refl c
  | some v => exact adds_set c dst v hk

theorem puts_append (a b : List Event) : puts (a ++ b) = puts a + puts b := List.count_append

theorem puts_new : puts (putNew .config) = 1 := rfl

theorem puts_if (b : Prop) [Decidable b] (k : Str) :
    puts (if b then putNew .config else []) = (if b then [k] else []).length := by
  split <;> rfl

theorem puts_copy (n : Nat) (s : Trie Str) (a b : Str) : puts (copyEvents n s) = (copyNames s a b).length := by
  unfold copyEvents copyNames
  rw [puts_append, puts_append, puts_append, List.length_append, puts_if _ a, puts_if _ b]
  simp only [show puts [Event.use (.table n)] = 0 from rfl]
  omega

def edges : (first : Bool) → List (Trie Str) → List Str
  | _, [] => []
  | first, s :: l => (if first then copyNames s b!"DATE_FIRST" b!"FILENAME_FIRST" else []) ++
    (if l.isEmpty then copyNames s b!"DATE_LAST" b!"FILENAME_LAST" else []) ++ edges false l

theorem edges_adds : ∀ (l : List (Trie Str)) (first : Bool) (c : Trie Str),
    Adds c (Loader.firstLast first l c) (edges first l)
  | [], _, c => Adds.refl c
  | s :: l, first, c => by
    have e (c : Trie Str) (a b : Str) (ha : NulFree a) (hb : NulFree b) (p : Bool) :
        Adds c (if p then Loader.copyVar (Loader.copyVar c s b!"DATE" a) s b!"FILENAME" b else c)
          (if p then copyNames s a b else []) := by
      cases p with
      | false => exact Adds.refl c
      | true => exact (adds_copy c s _ a ha).trans (adds_copy _ s _ b hb)
    exact ((e c _ _ (by decide) (by decide) first).trans (e _ _ _ (by decide) (by decide) l.isEmpty)).trans
      (edges_adds l false _)

theorem edges_puts : ∀ (l : Tables) (first : Bool), puts (firstLastEvents first l) = (edges first (l.map (·.2))).length
  | [], _ => rfl
  | (n, s) :: l, first => by
    simp only [firstLastEvents, List.map_cons, edges, puts_append, List.length_append, edges_puts l false, List.isEmpty_map]
    congr 1
    congr 1
    · cases first
      · rfl
      · exact puts_copy n s _ _
    · cases l.isEmpty
      · rfl
      · exact puts_copy n s _ _

theorem copyNames_sub (s : Trie Str) (a b : Str) : (copyNames s a b).Sublist [a, b] := by
  unfold copyNames
  split <;> split <;> simp

theorem edges_sub : ∀ l : List (Trie Str), (edges false l).Sublist [b!"DATE_LAST", b!"FILENAME_LAST"] ∧
    (edges true l).Sublist [b!"DATE_FIRST", b!"FILENAME_FIRST", b!"DATE_LAST", b!"FILENAME_LAST"]
  | [] => ⟨List.nil_sublist _, List.nil_sublist _⟩
  | s :: l => by
    have h : ((if l.isEmpty then copyNames s b!"DATE_LAST" b!"FILENAME_LAST" else []) ++ edges false l).Sublist
        [b!"DATE_LAST", b!"FILENAME_LAST"] := by
      cases l with
      | nil => simpa [edges] using copyNames_sub s b!"DATE_LAST" b!"FILENAME_LAST"
      | cons x l => simpa using (edges_sub (x :: l)).1
    refine ⟨by simpa [edges] using h, ?_⟩
    simp only [edges, if_true, List.append_assoc]
    exact (copyNames_sub s b!"DATE_FIRST" b!"FILENAME_FIRST").append h

def pageNames (page last : Nat) (rvEmpty : Bool) : List Str :=
  [b!"CURRENT_PAGE"] ++ (if page > 1 then [b!"PREVIOUS_PAGE"] else []) ++ (if page < last then [b!"NEXT_PAGE"] else []) ++
  (if rvEmpty then [] else [b!"FIRST_PAGE"]) ++ (if last > 0 then [b!"LAST_PAGE"] else [])

theorem page_adds {c c' : Trie Str} {page perPage counter last : Nat} {e : Bool} (hl : Loader.lastPage counter perPage = .ok last)
    (h : Loader.pageVars c page perPage counter e = .ok c') : Adds c c' (pageNames page last e) := by
  simp only [Loader.pageVars, bind, Res.bind, hl, pure, Res.ok.injEq] at h
  subst h
  exact Adds.trans (Adds.trans (Adds.trans (Adds.trans (adds_set _ _ (decInt page) (by decide))
    (adds_if _ _ _ (decInt (page - 1)) (by decide))) (adds_if _ _ _ (decInt (page + 1)) (by decide)))
    (adds_unless e _ _ b!"1" (by decide))) (adds_if _ _ _ _ (by decide))

theorem page_puts (page last : Nat) (e : Bool) : puts (pageVarEvents page last e) = (pageNames page last e).length := by
  unfold pageVarEvents pageNames
  simp only [puts_append, List.length_append, puts_if (page > 1) b!"PREVIOUS_PAGE",
    puts_if (page < last) b!"NEXT_PAGE", puts_if (last > 0) b!"LAST_PAGE"]
  cases e <;> rfl

theorem page_sub (page last : Nat) (e : Bool) : (pageNames page last e).Sublist
    [b!"CURRENT_PAGE", b!"PREVIOUS_PAGE", b!"NEXT_PAGE", b!"FIRST_PAGE", b!"LAST_PAGE"] := by
  have one (p : Prop) [Decidable p] (k : Str) : (if p then [k] else []).Sublist [k] := by split <;> simp
  have h4 : (if e then [] else [b!"FIRST_PAGE"]).Sublist [b!"FIRST_PAGE"] := by cases e <;> simp
  exact ((((List.Sublist.refl [b!"CURRENT_PAGE"]).append (one (page > 1) b!"PREVIOUS_PAGE")).append
    (one (page < last) b!"NEXT_PAGE")).append h4).append (one (last > 0) b!"LAST_PAGE")

theorem loop_puts (tag : Option Str) (paged : Bool) (start stop : Nat) : ∀ (l : Tables) (c : Nat) (e : Bool),
    puts (pageEvents tag paged start stop l c e).2 = 0
  | [], c, e => rfl
  | (n, s) :: l, c, e => by
    have ht : puts (tagEvents tag n s) = 0 := by
      unfold tagEvents
      split
      · rfl
      · split <;> rfl
    unfold pageEvents
    simp only
    split
    · simp only [puts_append, ht, loop_puts tag paged start stop l]; rfl
    · split
      · simp only [puts_append, ht, loop_puts tag paged start stop l]; rfl
      · simp only [puts_append, ht, loop_puts tag paged start stop l]
        cases e <;> rfl

/-- Names that are defined by `c'` only are counted. -/
theorem adds_count {c c' : Trie Str} {ks : List Str} (h : Adds c c' ks) (hs : ks.Sublist loaderNames)
    (hc : ∀ n ∈ loaderNames, c.lookup n = none) :
    (loaderNames.filter fun n => (c'.lookup n).isSome).length = ks.length := by
  have e : (loaderNames.filter fun n => (c'.lookup n).isSome) = loaderNames.filter (ks.contains ·) := by
    refine List.filter_congr fun n hn => ?_
    rw [h n ((by decide : ∀ n ∈ loaderNames, NulFree n) n hn), hc n hn]
    rfl
  have nd : loaderNames.Nodup := by decide
  rw [e]
  have p : (loaderNames.filter (ks.contains ·)).Perm ks := by
    refine (List.perm_ext_iff_of_nodup (nd.filter _) (nd.sublist hs)).mpr fun n => ?_
    simp only [List.mem_filter, List.contains_eq_mem, decide_eq_true_eq]
    exact ⟨fun h => h.2, fun h => ⟨hs.subset h, h⟩⟩
  exact p.length_eq

theorem select_puts (conf : Trie Str) (list : Thing) (l : Tables) {r : List (Trie Str) × Trie Str}
    (h : Loader.select conf (l.map (·.2)) = .ok r) :
    ∃ ks, puts (selectEvents conf list l).2 = ks.length ∧ Adds conf r.2 ks ∧ ks.Sublist loaderNames := by
  unfold Loader.select at h
  unfold selectEvents
  simp only at h ⊢
  split at h
  · cases h
  · revert h
    generalize hst : (Loader.pageOf (conf.lookup b!"FILTER_PAGE") - 1) * Loader.perPageOf (conf.lookup b!"FILTER_PER_PAGE") = start
    intro h
    have hp := page_same (conf.lookup b!"FILTER_TAG") (conf.lookup b!"FILTER_PAGE").isSome start
      (start + Loader.perPageOf (conf.lookup b!"FILTER_PER_PAGE")) l 0 true
    have h0 := loop_puts (conf.lookup b!"FILTER_TAG") (conf.lookup b!"FILTER_PAGE").isSome start
      (start + Loader.perPageOf (conf.lookup b!"FILTER_PER_PAGE")) l 0 true
    have hr : puts (if l = [] then [] else [Event.release list]) = 0 := by split <;> rfl
    simp only [puts_append, h0, hr, edges_puts, hp, show puts [Event.use .config] = 0 from rfl, Nat.zero_add]
    revert h hp
    generalize Loader.pageLoop (conf.lookup b!"FILTER_TAG") (conf.lookup b!"FILTER_PAGE").isSome start
      (start + Loader.perPageOf (conf.lookup b!"FILTER_PER_PAGE")) (l.map (·.2)) 0 = q
    intro h hp
    split at h
    next hf =>
      rw [if_pos hf]
      cases hl : Loader.lastPage q.2 (Loader.perPageOf (conf.lookup b!"FILTER_PER_PAGE")) with
      | ub => simp only [bind, Res.bind, Loader.pageVars, hl] at h; cases h
      | ok last =>
        cases hv : Loader.pageVars (Loader.firstLast true q.1 conf) (Loader.pageOf (conf.lookup b!"FILTER_PAGE"))
            (Loader.perPageOf (conf.lookup b!"FILTER_PER_PAGE")) q.2 q.1.isEmpty with
        | ub => simp only [bind, Res.bind, hv] at h; cases h
        | ok c' =>
          simp only [bind, Res.bind, hv, pure, Res.ok.injEq] at h
          subst h
          refine ⟨edges true q.1 ++ pageNames (Loader.pageOf (conf.lookup b!"FILTER_PAGE")) last q.1.isEmpty, ?_,
            (edges_adds _ _ _).trans (page_adds hl hv), (edges_sub q.1).2.append (page_sub _ _ _)⟩
          rw [List.length_append, page_puts, ← hp, List.isEmpty_map]
    next hf =>
      rw [if_neg hf]
      cases h
      exact ⟨edges true q.1, rfl, edges_adds _ _ _, (edges_sub q.1).2.trans (by decide)⟩

end Blogc.BlogcMem
