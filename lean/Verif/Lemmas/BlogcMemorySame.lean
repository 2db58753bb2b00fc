import Verif.Lemmas.BlogcMemoryRun

/-!
# The ledger follows the loader

Which sources are loaded, selected and in which order is the same in BlogcMemory as in Loader.
-/

namespace Blogc.BlogcMem

open Blogc Blogc.Spec

/-! ## Sorting -/

def mapSort (f : α → β) : Option (Res (List α)) → Option (Res (List β))
  | none => none
  | some .ub => some .ub
  | some (.ok l) => some (.ok (l.map f))

def mapInner (f : α → β) : Option (Res (Nat × SortState α)) → Option (Res (Nat × SortState β))
  | none => none
  | some .ub => some .ub
  | some (.ok (i, s)) => some (.ok (i, ⟨s.data.map f, s.calls, s.swapped⟩))

theorem sortInner_map (f : α → β) (cmp : Nat → β → β → Int) (rptr : Option Nat) (fuel : Nat) :
    ∀ (lptr : Nat) (d : List α) (calls : Nat) (sw : Bool),
    sortInner cmp rptr fuel lptr ⟨d.map f, calls, sw⟩ =
      mapInner f (sortInner (fun k a b => cmp k (f a) (f b)) rptr fuel lptr ⟨d, calls, sw⟩) := by
  induction fuel with
  | zero => intros; rfl
  | succ fuel ih =>
    intro lptr d calls sw
    rw [sortInner, sortInner]
    simp only [List.length_map]
    split
    · rfl
    · split
      · rfl
      · rename_i nx _
        simp only [List.getElem?_map]
        cases h1 : d[lptr]? with
        | none => rfl
        | some a =>
          cases h2 : d[nx]? with
          | none => rfl
          | some b =>
            simp only [Option.map_some]
            split
            · rw [← List.map_set, ← List.map_set]
              exact ih _ _ _ _
            · exact ih _ _ _ _

theorem sortOuter_map (f : α → β) (cmp : Nat → β → β → Int) (fuel : Nat) :
    ∀ (rptr : Option Nat) (d : List α) (calls : Nat),
    sortOuter cmp fuel rptr (d.map f) calls = mapSort f (sortOuter (fun k a b => cmp k (f a) (f b)) fuel rptr d calls) := by
  induction fuel with
  | zero => intros; rfl
  | succ fuel ih =>
    intro rptr d calls
    rw [sortOuter, sortOuter, sortInner_map]
    cases sortInner (fun k a b => cmp k (f a) (f b)) rptr (fuel + 1) 0 ⟨d, calls, false⟩ with
    | none => rfl
    | some r =>
      cases r with
      | ub => rfl
      | ok r =>
        obtain ⟨i, s⟩ := r
        simp only [mapInner]
        split
        · exact ih _ _ _
        · rfl

theorem slistSort_map (f : α → β) (cmp : Nat → β → β → Int) (fuel : Nat) (d : List α) :
    slistSort cmp fuel (d.map f) = mapSort f (slistSort (fun k a b => cmp k (f a) (f b)) fuel d) := by
  unfold slistSort
  cases d with
  | nil => rfl
  | cons a d => exact sortOuter_map f cmp fuel none (a :: d) 0

/-! ## The loader -/

variable {w : World} {stamp : Str → Option Str}

/-- What the loader uses. -/
def loaderEnv (w : World) (stamp : Str → Option Str) : Loader.Env := ⟨source w, stamp⟩

theorem load_same (m : Option Str) (sort : Bool) : ∀ (l : List Str) (n : Nat) (acc : Tables) (dates : Nat),
    (load w stamp m sort n acc dates l).1.map (fun r => (r.1.map (·.2), r.2)) =
      (Loader.loadLoop (loaderEnv w stamp) m sort l).map fun r => (acc.map (·.2) ++ r.1, dates + r.2)
  | [], n, acc, dates => by simp [load, Loader.loadLoop]
  | f :: l, n, acc, dates => by
    unfold load Loader.loadLoop
    simp only [loaderEnv]
    cases source w m f with
    | none => rfl
    | some s =>
      simp only
      cases sort with
      | false =>
        have ih := load_same m false l (n + 1) (acc ++ [(n, s)]) ((if (s.lookup b!"DATE").isSome then 1 else 0) + dates)
        simp only [Bool.false_eq_true, if_false]
        rw [ih]
        simp only [loaderEnv]
        cases Loader.loadLoop ⟨source w, stamp⟩ m false l with
        | none => rfl
        | some r =>
          simp only [Option.map_some, List.map_append, List.map_cons, List.map_nil, List.append_assoc, List.cons_append,
            List.nil_append]
          congr 2
          omega
      | true =>
        simp only [if_true]
        cases hd : s.lookup b!"DATE" with
        | none => rfl
        | some d =>
          simp only
          cases stamp d with
          | none => rfl
          | some ts =>
            simp only
            rw [load_same m true l]
            simp only [loaderEnv]
            cases Loader.loadLoop ⟨source w, stamp⟩ m true l with
            | none => rfl
            | some r =>
              simp only [Option.map_some, List.map_append, List.map_cons, List.map_nil, List.append_assoc, List.cons_append,
                List.nil_append]
              congr 2
              simp only [Option.isSome_some, if_true]
              omega

theorem order_same (sort reverse : Bool) (ts : Tables) {l : List (Trie Str)}
    (h : Loader.order sort reverse (ts.map (·.2)) = .ok l) : (order sort reverse ts).map (·.map (·.2)) = some l := by
  unfold Loader.order at h
  unfold order
  cases sort with
  | false =>
    cases reverse with
    | false => cases h; rfl
    | true =>
      cases h
      simp [List.map_reverse]
  | true =>
    simp only [if_true, List.length_map] at h ⊢
    rw [slistSort_map] at h
    have e : (fun (k : Nat) (a b : Nat × Trie Str) => (if reverse = true then Loader.sortSourceReverse else Loader.sortSource) a.2 b.2) =
        fun _ a b => if reverse = true then Loader.sortSourceReverse a.2 b.2 else Loader.sortSource a.2 b.2 := by
      funext k a b
      split <;> rfl
    rw [e] at h
    revert h
    generalize slistSort (fun (_ : Nat) (a b : Nat × Trie Str) => if reverse = true then Loader.sortSourceReverse a.2 b.2 else Loader.sortSource a.2 b.2) (ts.length + 1) ts = x
    intro h
    match x, h with
    | some (.ok r), h => cases h; rfl

theorem page_same (tag : Option Str) (paged : Bool) (start stop : Nat) : ∀ (l : Tables) (c : Nat) (e : Bool),
    (pageEvents tag paged start stop l c e).1.map (·.2) = (Loader.pageLoop tag paged start stop (l.map (·.2)) c).1
  | [], c, e => rfl
  | (n, s) :: l, c, e => by
    unfold pageEvents
    simp only [List.map_cons, Loader.pageLoop]
    split
    · exact page_same tag paged start stop l c e
    · cases paged with
      | false =>
        simp only [Bool.false_and, Bool.false_eq_true, if_false, List.map_cons]
        rw [page_same tag false start stop l c false]
      | true =>
        simp only [Bool.true_and, if_true, Bool.or_eq_true, decide_eq_true_eq]
        split
        · exact page_same tag true start stop l _ e
        · simp only [List.map_cons]
          rw [page_same tag true start stop l _ false]

/-- The sources that are kept, and whether there is an error, are those of the loader. -/
theorem files_same (conf : Trie Str) (l : List Str) {r : Option (List (Trie Str) × Trie Str)}
    (h : Loader.fromFiles (loaderEnv w stamp) conf l = .ok r) :
    (filesEvents w stamp conf l).1.map (·.map (·.2)) = r.map (·.1) := by
  unfold Loader.fromFiles at h
  unfold filesEvents
  simp only at h ⊢
  have hl := load_same (w := w) (stamp := stamp) (conf.lookup b!"TOCTREE_MAXDEPTH") (strToBool (conf.lookup b!"FILTER_SORT")) l 0 [] 0
  revert hl
  generalize (load w stamp (conf.lookup b!"TOCTREE_MAXDEPTH") (strToBool (conf.lookup b!"FILTER_SORT")) 0 [] 0 l) = x
  intro hl
  cases hx : x.1 with
  | none =>
    rw [hx] at hl
    have : Loader.loadLoop (loaderEnv w stamp) (conf.lookup b!"TOCTREE_MAXDEPTH") (strToBool (conf.lookup b!"FILTER_SORT")) l = none :=
      Option.map_eq_none_iff.1 hl.symm
    rw [this] at h
    cases h
    rfl
  | some v =>
    obtain ⟨ts, dates⟩ := v
    rw [hx] at hl
    obtain ⟨⟨sources, k⟩, h1, h2⟩ := Option.map_eq_some_iff.1 hl.symm
    simp only [List.map_nil, List.nil_append, Nat.zero_add, Prod.mk.injEq] at h2
    obtain ⟨rfl, rfl⟩ := h2
    rw [h1] at h
    simp only at h ⊢
    split
    next hc =>
      rw [if_pos hc] at h
      cases h
      rfl
    next hc =>
      rw [if_neg hc] at h
      cases ho : Loader.order (strToBool (conf.lookup b!"FILTER_SORT")) (strToBool (conf.lookup b!"FILTER_REVERSE"))
          (ts.map (·.2)) with
      | ub => rw [ho] at h; cases h
      | ok l' =>
        rw [ho] at h
        have ho' := order_same _ _ _ ho
        obtain ⟨ts', h3, rfl⟩ := Option.map_eq_some_iff.1 ho'
        rw [h3]
        simp only [Option.map_some]
        cases hs : Loader.select conf (ts'.map (·.2)) with
        | ub =>
          simp only [bind, Res.bind, hs] at h
          cases h
        | ok v =>
          have h : some v = r := by
            simp only [bind, Res.bind, hs, pure, Res.ok.injEq] at h
            exact h
          subst h
          simp only [Option.map_some]
          congr 1
          have he : v.1 = (Loader.pageLoop (conf.lookup b!"FILTER_TAG") (conf.lookup b!"FILTER_PAGE").isSome
              ((Loader.pageOf (conf.lookup b!"FILTER_PAGE") - 1) * Loader.perPageOf (conf.lookup b!"FILTER_PER_PAGE"))
              ((Loader.pageOf (conf.lookup b!"FILTER_PAGE") - 1) * Loader.perPageOf (conf.lookup b!"FILTER_PER_PAGE") +
                Loader.perPageOf (conf.lookup b!"FILTER_PER_PAGE")) (ts'.map (·.2)) 0).1 := by
            unfold Loader.select at hs
            simp only at hs
            split at hs
            · cases hs
            · split at hs
              · simp only [bind, Res.bind] at hs
                split at hs
                · cases hs
                  rfl
                · cases hs
              · cases hs
                rfl
          rw [he]
          exact page_same _ _ _ _ _ _ _

end Blogc.BlogcMem
