import Verif.Lemmas.Loader
import Verif.Lemmas.Numbers

/-!
# C29: pagination partitions the entries
-/

namespace Blogc.C29

open Blogc Blogc.Loader Blogc.Spec.Entries

/-! ## The list fact -/

theorem pageCount_eq (n total count : Nat) (hn : 0 < n) (h : IsPageCount n total count) :
    count = (total + n - 1) / n := by
  obtain ⟨h1, h2⟩ := h
  apply Nat.le_antisymm
  · apply h2
    have := Nat.div_add_mod (total + n - 1) n
    have := Nat.mod_lt (total + n - 1) hn
    rw [Nat.mul_comm]
    omega
  · rw [← Nat.lt_succ_iff, Nat.div_lt_iff_lt_mul hn, Nat.succ_mul]
    omega

/-- The pages `1..count` in order give the whole list back. -/
theorem pages_concat {α : Type u} (n count : Nat) (l : List α) (h : l.length ≤ count * n) :
    (List.range count).flatMap (fun i => page n (i + 1) l) = l := by
  have key : ∀ k, (List.range k).flatMap (fun i => page n (i + 1) l) = l.take (k * n) := by
    intro k
    induction k with
    | zero => simp
    | succ k ih =>
      rw [List.range_succ, List.flatMap_append, ih]
      simp only [List.flatMap_cons, List.flatMap_nil, List.append_nil, page, Nat.add_sub_cancel]
      rw [Nat.succ_mul, List.take_add]
  rw [key, List.take_of_length_le h]

/-- Every page but the last is full; the last one is not empty. -/
theorem page_length {α : Type u} (n count : Nat) (hn : 0 < n) (l : List α)
    (h : IsPageCount n l.length count) :
    (∀ p, 1 ≤ p → p < count → (page n p l).length = n) ∧
    (0 < count → 0 < (page n count l).length ∧ (page n count l).length ≤ n) := by
  have hlt : ∀ p, p < count → p * n < l.length := by
    intro p hp
    rcases Nat.lt_or_ge (p * n) l.length with h1 | h1
    · exact h1
    · have := h.2 p h1; omega
  constructor
  · intro p h1 h2
    have := hlt p h2
    obtain ⟨q, rfl⟩ : ∃ q, p = q + 1 := ⟨p - 1, by omega⟩
    rw [Nat.add_mul, Nat.one_mul] at this
    simp only [page, List.length_take, List.length_drop, Nat.add_sub_cancel]
    omega
  · intro hc
    have h1 := hlt (count - 1) (by omega)
    simp only [page, List.length_take, List.length_drop]
    omega

/-! ## The loader -/

theorem lastPage_exact (counter n : Nat) (hn : 0 < n) (hn' : n < 2 ^ 63) (hc : counter < 2 ^ 24) :
    lastPage counter n = .ok ((counter + n - 1) / n) := by
  unfold lastPage
  have e1 : floatOfNat counter = counter := by unfold floatOfNat; rw [if_pos hc]
  have hle : (counter + n - 1) / n < 2 ^ 64 := by
    rw [Nat.div_lt_iff_lt_mul hn]
    have := Nat.mul_le_mul_left (2 ^ 64) hn
    omega
  by_cases hs : n < 2 ^ 24
  · have e2 : floatOfNat n = n := by unfold floatOfNat; rw [if_pos hs]
    simp only [e1, e2]
    rw [if_neg (by omega), ceilDiv32_exact counter n hn (by omega) hc, if_pos hle]
  · have h2 := floatOfNat_large n (by omega)
    have hbig : floatOfNat n < 2 ^ 128 := by
      unfold floatOfNat
      rw [if_neg hs]
      simp only
      have h0 := downShift_spec n 1 64 0 (Or.inl rfl)
      generalize downShift n 1 64 0 = k at h0
      have hk : 2 ^ k ≤ n ∨ k = 0 := by
        rcases h0.1 with h | h
        · exact Or.inr h
        · left
          have : 2 ^ k ≤ 2 ^ (23 + k) := Nat.pow_le_pow_right (by omega) (by omega)
          omega
      have hk2 : 2 ^ k ≤ n := by
        rcases hk with h | h
        · exact h
        · subst h; omega
      have h3 : roundEven n (2 ^ k) ≤ n := by
        apply roundEven_le (Nat.two_pow_pos k)
        exact Nat.le_mul_of_pos_left n (Nat.two_pow_pos k)
      calc roundEven n (2 ^ k) * 2 ^ k ≤ n * n := Nat.mul_le_mul h3 hk2
        _ < 2 ^ 63 * 2 ^ 63 := Nat.mul_lt_mul_of_lt_of_le hn' (by omega) (by omega)
        _ ≤ 2 ^ 128 := by decide
    simp only [e1]
    rw [if_neg (by omega), ceilDiv32_exact counter _ (by omega) hbig hc]
    have e3 : ∀ d, 2 ^ 24 ≤ d → (counter + d - 1) / d = if counter = 0 then 0 else 1 := by
      intro d hd
      split
      · rename_i h; subst h
        exact Nat.div_eq_of_lt (by omega)
      · rw [Nat.div_eq_iff (by omega)]; omega
    rw [e3 _ h2, e3 n (by omega)]
    split <;> simp

/-- The page variables that a global table shows. -/
structure PageVars (conf base : Vars) (p count : Nat) (nonempty : Prop) : Prop where
  current : conf.lookup b!"CURRENT_PAGE" = some (decNat p)
  previous : 1 < p → conf.lookup b!"PREVIOUS_PAGE" = some (decNat (p - 1))
  noPrevious : ¬ 1 < p → conf.lookup b!"PREVIOUS_PAGE" = base.lookup b!"PREVIOUS_PAGE"
  next : p < count → conf.lookup b!"NEXT_PAGE" = some (decNat (p + 1))
  noNext : ¬ p < count → conf.lookup b!"NEXT_PAGE" = base.lookup b!"NEXT_PAGE"
  first : nonempty → conf.lookup b!"FIRST_PAGE" = some b!"1"
  noFirst : ¬ nonempty → conf.lookup b!"FIRST_PAGE" = base.lookup b!"FIRST_PAGE"
  last : 0 < count → conf.lookup b!"LAST_PAGE" = some (decNat count)
  noLast : ¬ 0 < count → conf.lookup b!"LAST_PAGE" = base.lookup b!"LAST_PAGE"

theorem decInt_nat (n : Nat) : decInt (n : Int) = decNat n := by
  unfold decInt
  rw [if_neg (by omega)]
  simp

theorem pageVars_correct (conf base : Vars) (page n counter last : Nat) (b : Bool)
    (hlast : lastPage counter n = .ok last) (hl : last < 2 ^ 31) (hp : 1 ≤ page)
    (hbase : ∀ k, NulFree k → k ∉ edgeNames → conf.lookup k = base.lookup k) :
    ∃ conf', pageVars conf page n counter b = .ok conf' ∧
      PageVars conf' base page last (b = false) := by
  have i32 : toInt32 (last : Int) = (last : Int) := by
    unfold toInt32
    rw [Int.bmod_eq_of_le] <;> omega
  refine ⟨_, by simp only [pageVars, hlast, Res.bind_ok, Res.pure_eq]; rfl, ?_⟩
  have n1 : NulFree b!"CURRENT_PAGE" := by decide
  have n2 : NulFree b!"PREVIOUS_PAGE" := by decide
  have n3 : NulFree b!"NEXT_PAGE" := by decide
  have n4 : NulFree b!"FIRST_PAGE" := by decide
  have n5 : NulFree b!"LAST_PAGE" := by decide
  have u : ∀ (c : Prop) [Decidable c] (t : Vars) (k v k' : Str), NulFree k → NulFree k' →
      (if c then set t k v else t).lookup k' = if c ∧ k' = k then some v else t.lookup k' := by
    intro c _ t k v k' hk hk'
    by_cases hc : c
    · simp only [hc, if_true, true_and]; exact lookup_set t k k' v hk hk'
    · simp [hc]
  have u' : ∀ (c : Prop) [Decidable c] (t : Vars) (k v k' : Str), NulFree k → NulFree k' →
      (if c then t else set t k v).lookup k' = if ¬ c ∧ k' = k then some v else t.lookup k' := by
    intro c _ t k v k' hk hk'
    by_cases hc : c
    · simp [hc]
    · simp only [hc, if_false, not_false_eq_true, true_and]; exact lookup_set t k k' v hk hk'
  have e1 : ((page : Int) - 1) = ((page - 1 : Nat) : Int) := by omega
  have e2 : ((page : Int) + 1) = ((page + 1 : Nat) : Int) := by omega
  simp only [i32, e1, e2, decInt_nat]
  constructor
  · rw [u _ _ _ _ _ n5 n1, u' _ _ _ _ _ n4 n1, u _ _ _ _ _ n3 n1, u _ _ _ _ _ n2 n1,
      lookup_set _ _ _ _ n1 n1]
    simp
  · intro h
    rw [u _ _ _ _ _ n5 n2, u' _ _ _ _ _ n4 n2, u _ _ _ _ _ n3 n2, u _ _ _ _ _ n2 n2,
      lookup_set _ _ _ _ n1 n2]
    simp [h]
  · intro h
    rw [u _ _ _ _ _ n5 n2, u' _ _ _ _ _ n4 n2, u _ _ _ _ _ n3 n2, u _ _ _ _ _ n2 n2,
      lookup_set _ _ _ _ n1 n2, ← hbase _ n2 (by decide)]
    simp [h]
  · intro h
    rw [u _ _ _ _ _ n5 n3, u' _ _ _ _ _ n4 n3, u _ _ _ _ _ n3 n3, u _ _ _ _ _ n2 n3,
      lookup_set _ _ _ _ n1 n3]
    simp [h]
  · intro h
    rw [u _ _ _ _ _ n5 n3, u' _ _ _ _ _ n4 n3, u _ _ _ _ _ n3 n3, u _ _ _ _ _ n2 n3,
      lookup_set _ _ _ _ n1 n3, ← hbase _ n3 (by decide)]
    simp [h]
  · intro h
    rw [u _ _ _ _ _ n5 n4, u' _ _ _ _ _ n4 n4, u _ _ _ _ _ n3 n4, u _ _ _ _ _ n2 n4,
      lookup_set _ _ _ _ n1 n4]
    simp [h]
  · intro h
    rw [u _ _ _ _ _ n5 n4, u' _ _ _ _ _ n4 n4, u _ _ _ _ _ n3 n4, u _ _ _ _ _ n2 n4,
      lookup_set _ _ _ _ n1 n4, ← hbase _ n4 (by decide)]
    have : b = true := by simpa using h
    simp [this]
  · intro h
    rw [u _ _ _ _ _ n5 n5, u' _ _ _ _ _ n4 n5, u _ _ _ _ _ n3 n5, u _ _ _ _ _ n2 n5,
      lookup_set _ _ _ _ n1 n5]
    simp [h]
  · intro h
    rw [u _ _ _ _ _ n5 n5, u' _ _ _ _ _ n4 n5, u _ _ _ _ _ n3 n5, u _ _ _ _ _ n2 n5,
      lookup_set _ _ _ _ n1 n5, ← hbase _ n5 (by decide)]
    have : last = 0 := by omega
    simp [this]

/-- The page size asked for: FILTER_PER_PAGE in decimal, 10 when it is not
set. -/
def PerPage (conf : Vars) (n : Nat) : Prop :=
  conf.lookup b!"FILTER_PER_PAGE" = some (decNat n) ∨
    (conf.lookup b!"FILTER_PER_PAGE" = none ∧ n = 10)

/-- Loading page `p` of files whose entries (after tag filter, sort and reverse)
are `all` gives exactly page `p` of `all`, and the page variables are those of
that page. Preconditions the code relies on: the page size is not 0, fewer than
`2 ^ 24` entries (single precision arithmetic), and no overflow of the product
of page number and page size. -/
theorem page_exact (env : Env) (conf : Vars) (files : List Str) (all : List Vars) (conf' : Vars)
    (n p count : Nat) (hp0 : conf.lookup b!"FILTER_PAGE" = none) (hn : PerPage conf n)
    (hn0 : 0 < n) (hp : 1 ≤ p) (hov : p * n < 2 ^ 63) (hall : all.length < 2 ^ 24)
    (hcount : IsPageCount n all.length count)
    (h : fromFiles env conf files = .ok (some (all, conf'))) :
    ∃ conf'', fromFiles env (set conf b!"FILTER_PAGE" (decNat p)) files =
        .ok (some (page n p all, conf'')) ∧
      PageVars conf'' conf p count (page n p all ≠ []) := by
  have n0 : NulFree b!"FILTER_PAGE" := by decide
  have lk : ∀ k, NulFree k → k ≠ b!"FILTER_PAGE" →
      (set conf b!"FILTER_PAGE" (decNat p)).lookup k = conf.lookup k := by
    intro k hk hne
    rw [lookup_set _ _ _ _ n0 hk, if_neg hne]
  have lt : (set conf b!"FILTER_PAGE" (decNat p)).lookup b!"FILTER_PAGE" = some (decNat p) := by
    rw [lookup_set _ _ _ _ n0 n0, if_pos rfl]
  have hpn : p ≤ p * n := Nat.le_mul_of_pos_right p hn0
  have hnn : n ≤ p * n := Nat.le_mul_of_pos_left n hp
  rcases fromFiles_congr env conf (set conf b!"FILTER_PAGE" (decNat p)) files
    (lk _ (by decide) (by decide)) (lk _ (by decide) (by decide)) (lk _ (by decide) (by decide))
    with ⟨h1, -⟩ | ⟨h1, -⟩ | ⟨srcs, h1, h2⟩
  · rw [h1] at h; simp at h
  · rw [h1] at h; simp at h
  rw [h1] at h
  rw [h2]
  have hpp : perPageOf (conf.lookup b!"FILTER_PER_PAGE") = n := by
    unfold perPageOf
    rcases hn with hn | ⟨hn, rfl⟩
    · rw [hn, Option.getD_some, strtol_decNat n (by omega)]
      simp
    · rw [hn]; decide
  have hpg : pageOf (some (decNat p)) = p := by
    unfold pageOf
    rw [Option.getD_some, strtol_decNat p (by omega)]
    simp only
    rw [if_neg (by omega)]
    simp
  have hall' : all = srcs.filter (tagOk (conf.lookup b!"FILTER_TAG")) := by
    unfold select at h
    rw [hp0] at h
    simp only [Option.isSome_none, pageLoop_all, Bool.false_eq_true, if_false] at h
    split at h
    · simp at h
    · simp only [Res.map, Res.ok.injEq, Option.some.injEq, Prod.mk.injEq] at h
      exact h.1.symm
  have hov' : (p - 1) * n + n = p * n := by
    rw [← Nat.succ_mul]
    congr 1
    omega
  unfold select
  rw [lt, lk b!"FILTER_PER_PAGE" (by decide) (by decide), lk b!"FILTER_TAG" (by decide) (by decide)]
  simp only [hpg, hpp, Option.isSome_some, if_true]
  rw [if_neg (by omega), pageLoop_paged _ _ _ (by omega), ← hall']
  simp only [Nat.sub_zero, Nat.zero_add]
  have hpage : (all.take ((p - 1) * n + n)).drop ((p - 1) * n) = page n p all := by
    unfold page
    rw [List.drop_take]
    congr 1
    omega
  rw [hpage]
  have hlast := lastPage_exact all.length n hn0 (by omega) hall
  rw [← pageCount_eq n _ _ hn0 hcount] at hlast
  have hc31 : count < 2 ^ 31 := by
    have := hcount.2 all.length (Nat.le_mul_of_pos_right _ hn0)
    omega
  obtain ⟨c'', e, hv⟩ := pageVars_correct
    (firstLast true (page n p all) (set conf b!"FILTER_PAGE" (decNat p))) 
    (set conf b!"FILTER_PAGE" (decNat p)) p n all.length count (page n p all).isEmpty hlast hc31 hp
    (fun k hk hne => lookup_firstLast _ _ _ _ hk hne)
  rw [e]
  simp only [Res.bind_ok, Res.pure_eq, Res.map]
  refine ⟨c'', rfl, ?_⟩
  have hiff : ((page n p all).isEmpty = false) ↔ page n p all ≠ [] := by simp
  constructor
  · exact hv.current
  · exact hv.previous
  · intro h; rw [hv.noPrevious h, lk _ (by decide) (by decide)]
  · exact hv.next
  · intro h; rw [hv.noNext h, lk _ (by decide) (by decide)]
  · intro h; exact hv.first (hiff.2 h)
  · intro h; rw [hv.noFirst (fun hh => h (hiff.1 hh)), lk _ (by decide) (by decide)]
  · exact hv.last
  · intro h; rw [hv.noLast h, lk _ (by decide) (by decide)]

/-- The property: the pages from 1 to LAST_PAGE, each as the program loads it,
concatenated in order are all the entries; every page but the last has exactly
`n` entries. (Since pages are consecutive segments, they are disjoint.) -/
theorem pages_partition_partial (env : Env) (conf : Vars) (files : List Str) (all : List Vars) (conf' : Vars)
    (n count : Nat) (hp0 : conf.lookup b!"FILTER_PAGE" = none) (hn : PerPage conf n)
    (hn0 : 0 < n) (hov : count * n < 2 ^ 63) (hall : all.length < 2 ^ 24)
    (hcount : IsPageCount n all.length count)
    (h : fromFiles env conf files = .ok (some (all, conf'))) :
    ∃ pages : List (List Vars), pages.length = count ∧
      (∀ i pg, pages[i]? = some pg → ∃ c, fromFiles env (set conf b!"FILTER_PAGE" (decNat (i + 1))) files =
        .ok (some (pg, c)) ∧ PageVars c conf (i + 1) count True) ∧
      pages.flatten = all ∧ (∀ pg ∈ pages.dropLast, pg.length = n) := by
  have hl := page_length n count hn0 all hcount
  refine ⟨(List.range count).map (fun i => page n (i + 1) all), by simp, ?_, ?_, ?_⟩
  · intro i pg hi
    have hic : i < count := by
      have := (List.getElem?_eq_some_iff.1 hi).1
      simpa using this
    have hpg : pg = page n (i + 1) all := by
      simp [List.getElem?_map, List.getElem?_range hic] at hi
      exact hi.symm
    subst hpg
    have hov2 : (i + 1) * n < 2 ^ 63 :=
      Nat.lt_of_le_of_lt (Nat.mul_le_mul_right n hic) hov
    obtain ⟨c, h1, h2⟩ := page_exact env conf files all conf' n (i + 1) count hp0 hn hn0 (by omega)
      hov2 hall hcount h
    have hne : page n (i + 1) all ≠ [] := by
      intro he
      by_cases hlast : i + 1 < count
      · have := hl.1 (i + 1) (by omega) hlast
        rw [he] at this
        simp at this; omega
      · have e : i + 1 = count := by omega
        have := (hl.2 (by omega)).1
        rw [← e, he] at this
        simp at this
    refine ⟨c, h1, ?_⟩
    have : (page n (i + 1) all ≠ []) = True := by simp [hne]
    rw [this] at h2
    exact h2
  · rw [← List.flatMap_def, pages_concat n count all hcount.1]
  · intro pg hpg
    cases count with
    | zero => simp at hpg
    | succ m =>
      rw [List.range_succ, List.map_append, List.map_singleton, List.dropLast_concat] at hpg
      obtain ⟨i, hi, rfl⟩ := List.mem_map.1 hpg
      exact hl.1 (i + 1) (by omega) (by simp at hi; omega)

/-- A page size of 0 leads to a division by zero whose result is converted to
an integer: undefined behaviour. So the page size must be positive. -/
theorem zero_page_size_violated (env : Env) :
    fromFiles env (Trie.inserts [(b!"FILTER_PAGE", b!"1"), (b!"FILTER_PER_PAGE", b!"0")]).1 [] =
      .ub := by
  rfl

/-- Beyond single precision, the number of pages can be wrong: 16777217 entries,
one per page, give LAST_PAGE 16777216, so the last entry is on no page up to
LAST_PAGE. -/
theorem many_entries_violated : lastPage 16777217 1 = .ok 16777216 ∧
    IsPageCount 1 16777217 16777217 := by
  refine ⟨by decide +kernel, by omega, by intro m h; omega⟩

def sampleEnv : Env where
  parse := fun _ f => some (Trie.inserts [(b!"FILENAME", f)]).1
  stamp := fun _ => none

example : (match fromFiles sampleEnv
      (Trie.inserts [(b!"FILTER_PAGE", b!"2"), (b!"FILTER_PER_PAGE", b!"2")]).1
      [b!"a", b!"b", b!"c", b!"d", b!"e"] with
    | .ok (some (l, c)) => (l.map (·.lookup b!"FILENAME"), c.lookup b!"LAST_PAGE", c.lookup b!"NEXT_PAGE")
    | _ => ([], none, none)) = ([some b!"c", some b!"d"], some b!"3", some b!"3") := by decide

example : PerPage (Trie.inserts [(b!"FILTER_PER_PAGE", b!"2")]).1 2 ∧ IsPageCount 2 5 3 :=
  ⟨Or.inl (by decide), by omega, by intro m h; omega⟩

end Blogc.C29
