import Verif.Lemmas.RenderNames
import Verif.Lemmas.Loader

/-!
# The loader depends on few of the variables of sources and command line
-/

namespace Blogc.Render.Nam

open Blogc Blogc.Loader
open Blogc.Spec (All2 Opt2 AgreeOn)

variable {α : Type}

theorem _root_.Blogc.Spec.All2.get {R : α → α → Prop} {l l' : List α} (h : All2 R l l') (i : Nat) : Opt2 R l[i]? l'[i]? := by
  induction l generalizing l' i with
  | nil => cases l' with
    | nil => trivial
    | cons _ _ => exact h.elim
  | cons a l ih => cases l' with
    | nil => exact h.elim
    | cons b l' => cases i with
      | zero => exact h.1
      | succ i => exact ih h.2 i

theorem _root_.Blogc.Spec.All2.set {R : α → α → Prop} {l l' : List α} (h : All2 R l l') {a b : α} (hab : R a b) (i : Nat) :
    All2 R (l.set i a) (l'.set i b) := by
  induction l generalizing l' i with
  | nil => cases l' with
    | nil => trivial
    | cons _ _ => exact h.elim
  | cons x l ih => cases l' with
    | nil => exact h.elim
    | cons y l' => cases i with
      | zero => exact ⟨hab, h.2⟩
      | succ i => exact ⟨h.1, ih h.2 i⟩

theorem _root_.Blogc.Spec.All2.length {R : α → α → Prop} {l l' : List α} (h : All2 R l l') : l.length = l'.length := by
  induction l generalizing l' with
  | nil => cases l' with
    | nil => rfl
    | cons _ _ => exact h.elim
  | cons x l ih => cases l' with
    | nil => exact h.elim
    | cons y l' => simp [ih h.2]

theorem _root_.Blogc.Spec.All2.append {R : α → α → Prop} {l l' m m' : List α} (h : All2 R l l') (hm : All2 R m m') :
    All2 R (l ++ m) (l' ++ m') := by
  induction l generalizing l' with
  | nil => cases l' with
    | nil => exact hm
    | cons _ _ => exact h.elim
  | cons x l ih => cases l' with
    | nil => exact h.elim
    | cons y l' => exact ⟨h.1, ih h.2⟩

theorem _root_.Blogc.Spec.All2.reverse {R : α → α → Prop} {l l' : List α} (h : All2 R l l') : All2 R l.reverse l'.reverse := by
  induction l generalizing l' with
  | nil => cases l' with
    | nil => trivial
    | cons _ _ => exact h.elim
  | cons x l ih => cases l' with
    | nil => exact h.elim
    | cons y l' =>
      rw [List.reverse_cons, List.reverse_cons]
      exact (ih h.2).append ⟨h.1, trivial⟩

theorem _root_.Blogc.Spec.All2.mono {R Q : α → α → Prop} (hRQ : ∀ a b, R a b → Q a b) {l l' : List α} (h : All2 R l l') :
    All2 Q l l' := by
  induction l generalizing l' with
  | nil => cases l' with
    | nil => trivial
    | cons _ _ => exact h.elim
  | cons x l ih => cases l' with
    | nil => exact h.elim
    | cons y l' => exact ⟨hRQ _ _ h.1, ih h.2⟩

/-! ## Sorting -/

def InnerRel (R : α → α → Prop) : Option (Res (Nat × SortState α)) → Option (Res (Nat × SortState α)) → Prop
  | none, none => True
  | some .ub, some .ub => True
  | some (.ok (i, a)), some (.ok (j, b)) =>
    i = j ∧ All2 R a.data b.data ∧ a.calls = b.calls ∧ a.swapped = b.swapped
  | _, _ => False

theorem sortInner_rel {R : α → α → Prop} {cmp : Nat → α → α → Int}
    (hc : ∀ k a a' b b', R a a' → R b b' → cmp k a b = cmp k a' b') (rptr : Option Nat) (fuel lptr : Nat)
    {d d' : List α} (h : All2 R d d') (calls : Nat) (sw : Bool) :
    InnerRel R (sortInner cmp rptr fuel lptr ⟨d, calls, sw⟩) (sortInner cmp rptr fuel lptr ⟨d', calls, sw⟩) := by
  induction fuel generalizing lptr d d' calls sw with
  | zero => trivial
  | succ fuel ih =>
    rw [sortInner, sortInner]
    simp only [h.length]
    split
    · exact ⟨rfl, h, rfl, rfl⟩
    · split
      · trivial
      · rename_i nx _
        have h1 := h.get lptr
        have h2 := h.get nx
        revert h1 h2
        generalize d[lptr]? = x
        generalize d'[lptr]? = x'
        generalize d[nx]? = y
        generalize d'[nx]? = y'
        intro h1 h2
        match x, x', y, y', h1, h2 with
        | none, none, none, none, _, _ => trivial
        | none, none, some _, some _, _, _ => trivial
        | some _, some _, none, none, _, _ => trivial
        | some a, some a', some b, some b', h1, h2 =>
          simp only
          rw [hc calls a a' b b' h1 h2]
          split
          · exact ih nx ((h.set h2 _).set h1 _) _ _
          · exact ih nx h _ _

def SortRel (R : α → α → Prop) : Option (Res (List α)) → Option (Res (List α)) → Prop
  | none, none => True
  | some .ub, some .ub => True
  | some (.ok a), some (.ok b) => All2 R a b
  | _, _ => False

theorem sortOuter_rel {R : α → α → Prop} {cmp : Nat → α → α → Int}
    (hc : ∀ k a a' b b', R a a' → R b b' → cmp k a b = cmp k a' b') (fuel : Nat) (rptr : Option Nat)
    {d d' : List α} (h : All2 R d d') (calls : Nat) :
    SortRel R (sortOuter cmp fuel rptr d calls) (sortOuter cmp fuel rptr d' calls) := by
  induction fuel generalizing rptr d d' calls with
  | zero => trivial
  | succ fuel ih =>
    rw [sortOuter, sortOuter]
    have := sortInner_rel hc rptr (fuel + 1) 0 h calls false
    revert this
    generalize sortInner cmp rptr (fuel + 1) 0 ⟨d, calls, false⟩ = x
    generalize sortInner cmp rptr (fuel + 1) 0 ⟨d', calls, false⟩ = y
    intro h
    match x, y, h with
    | none, none, _ => trivial
    | some .ub, some .ub, _ => trivial
    | some (.ok (i, a)), some (.ok (j, b)), h =>
      obtain ⟨rfl, h1, h2, h3⟩ := h
      simp only [h2, h3]
      split
      · exact ih _ h1 _
      · exact h1

theorem slistSort_rel {R : α → α → Prop} {cmp : Nat → α → α → Int}
    (hc : ∀ k a a' b b', R a a' → R b b' → cmp k a b = cmp k a' b') (fuel : Nat)
    {d d' : List α} (h : All2 R d d') : SortRel R (slistSort cmp fuel d) (slistSort cmp fuel d') := by
  unfold slistSort
  rw [h.isEmpty]
  split
  · trivial
  · exact sortOuter_rel hc fuel none h 0

/-! ## The loader -/

def ResRel (R : α → α → Prop) : Res α → Res α → Prop
  | .ub, .ub => True
  | .ok a, .ok b => R a b
  | _, _ => False

/-- Sources that agree on a set of variables that includes `DATE`, `TAGS` and `FILENAME`. -/
structure Local (P : Str → Prop) : Prop where
  date : P b!"DATE"
  tags : P b!"TAGS"
  filename : P b!"FILENAME"

/-- Global variables that are used by the loader. -/
structure Global (P : Str → Prop) : Prop where
  sort : P b!"FILTER_SORT"
  reverse : P b!"FILTER_REVERSE"
  tag : P b!"FILTER_TAG"
  page : P b!"FILTER_PAGE"
  perPage : P b!"FILTER_PER_PAGE"
  depth : P b!"TOCTREE_MAXDEPTH"

variable {P Q : Str → Prop}

/-- With the time of a source, if they are sorted. -/
def Timed (P : Str → Prop) (sort : Bool) (k : Str) : Prop := P k ∨ sort = true ∧ k = b!"c"

theorem agreeOn_timed {a b : Vars} (h : AgreeOn P a b) (v : Str) :
    AgreeOn (Timed P true) (set a b!"c" v) (set b b!"c" v) := by
  intro k hk
  rcases hk with hk | ⟨-, rfl⟩
  · exact agreeOn_insert h _ v (by decide) k hk
  · unfold Loader.set
    rw [Trie.lookup_insert a _ _ v (by decide) (by decide), Trie.lookup_insert b _ _ v (by decide) (by decide),
      if_pos rfl, if_pos rfl]

def LoadRel (P : Str → Prop) (sort : Bool) : Option (List Vars × Nat) → Option (List Vars × Nat) → Prop
  | none, none => True
  | some (a, n), some (b, m) => All2 (AgreeOn (Timed P sort)) a b ∧ n = m
  | _, _ => False

theorem loadLoop_rel (hP : Local P) {env env' : Env} (hs : ∀ d, env.stamp d = env'.stamp d) (d : Option Str)
    (sort : Bool) (l : List Str) (h : ∀ f ∈ l, Opt2 (AgreeOn P) (env.parse d f) (env'.parse d f)) :
    LoadRel P sort (loadLoop env d sort l) (loadLoop env' d sort l) := by
  induction l with
  | nil => exact ⟨trivial, rfl⟩
  | cons f l ih =>
    have hf := h f (by simp)
    have ih := ih fun x hx => h x (by simp [hx])
    rw [loadLoop, loadLoop]
    revert hf ih
    generalize env.parse d f = x
    generalize env'.parse d f = x'
    generalize loadLoop env d sort l = r
    generalize loadLoop env' d sort l = r'
    intro hf ih
    match x, x', hf with
    | none, none, _ => trivial
    | some s, some s', hf =>
      simp only
      rw [hf _ hP.date]
      cases sort with
      | false =>
        match r, r', ih with
        | none, none, _ => trivial
        | some (a, n), some (b, m), ih =>
          refine ⟨⟨?_, ih.1⟩, by rw [ih.2]⟩
          intro k hk
          rcases hk with hk | ⟨e, -⟩
          · exact hf k hk
          · cases e
      | true =>
        simp only [if_true]
        cases s'.lookup b!"DATE" with
        | none => trivial
        | some dt =>
          simp only
          rw [hs]
          cases env'.stamp dt with
          | none => trivial
          | some ts =>
            match r, r', ih with
            | none, none, _ => trivial
            | some (a, n), some (b, m), ih => exact ⟨⟨agreeOn_timed hf ts, ih.1⟩, by rw [ih.2]⟩

theorem sortSource_agree {a a' b b' : Vars} (h : AgreeOn (Timed P true) a a') (h' : AgreeOn (Timed P true) b b') :
    sortSource a b = sortSource a' b' := by
  unfold sortSource
  rw [h _ (.inr ⟨rfl, rfl⟩), h' _ (.inr ⟨rfl, rfl⟩)]

theorem order_rel (sort reverse : Bool) {l l' : List Vars} (h : All2 (AgreeOn (Timed P sort)) l l') :
    ResRel (All2 (AgreeOn P)) (order sort reverse l) (order sort reverse l') := by
  have hm : ∀ {a b : List Vars}, All2 (AgreeOn (Timed P sort)) a b → All2 (AgreeOn P) a b :=
    fun h => h.mono fun a b hab k hk => hab k (.inl hk)
  unfold order
  cases sort with
  | false =>
    cases reverse with
    | false => exact hm h
    | true => exact hm h.reverse
  | true =>
    have := slistSort_rel (R := AgreeOn (Timed P true))
      (cmp := fun _ => if reverse then sortSourceReverse else sortSource)
      (fun k a a' b b' h1 h2 => by
        cases reverse
        · exact sortSource_agree h1 h2
        · exact sortSource_agree h2 h1) (l.length + 1) h
    simp only [if_true]
    rw [← h.length]
    revert this
    generalize slistSort _ (l.length + 1) l = x
    generalize slistSort _ (l.length + 1) l' = y
    intro this
    match x, y, this with
    | none, none, _ => trivial
    | some .ub, some .ub, _ => trivial
    | some (.ok a), some (.ok b), this => exact hm this

theorem tagOk_agree (hP : Local P) {a b : Vars} (h : AgreeOn P a b) (tag : Option Str) :
    tagOk tag a = tagOk tag b := by
  unfold tagOk
  rw [h _ hP.tags]

theorem pageLoop_rel (hP : Local P) (tag : Option Str) (paged : Bool) (start stop : Nat) {l l' : List Vars}
    (h : All2 (AgreeOn P) l l') (c : Nat) :
    All2 (AgreeOn P) (pageLoop tag paged start stop l c).1 (pageLoop tag paged start stop l' c).1 ∧
      (pageLoop tag paged start stop l c).2 = (pageLoop tag paged start stop l' c).2 := by
  induction l generalizing l' c with
  | nil => cases l' with
    | nil => exact ⟨trivial, rfl⟩
    | cons _ _ => exact h.elim
  | cons x l ih => cases l' with
    | nil => exact h.elim
    | cons y l' =>
      rw [pageLoop, pageLoop, tagOk_agree hP h.1]
      split
      · exact ih h.2 c
      · split
        · split
          · exact ih h.2 _
          · exact ⟨⟨h.1, (ih h.2 _).1⟩, (ih h.2 _).2⟩
        · exact ⟨⟨h.1, (ih h.2 _).1⟩, (ih h.2 _).2⟩

theorem copyVar_agree {c c' s s' : Vars} (h : AgreeOn Q c c') {src : Str} (e : s.lookup src = s'.lookup src)
    {dst : Str} (hk : NulFree dst) : AgreeOn Q (copyVar c s src dst) (copyVar c' s' src dst) := by
  unfold copyVar
  rw [e]
  split
  · exact agreeOn_insert h _ _ hk
  · exact h

theorem firstLast_agree (hP : Local P) (first : Bool) {l l' : List Vars} (hl : All2 (AgreeOn P) l l')
    {c c' : Vars} (h : AgreeOn Q c c') : AgreeOn Q (firstLast first l c) (firstLast first l' c') := by
  induction l generalizing l' first c c' with
  | nil => cases l' with
    | nil => exact h
    | cons _ _ => exact hl.elim
  | cons s l ih => cases l' with
    | nil => exact hl.elim
    | cons s' l' =>
      rw [firstLast, firstLast, hl.2.isEmpty]
      apply ih _ hl.2
      have e1 := hl.1 _ hP.date
      have e2 := hl.1 _ hP.filename
      have h1 : ∀ b : Bool, AgreeOn Q
          (if b then copyVar (copyVar c s b!"DATE" b!"DATE_FIRST") s b!"FILENAME" b!"FILENAME_FIRST" else c)
          (if b then copyVar (copyVar c' s' b!"DATE" b!"DATE_FIRST") s' b!"FILENAME" b!"FILENAME_FIRST"
            else c') := by
        intro b
        cases b
        · exact h
        · exact copyVar_agree (copyVar_agree h e1 (by decide)) e2 (by decide)
      cases l'.isEmpty
      · exact h1 first
      · exact copyVar_agree (copyVar_agree (h1 first) e1 (by decide)) e2 (by decide)

theorem agreeOn_ite {c d : Vars} (h : AgreeOn Q c d) (b : Prop) [Decidable b] (k v : Str) (hk : NulFree k) :
    AgreeOn Q (if b then set c k v else c) (if b then set d k v else d) := by
  split
  · exact agreeOn_insert h k v hk
  · exact h

theorem agreeOn_ite' {c d : Vars} (h : AgreeOn Q c d) (b : Bool) (k v : Str) (hk : NulFree k) :
    AgreeOn Q (if b then c else set c k v) (if b then d else set d k v) := by
  split
  · exact h
  · exact agreeOn_insert h k v hk

theorem pageVars_agree {c d : Vars} (h : AgreeOn Q c d) (page perPage counter : Nat) (e : Bool) :
    ResRel (AgreeOn Q) (pageVars c page perPage counter e) (pageVars d page perPage counter e) := by
  unfold pageVars
  cases lastPage counter perPage with
  | ub => trivial
  | ok last =>
    exact agreeOn_ite (agreeOn_ite' (agreeOn_ite (agreeOn_ite (agreeOn_insert h _ _ (by decide)) _ _ _ (by decide))
      _ _ _ (by decide)) _ _ _ (by decide)) _ _ _ (by decide)

def PairRel (P Q : Str → Prop) (a b : List Vars × Vars) : Prop :=
  All2 (AgreeOn P) a.1 b.1 ∧ AgreeOn Q a.2 b.2

theorem select_rel (hP : Local P) (hQ : Global Q) {c d : Vars} (h : AgreeOn Q c d) {l l' : List Vars}
    (hl : All2 (AgreeOn P) l l') : ResRel (PairRel P Q) (select c l) (select d l') := by
  unfold select
  simp only [h _ hQ.page, h _ hQ.perPage, h _ hQ.tag]
  generalize d.lookup b!"FILTER_PAGE" = fp
  generalize perPageOf (d.lookup b!"FILTER_PER_PAGE") = pp
  generalize d.lookup b!"FILTER_TAG" = tag
  generalize pageOf fp = page
  split
  · trivial
  · obtain ⟨h1, h2⟩ := pageLoop_rel hP tag fp.isSome ((page - 1) * pp) ((page - 1) * pp + pp) hl 0
    revert h1 h2
    generalize pageLoop tag fp.isSome ((page - 1) * pp) ((page - 1) * pp + pp) l 0 = r
    generalize pageLoop tag fp.isSome ((page - 1) * pp) ((page - 1) * pp + pp) l' 0 = r'
    obtain ⟨r1, r2⟩ := r
    obtain ⟨s1, s2⟩ := r'
    intro h1 h2
    simp only at h1 h2
    subst h2
    have hf := firstLast_agree hP true h1 h
    cases fp with
    | none => exact ⟨h1, hf⟩
    | some fp =>
      have := pageVars_agree hf page pp r2 r1.isEmpty
      simp only [Option.isSome_some, if_true]
      show ResRel (PairRel P Q) ((pageVars _ page pp r2 r1.isEmpty).bind fun c => .ok (r1, c))
        ((pageVars _ page pp r2 s1.isEmpty).bind fun c => .ok (s1, c))
      rw [← h1.isEmpty]
      revert this
      generalize pageVars _ page pp r2 r1.isEmpty = x
      generalize pageVars _ page pp r2 r1.isEmpty = y
      intro this
      match x, y, this with
      | .ub, .ub, _ => trivial
      | .ok a, .ok b, this => exact ⟨h1, this⟩

theorem fromFiles_rel (hP : Local P) (hQ : Global Q) {env env' : Env} (hs : ∀ d, env.stamp d = env'.stamp d)
    {c d : Vars} (h : AgreeOn Q c d) (files : List Str)
    (hf : ∀ f ∈ files, ∀ m, Opt2 (AgreeOn P) (env.parse m f) (env'.parse m f)) :
    ResRel (Opt2 (PairRel P Q)) (fromFiles env c files) (fromFiles env' d files) := by
  unfold fromFiles
  simp only [h _ hQ.sort, h _ hQ.reverse, h _ hQ.depth]
  have := loadLoop_rel hP hs (d.lookup b!"TOCTREE_MAXDEPTH") (strToBool (d.lookup b!"FILTER_SORT")) files
    fun f hm => hf f hm _
  revert this
  generalize strToBool (d.lookup b!"FILTER_SORT") = sort
  generalize strToBool (d.lookup b!"FILTER_REVERSE") = reverse
  generalize loadLoop env _ sort files = x
  generalize loadLoop env' _ sort files = y
  intro this
  match x, y, this with
  | none, none, _ => trivial
  | some (a, n), some (b, m), this =>
    obtain ⟨h1, rfl⟩ := this
    simp only
    split
    · trivial
    · have ho := order_rel sort reverse h1
      show ResRel _ ((order sort reverse a).bind fun l => (select c l).bind fun r => .ok (some r))
        ((order sort reverse b).bind fun l => (select d l).bind fun r => .ok (some r))
      revert ho
      generalize order sort reverse a = x
      generalize order sort reverse b = y
      intro ho
      match x, y, ho with
      | .ub, .ub, _ => trivial
      | .ok l, .ok l', ho =>
        have hsel := select_rel hP hQ h ho
        show ResRel _ ((select c l).bind fun r => .ok (some r)) ((select d l').bind fun r => .ok (some r))
        revert hsel
        generalize select c l = x
        generalize select d l' = y
        intro hsel
        match x, y, hsel with
        | .ub, .ub, _ => trivial
        | .ok _, .ok _, hsel => exact hsel

end Blogc.Render.Nam
