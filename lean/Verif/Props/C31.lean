import Verif.Lemmas.Loader
import Verif.Lemmas.Numbers

/-!
# C31: date sort is chronological
-/

namespace Blogc.C31

open Blogc Blogc.Loader

/-- The variables of a loaded entry, with its timestamp. -/
def entry (src : Str → Vars) (time : Str → Int) (f : Str) : Vars :=
  set (src f) b!"c" (decInt (time f))

/-- Sorting is asked for, and nothing is filtered. -/
structure SortOnly (conf : Vars) (reverse : Bool) : Prop where
  sort : strToBool (conf.lookup b!"FILTER_SORT") = true
  reverse : strToBool (conf.lookup b!"FILTER_REVERSE") = reverse
  tag : conf.lookup b!"FILTER_TAG" = none
  page : conf.lookup b!"FILTER_PAGE" = none

/-- Every file of the list loads to the variables `src f`, and its date is the
point in time `time f` (seconds since the epoch, as the C library counts). -/
def Loads (env : Env) (conf : Vars) (files : List Str) (src : Str → Vars) (time : Str → Int) : Prop :=
  ∀ f ∈ files, env.parse (conf.lookup b!"TOCTREE_MAXDEPTH") f = some (src f) ∧
    ∃ d, (src f).lookup b!"DATE" = some d ∧ env.stamp d = some (decInt (time f))

/-- `a` comes before `b`: newest first, or oldest first when reversed. -/
def Before (reverse : Bool) (ta tb : Int) : Prop := if reverse then ta ≤ tb else tb ≤ ta

/-- The property, for given entries. -/
def Chronological (env : Env) (conf : Vars) (reverse : Bool) (files : List Str) (src : Str → Vars)
    (time : Str → Int) : Prop :=
  ∃ (fs : List Str) (conf' : Vars), fromFiles env conf files = .ok (some (fs.map (entry src time), conf')) ∧
    fs.Perm files ∧ fs.Pairwise (fun a b => Before reverse (time a) (time b)) ∧
    ∀ t : Int, fs.filter (fun f => time f == t) = files.filter (fun f => time f == t)

theorem loadLoop_all (env : Env) (md : Option Str) (src : Str → Vars) (time : Str → Int)
    (files : List Str)
    (h : ∀ f ∈ files, env.parse md f = some (src f) ∧
      ∃ d, (src f).lookup b!"DATE" = some d ∧ env.stamp d = some (decInt (time f))) :
    loadLoop env md true files = some (files.map (entry src time), files.length) := by
  induction files with
  | nil => rfl
  | cons f l ih =>
    obtain ⟨h1, d, h2, h3⟩ := h f (by simp)
    have := ih (fun g hg => h g (by simp [hg]))
    simp only [loadLoop, h1, h2, h3, this, if_true, Option.isSome_some, List.map_cons,
      List.length_cons]
    rw [Nat.add_comm]
    rfl

theorem lookup_entry (src : Str → Vars) (time : Str → Int) (f : Str) :
    (entry src time f).lookup b!"c" = some (decInt (time f)) := by
  unfold entry
  rw [lookup_set _ _ _ _ (by decide) (by decide), if_pos rfl]

theorem sortSource_entry (src : Str → Vars) (time : Str → Int) (a b : Str)
    (ha : -(2 ^ 63) ≤ time a ∧ time a < 2 ^ 63) (hb : -(2 ^ 63) ≤ time b ∧ time b < 2 ^ 63)
    (hd : (time b - time a).natAbs < 2 ^ 31) :
    sortSource (entry src time a) (entry src time b) = time b - time a := by
  unfold sortSource
  rw [lookup_entry, lookup_entry]
  simp only
  rw [strtoul_decInt _ ha.1 ha.2, strtoul_decInt _ hb.1 hb.2]
  unfold toInt32
  have : ((time b % 2 ^ 64 - time a % 2 ^ 64).bmod (2 ^ 32)) = (time b - time a).bmod (2 ^ 32) := by
    have h1 : ∃ k : Int, time b % 2 ^ 64 - time a % 2 ^ 64 = (time b - time a) + (2 ^ 32) * k := by
      refine ⟨(2 ^ 32) * (time a / 2 ^ 64 - time b / 2 ^ 64), ?_⟩
      have := Int.emod_add_mul_ediv (time a) (2 ^ 64)
      have := Int.emod_add_mul_ediv (time b) (2 ^ 64)
      omega
    obtain ⟨k, hk⟩ := h1
    rw [hk]
    simp only [Int.bmod]
    omega
  rw [this]
  rw [Int.bmod_eq_of_le] <;> omega

/-- The order of files whose dates are less than `2 ^ 31` seconds apart. -/
theorem order_chronological (reverse : Bool) (files : List Str) (src : Str → Vars) (time : Str → Int)
    (hr : ∀ f ∈ files, -(2 ^ 63) ≤ time f ∧ time f < 2 ^ 63)
    (hd : ∀ f ∈ files, ∀ g ∈ files, (time f - time g).natAbs < 2 ^ 31) :
    ∃ fs : List Str, order true reverse (files.map (entry src time)) = .ok (fs.map (entry src time)) ∧
      fs.Perm files ∧ fs.Pairwise (fun a b => Before reverse (time a) (time b)) ∧
      ∀ t : Int, fs.filter (fun f => time f == t) = files.filter (fun f => time f == t) := by
  let c : Str → Str → Int := fun a b => if reverse then time a - time b else time b - time a
  have hcmp : ∀ a ∈ files, ∀ b ∈ files,
      (if reverse then sortSourceReverse else sortSource) (entry src time a) (entry src time b) = c a b := by
    intro a ha b hb
    cases reverse with
    | true =>
      simp only [if_true, c, sortSourceReverse]
      exact sortSource_entry src time b a (hr b hb) (hr a ha) (hd a ha b hb)
    | false =>
      simp only [Bool.false_eq_true, if_false, c]
      exact sortSource_entry src time a b (hr a ha) (hr b hb) (hd b hb a ha)
  have hord : order true reverse (files.map (entry src time)) =
      .ok ((Sort.passes (fun _ => c) (files.length + 1) 0 files []).map (entry src time)) := by
    unfold order
    simp only [if_true]
    rw [C10.slistSort_eq _ _ _ (by simp)]
    simp only [List.length_map]
    have := Sort.passes_map (entry src time)
      (fun _ => if reverse then sortSourceReverse else sortSource) c (files.length + 1) 0 files []
      (by intro j a ha b hb; rw [hcmp a ha b hb])
    rw [List.map_nil] at this
    rw [this]
  obtain ⟨fs, hfs⟩ : ∃ fs, fs = Sort.passes (fun _ => c) (files.length + 1) 0 files [] := ⟨_, rfl⟩
  rw [← hfs] at hord
  have htot : ∀ a b, Sort.Le c a b ∨ Sort.Le c b a := by
    intro a b
    simp only [Sort.Le, c]
    cases reverse <;> simp <;> omega
  have htr : ∀ a b d, Sort.Le c a b → Sort.Le c b d → Sort.Le c a d := by
    intro a b d
    simp only [Sort.Le, c]
    cases reverse <;> simp <;> omega
  refine ⟨fs, hord, ?_, ?_, ?_⟩
  · rw [hfs]
    simpa using Sort.passes_perm (fun _ => c) (files.length + 1) 0 files []
  · have := Sort.passes_sorted c htot htr (files.length + 1) 0 files [] (by omega) List.Pairwise.nil
      (by simp)
    rw [← hfs] at this
    refine this.imp ?_
    intro a b h
    simp only [Sort.Le, c] at h
    unfold Before
    cases reverse <;> simp at h ⊢ <;> omega
  · intro t
    rw [hfs]
    have := Sort.passes_filter c (fun f => time f == t) (by
      intro a b h1 h2
      simp only [beq_iff_eq] at h1 h2
      simp only [c]
      cases reverse <;> simp <;> omega) (files.length + 1) 0 files []
    simpa using this

/-- Proved part: the entries come out newest first (oldest first when reversed),
and entries with the same date keep their given order, provided any two dates
are less than `2 ^ 31` seconds (68 years) apart. Missing: larger distances, see
`chronological_violated`. -/
theorem chronological_partial (env : Env) (conf : Vars) (reverse : Bool) (files : List Str)
    (src : Str → Vars) (time : Str → Int) (hc : SortOnly conf reverse)
    (hl : Loads env conf files src time)
    (hr : ∀ f ∈ files, -(2 ^ 63) ≤ time f ∧ time f < 2 ^ 63)
    (hd : ∀ f ∈ files, ∀ g ∈ files, (time f - time g).natAbs < 2 ^ 31) :
    Chronological env conf reverse files src time := by
  obtain ⟨fs, hord, h1, h2, h3⟩ := order_chronological reverse files src time hr hd
  have hsel : ∃ conf', select conf (fs.map (entry src time)) = .ok (fs.map (entry src time), conf') := by
    unfold select
    rw [hc.page, hc.tag]
    have hp : pageOf none = 1 := by decide
    simp only [hp, Option.isSome_none, Bool.false_eq_true, if_false, pageLoop_all]
    rw [if_neg (by simp)]
    refine ⟨_, by
      congr 2
      rw [List.filter_eq_self]
      intro a _; rfl⟩
  obtain ⟨conf', hsel⟩ := hsel
  refine ⟨fs, conf', ?_, h1, h2, h3⟩
  unfold fromFiles
  rw [hc.sort, hc.reverse]
  simp only
  rw [loadLoop_all env _ src time files hl]
  simp only
  rw [if_neg (by omega), hord]
  simp only [Res.bind_ok, hsel, Res.pure_eq]

/-! ## Dates far apart -/

def farEnv : Env where
  parse := fun _ f => some (Trie.inserts [(b!"DATE", f)]).1
  stamp := fun d => if d = b!"1900-01-01" then some b!"-2208988800" else some b!"946684800"

def farTime (f : Str) : Int := if f = b!"1900-01-01" then -2208988800 else 946684800

def farConf : Vars := (Trie.inserts [(b!"FILTER_SORT", b!"1")]).1

def farFiles : List Str := [b!"1900-01-01", b!"2000-01-01"]

theorem farLoads : Loads farEnv farConf farFiles (fun f => (Trie.inserts [(b!"DATE", f)]).1) farTime := by
  intro f hf
  simp only [farFiles, List.mem_cons, List.not_mem_nil, or_false] at hf
  rcases hf with rfl | rfl
  · exact ⟨rfl, b!"1900-01-01", by decide, by decide⟩
  · exact ⟨rfl, b!"2000-01-01", by decide, by decide⟩

/-- The property fails for dates 100 years apart: 1900 is listed before 2000,
although newest first was asked for. -/
theorem chronological_violated : ∃ env conf files src time,
    SortOnly conf false ∧ Loads env conf files src time ∧
    (∀ f ∈ files, -(2 ^ 63) ≤ time f ∧ time f < 2 ^ 63) ∧
    ¬ Chronological env conf false files src time := by
  refine ⟨farEnv, farConf, farFiles, _, farTime, ⟨by decide, by decide, by decide, by decide⟩,
    farLoads, by decide, ?_⟩
  rintro ⟨fs, conf', h, hperm, hpw, -⟩
  have hr : (match fromFiles farEnv farConf farFiles with
      | .ok (some (l, _)) => l.map (·.lookup b!"DATE")
      | _ => []) = [some b!"1900-01-01", some b!"2000-01-01"] := by decide
  rw [h] at hr
  simp only [List.map_map] at hr
  match fs, hr with
  | [a, b], hr =>
    have hd : ∀ f : Str, (entry (fun f => (Trie.inserts [(b!"DATE", f)]).1) farTime f).lookup b!"DATE" =
        some f := by
      intro f
      unfold entry
      rw [lookup_set _ _ _ _ (by decide) (by decide), if_neg (by decide)]
      have : (Trie.inserts [(b!"DATE", f)]).1 = (Trie.insert .nil b!"DATE" f).1 := rfl
      simp only
      rw [this, Trie.lookup_insert _ _ _ _ (by decide) (by decide), if_pos rfl]
    simp only [List.map_cons, Function.comp, hd, List.map_nil, List.cons.injEq, Option.some.injEq,
      and_true] at hr
    obtain ⟨rfl, rfl⟩ := hr
    simp [Before, farTime] at hpw

/-- Two dates a day apart meet the hypotheses of the proved part. -/
example : SortOnly farConf false ∧
    Loads ⟨farEnv.parse, fun d => if d = b!"a" then some b!"86400" else some b!"0"⟩ farConf [b!"a", b!"b"]
      (fun f => (Trie.inserts [(b!"DATE", f)]).1) (fun f => if f = b!"a" then 86400 else 0) := by
  refine ⟨⟨by decide, by decide, by decide, by decide⟩, ?_⟩
  intro f hf
  simp only [List.mem_cons, List.not_mem_nil, or_false] at hf
  rcases hf with rfl | rfl
  · exact ⟨rfl, b!"a", by decide, by decide⟩
  · exact ⟨rfl, b!"b", by decide, by decide⟩

end Blogc.C31
