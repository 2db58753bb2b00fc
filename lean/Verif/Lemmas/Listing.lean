import Verif.Spec.Request
import Verif.Lemmas.LoaderCount
import Verif.Props.C29
import Verif.Props.C30
import Verif.Props.C31
import Verif.Props.C65
import Verif.Props.C77
import Verif.Lemmas.Render

/-!
# The files of a listing, and the variables about them
-/

namespace Blogc.Listing

open Blogc Blogc.Spec Blogc.Spec.Page Blogc.Spec.CommandLine Blogc.Spec.Request Blogc.Loader

theorem on_iff {val : Str → Option Str} {k : Str} {o : Option Str} (h : o = val k) : strToBool o = true ↔ On val k := by
  unfold On
  rw [← h]
  cases o with
  | none => exact ⟨fun h => (nomatch h), fun ⟨v, e, _⟩ => (nomatch e)⟩
  | some v =>
    rw [C65.strToBool_iff]
    exact ⟨fun h => ⟨v, rfl, h⟩, fun ⟨w, e, h⟩ => by cases e; exact h⟩

/-- Loading and ordering. -/
theorem ordered (env : Env) (md sort rev : Option Str) (val : Str → Option Str) (names : List Str) (post : Str → Post)
    (time : Str → Int) (src : Str → Vars) (h1 : sort = val b!"FILTER_SORT") (h2 : rev = val b!"FILTER_REVERSE")
    (hs : ∀ f ∈ names, env.parse md f = some (src f))
    (hd : ∀ f ∈ names, (src f).lookup b!"DATE" = (post f).header b!"DATE")
    (ht : On val b!"FILTER_SORT" → Timed env.stamp post time names) :
    ∃ (n : Nat) (all : List Str) (vars : Str → Vars), Ordered val time names all ∧
      loadLoop env md (strToBool sort) names = some (names.map vars, n) ∧
      order (strToBool sort) (strToBool rev) (names.map vars) = .ok (all.map vars) ∧
      ∀ f k, NulFree k → k ≠ b!"c" → (vars f).lookup k = (src f).lookup k := by
  have e1 := on_iff h1
  have e2 := on_iff h2
  cases hs1 : strToBool sort with
  | false =>
    have n1 : ¬ On val b!"FILTER_SORT" := fun h => by rw [← e1, hs1] at h; cases h
    obtain ⟨n, hl⟩ := C77.loadLoop_plain env md src names hs
    cases hs2 : strToBool rev with
    | false =>
      have n2 : ¬ On val b!"FILTER_REVERSE" := fun h => by rw [← e2, hs2] at h; cases h
      exact ⟨n, names, src, ⟨.refl _, fun _ _ => rfl, fun _ h => absurd h n2, fun h => absurd h n1, fun h => absurd h n1,
        fun h => absurd h n1⟩, hl, rfl, fun _ _ _ _ => rfl⟩
    | true =>
      have n2 := e2.1 hs2
      refine ⟨n, names.reverse, src, ⟨List.reverse_perm _, fun _ h => absurd n2 h, fun _ _ => rfl, fun h => absurd h n1,
        fun h => absurd h n1, fun h => absurd h n1⟩, hl, ?_, fun _ _ _ _ => rfl⟩
      rw [List.map_reverse]
      rfl
  | true =>
    have n1 := e1.1 hs1
    have hti := ht n1
    have hl := C31.loadLoop_all env md src time names fun f hf => by
      obtain ⟨d, g1, g2⟩ := hti.dated f hf
      exact ⟨hs f hf, d, by rw [hd f hf, g1], g2⟩
    obtain ⟨fs, g1, g2, g3, g4⟩ := C31.order_chronological (strToBool rev) names src time hti.range hti.near
    refine ⟨_, fs, C31.entry src time, ⟨g2, fun h => absurd n1 h, fun h => absurd n1 h, fun _ h => ?_, fun _ h => ?_,
      fun _ => g4⟩, hl, g1, fun f k hk hne => ?_⟩
    · have : strToBool rev = false := by
        rw [← Bool.not_eq_true]
        exact fun h' => h (e2.1 h')
      rw [this] at g3
      exact g3
    · rw [e2.2 h] at g3
      exact g3
    · unfold C31.entry
      rw [lookup_set _ _ _ _ (by decide) hk, if_neg hne]

theorem edge_lookup (rs : List Vars) (conf : Vars) (k : Str) (hk : NulFree k) :
    (firstLast true rs conf).lookup k =
      (edge (rs.head?.map (·.lookup)) (rs.getLast?.map (·.lookup)) k).or (conf.lookup k) := by
  have he := C77.firstLast_edges rs conf
  have hb : ∀ (o : Option Vars) (n : Str), (o.map fun t => t.lookup).bind (· n) = o.bind (·.lookup n) := by
    intro o n; cases o <;> rfl
  unfold edge
  split
  · rename_i h; subst h; rw [he.dateFirst, hb]
  split
  · rename_i h; subst h; rw [he.dateLast, hb]
  split
  · rename_i h; subst h; rw [he.fileFirst, hb]
  split
  · rename_i h; subst h; rw [he.fileLast, hb]
  · rw [Option.none_or]
    exact lookup_firstLast true rs conf k hk (by
      simp only [edgeNames, List.mem_cons, List.not_mem_nil, or_false, not_or]
      exact ⟨‹_›, ‹_›, ‹_›, ‹_›⟩)

theorem filter_tagged (tag : Option Str) (val : Str → Option Str) (post : Str → Post) (vars : Str → Vars) (l : List Str)
    (h : tag = val b!"FILTER_TAG") (ht : ∀ f ∈ l, (vars f).lookup b!"TAGS" = (post f).header b!"TAGS") :
    (l.map vars).filter (tagOk tag) = (tagged val post l).map vars := by
  unfold tagged
  rw [List.filter_map]
  congr 1
  apply List.filter_congr
  intro f hf
  rw [Function.comp_apply, Bool.eq_iff_iff]
  simp only [decide_eq_true_eq]
  unfold Tagged
  rw [← h]
  cases tag with
  | none => exact ⟨fun _ tag h => (nomatch h), fun _ => rfl⟩
  | some tag =>
    rw [C30.tagOk_iff, C30.HasTag, ht f hf]
    exact ⟨fun h tag' e => by cases e; exact h, fun h => h tag rfl⟩

theorem pageCount_exists (n total : Nat) (hn : 0 < n) : Entries.IsPageCount n total ((total + n - 1) / n) := by
  constructor
  · have := Nat.div_add_mod (total + n - 1) n
    have := Nat.mod_lt (total + n - 1) hn
    rw [Nat.mul_comm]
    omega
  · intro m hm
    rw [← Nat.lt_succ_iff, Nat.div_lt_iff_lt_mul hn, Nat.succ_mul]
    omega

/-- The page that is asked for, of ordered files. -/
theorem selected (conf : Vars) (val : Str → Option Str) (post : Str → Post) (vars : Str → Vars) (all : List Str)
    (pg : Option (Nat × Nat)) (hpg : Paged val pg)
    (hconf : ∀ k, NulFree k → conf.lookup k = val k) (hlen : all.length < 2 ^ 24)
    (ht : ∀ f ∈ all, (vars f).lookup b!"TAGS" = (post f).header b!"TAGS") :
    ∃ l count conf', select conf (all.map vars) = .ok (l.map vars, conf') ∧
      (match pg with
        | none => l = tagged val post all
        | some (p, n) => l = Entries.page n p (tagged val post all) ∧
          Entries.IsPageCount n (tagged val post all).length count) ∧
      ∀ k, NulFree k → conf'.lookup k =
        ((pageValue count l k pg).or (edge ((l.map vars).head?.map (·.lookup)) ((l.map vars).getLast?.map (·.lookup)) k)).or
          (conf.lookup k) := by
  have hfl := filter_tagged _ val post vars all (hconf b!"FILTER_TAG" (by decide)) ht
  have hp1 := hconf b!"FILTER_PAGE" (by decide)
  have hp2 := hconf b!"FILTER_PER_PAGE" (by decide)
  cases hpg with
  | all h =>
    refine ⟨tagged val post all, 0, firstLast true ((tagged val post all).map vars) conf, ?_, rfl, fun k hk => ?_⟩
    · rw [select_unpaged conf (by rw [hp1, h]), hfl]
    · rw [edge_lookup _ _ _ hk]
      rfl
  | @page v n h hv hn hov =>
    generalize hpe : max 1 (numeral v) = p at *
    generalize val b!"FILTER_PER_PAGE" = pp at hn hp2
    have hn0 : 0 < n := by cases hn <;> omega
    have hp : 1 ≤ p := by omega
    have hpn : p ≤ p * n := Nat.le_mul_of_pos_right p hn0
    have hnn : n ≤ p * n := Nat.le_mul_of_pos_left n hp
    have hpp : perPageOf (conf.lookup b!"FILTER_PER_PAGE") = n := by
      rw [hp2]
      unfold perPageOf
      cases hn with
      | default => decide
      | given hd h0 =>
        rw [Option.getD_some, Render.strtol_digits hd]
        simp only
        omega
    have hpo : pageOf (conf.lookup b!"FILTER_PAGE") = p := by
      rw [hp1, h]
      unfold pageOf
      rw [Option.getD_some, Render.strtol_digits hv]
      simp only
      split <;> omega
    have hov' : (p - 1) * n + n = p * n := by
      rw [← Nat.succ_mul]
      congr 1
      omega
    let tg := tagged val post all
    have htl : tg.length ≤ all.length := List.length_filter_le _ _
    let l := Entries.page n p tg
    have hcount := pageCount_exists n tg.length hn0
    generalize (tg.length + n - 1) / n = count at hcount
    have hlast := C29.lastPage_exact tg.length n hn0 (by omega) (by omega)
    rw [← C29.pageCount_eq n _ _ hn0 hcount] at hlast
    have hc31 : count < 2 ^ 31 := by
      have := hcount.2 tg.length (Nat.le_mul_of_pos_right _ hn0)
      omega
    obtain ⟨c'', e, hv'⟩ := C29.pageVars_correct (firstLast true (l.map vars) conf) (firstLast true (l.map vars) conf)
      p n tg.length count (l.map vars).isEmpty hlast hc31 hp (fun k hk hne => rfl)
    have hpage : (((tg.map vars).take ((p - 1) * n + n)).drop ((p - 1) * n)) = l.map vars := by
      show _ = (Entries.page n p tg).map vars
      unfold Entries.page
      rw [List.drop_take, List.map_take, List.map_drop]
      congr 1
      omega
    refine ⟨l, count, c'', ?_, ⟨rfl, hcount⟩, fun k hk => ?_⟩
    · unfold select
      simp only [hpo, hpp]
      rw [if_neg (by omega), hp1, h]
      simp only [Option.isSome_some, if_true]
      rw [pageLoop_paged _ _ _ (by omega), hfl]
      simp only [Nat.sub_zero, Nat.zero_add]
      rw [hpage, List.length_map, e]
      rfl
    · rw [Option.or_assoc, ← edge_lookup _ _ _ hk]
      have hemp : (l.map vars).isEmpty = false ↔ l ≠ [] := by simp
      unfold pageValue
      simp only
      split
      · rename_i hk'; subst hk'
        rw [hv'.current, Option.some_or]
      split
      · rename_i hk'; subst hk'
        split
        · rw [hv'.previous ‹_›, Option.some_or]
        · rw [hv'.noPrevious ‹_›, Option.none_or]
      split
      · rename_i hk'; subst hk'
        split
        · rw [hv'.next ‹_›, Option.some_or]
        · rw [hv'.noNext ‹_›, Option.none_or]
      split
      · rename_i hk'; subst hk'
        split
        · rw [hv'.first (hemp.2 ‹_›), Option.some_or]
        · rename_i hne
          rw [hv'.noFirst (fun h => hne (hemp.1 h)), Option.none_or]
      split
      · rename_i hk'; subst hk'
        split
        · rw [hv'.last ‹_›, Option.some_or]
        · rw [hv'.noLast ‹_›, Option.none_or]
      rw [Option.none_or]
      exact C77.pageVars_elsewhere _ _ _ _ _ _ k hk (by
        simp only [C77.pageNames, List.mem_cons, List.not_mem_nil, or_false, not_or]
        exact ⟨‹_›, ‹_›, ‹_›, ‹_›, ‹_›⟩) e

/-- What is loaded. -/
theorem loaded (env : Env) (conf : Vars) (val : Str → Option Str) (names : List Str) (post : Str → Post) (time : Str → Int)
    (src : Str → Vars) (pg : Option (Nat × Nat)) (hpg : Paged val pg)
    (hconf : ∀ k, NulFree k → conf.lookup k = val k) (hlen : names.length < 2 ^ 24)
    (hs : ∀ f ∈ names, env.parse (conf.lookup b!"TOCTREE_MAXDEPTH") f = some (src f))
    (hh : ∀ f ∈ names, ∀ k ∈ [b!"DATE", b!"TAGS"], (src f).lookup k = (post f).header k)
    (hd : (∀ f ∈ names, (post f).header b!"DATE" ≠ none) ∨ ∀ f ∈ names, (post f).header b!"DATE" = none)
    (ht : On val b!"FILTER_SORT" → Timed env.stamp post time names) :
    ∃ l count vars conf', fromFiles env conf names = .ok (some (l.map vars, conf')) ∧
      Listed val post time names l count pg ∧
      (∀ f k, NulFree k → k ≠ b!"c" → (vars f).lookup k = (src f).lookup k) ∧
      ∀ k, NulFree k → conf'.lookup k =
        ((pageValue count l k pg).or (edge ((l.map vars).head?.map (·.lookup)) ((l.map vars).getLast?.map (·.lookup)) k)).or
          (conf.lookup k) := by
  obtain ⟨n, all, vars, h1, h2, h3, h4⟩ := ordered env (conf.lookup b!"TOCTREE_MAXDEPTH") (conf.lookup b!"FILTER_SORT")
    (conf.lookup b!"FILTER_REVERSE") val names post time src (hconf _ (by decide)) (hconf _ (by decide))
    hs (fun f hf => hh f hf _ (by simp)) ht
  obtain ⟨l, count, conf', g1, g2, g3⟩ := selected conf val post vars all pg hpg hconf (by rw [h1.perm.length_eq]; exact hlen)
    (fun f hf => by rw [h4 f _ (by decide) (by decide), hh f (h1.perm.mem_iff.1 hf) _ (by simp)])
  refine ⟨l, count, vars, conf', ?_, ?_, h4, g3⟩
  · have hn : n = (names.filter fun f => ((src f).lookup b!"DATE").isSome).length :=
      C77.loadLoop_count env _ _ src names hs _ _ h2
    unfold fromFiles
    simp only [h2]
    rw [if_neg, h3]
    · simp only [Res.bind_ok, g1, Res.pure_eq]
    · rw [hn]
      rcases hd with hd | hd
      · have : names.filter (fun f => ((src f).lookup b!"DATE").isSome) = names := by
          rw [List.filter_eq_self]
          intro f hf
          rw [hh f hf _ (by simp), Option.isSome_iff_ne_none]
          exact hd f hf
        rw [this]
        omega
      · have : names.filter (fun f => ((src f).lookup b!"DATE").isSome) = [] := by
          rw [List.filter_eq_nil_iff]
          intro f hf
          rw [hh f hf _ (by simp), hd f hf]
          simp
        rw [this]
        simp
  · cases pg with
    | none => exact ⟨all, h1, g2⟩
    | some q => exact ⟨all, h1, g2⟩

end Blogc.Listing
