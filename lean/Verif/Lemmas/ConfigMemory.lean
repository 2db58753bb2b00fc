import Verif.Spec.ConfigAccount
import Verif.Props.C15

/-!
# The account of a configuration: lemmas
-/

namespace Blogc.ConfigMem

open Blogc Blogc.Config Blogc.Spec.ConfigAccount

theorem dispatchM_same (src : Str) (lists : List Str) (st : St) (c : Byte) :
    (dispatchM src lists st c).2 = dispatch src lists st c := by
  unfold dispatchM dispatch
  cases st.state <;> dsimp only <;> repeat' split
  all_goals first | rfl | simp_all

theorem stepM_same (src : Str) (lists : List Str) (st : St) :
    (stepM src lists st).2 = step src lists st := by
  unfold stepM step
  cases src[st.current]? with
  | none => rfl
  | some c =>
    dsimp only
    split
    · rfl
    · split
      · rfl
      · exact dispatchM_same ..

theorem inUse_append (a b : List Event) (l : InUse) :
    inUse (a ++ b) l = (inUse a l).bind (inUse b) := by
  induction a generalizing l with
  | nil => rfl
  | cons e a ih =>
    simp only [List.cons_append, inUse]
    cases account l e with
    | none => rfl
    | some l' => exact ih l'

theorem inUse_prefix {a b : List Event} {l l' : InUse} (h : inUse (a ++ b) l = some l') :
    ∃ m, inUse a l = some m := by
  rw [inUse_append] at h
  cases e : inUse a l with
  | none => simp [e] at h
  | some m => exact ⟨m, rfl⟩

/-- Without these sections. -/
def without (l : InUse) (s : List Nat) : InUse
  | .section i => !decide (i ∈ s) && l (.section i)
  | x => l x

theorem inUse_sections (s : List Nat) (l : InUse) (hn : s.Nodup)
    (h : ∀ i ∈ s, l (.section i) = true) :
    inUse (s.map fun i => .release (.section i)) l = some (without l s) := by
  induction s generalizing l with
  | nil =>
    simp only [List.map_nil, inUse, Option.some.injEq]
    funext x
    cases x <;> simp [without]
  | cons i s ih =>
    obtain ⟨hi, hn⟩ := List.nodup_cons.1 hn
    have hl := h i (by simp)
    simp only [List.map_cons, inUse, account, hl, if_true, Option.bind_some]
    rw [ih _ hn]
    · congr 1
      funext x
      cases x with
      | «section» j =>
        by_cases hj : j = i
        · simp [without, mark, hj]
        · simp [without, mark, hj]
      | _ => simp [without, mark]
    · intro j hj
      have : j ≠ i := fun e => hi (e ▸ hj)
      simp [mark, this, h j (by simp [hj])]

/-- What is in use between two iterations. -/
def held (st : St) : InUse
  | .config => true
  | .section i => decide (i ∈ st.root.free)
  | .key => st.key.isSome
  | .value => st.value.isSome
  | _ => false

/-- What is in use at the end. -/
def left : Result → InUse
  | .ok c => configuration c.root.free
  | .error _ => error

/-- There is a key only while a value is read. -/
def KeyInv (st : St) : Prop :=
  match st.state with
  | .valueStart | .value | .valueQuote => True
  | _ => st.key = none

/-- Sections are in the table or were released. -/
structure MInv (st : St) : Prop where
  perm : (st.freed ++ st.root.free).Perm (List.range st.heap.length)
  wf : st.root.WF
  key : KeyInv st

theorem MInv.nodup {st : St} (h : MInv st) : st.root.free.Nodup := by
  have := h.perm.nodup_iff.2 List.nodup_range
  exact (List.nodup_append.1 this).2.1

theorem MInv.live {st : St} (h : MInv st) {i : Nat} {s : Sec} (hd : st.deref = some (i, s)) :
    st.sect = some i ∧ i ∈ st.root.free := by
  obtain ⟨h1, h2, h3⟩ := C15.deref_lt hd
  have := h.perm.mem_iff.2 (List.mem_range.2 h3)
  exact ⟨h1, (List.mem_append.1 this).resolve_left h2⟩

theorem MInv.fresh {st : St} (h : MInv st) : st.heap.length ∉ st.root.free := by
  intro hm
  have := List.mem_range.1 (h.perm.mem_iff.1 (List.mem_append_right _ hm))
  omega

/-- The account of an iteration. -/
def Good (st : St) (r : List Event × Step St Result) : Prop :=
  match r.2 with
  | .next st' => inUse r.1 (held st) = some (held st') ∧ MInv st'
  | .done x => inUse (r.1 ++ endEvents st x) (held st) = some (left x) ∧
    ∀ c, x = .ok c → c.root.free.Nodup ∧ c.root.WF
  | .ub => True

theorem good_next {st st' : St} {es : List Event} (hm : MInv st)
    (he : inUse es (held st) = some (held st')) (hr : st'.root = st.root) (hf : st'.freed = st.freed)
    (hh : st'.heap.length = st.heap.length) (hk : KeyInv st') : Good st (es, .next st') :=
  ⟨he, by rw [hr, hf, hh]; exact hm.perm, by rw [hr]; exact hm.wf, hk⟩

/-- Nothing happens. -/
theorem good_same {st st' : St} (hm : MInv st) (hr : st'.root = st.root) (hf : st'.freed = st.freed)
    (hh : st'.heap.length = st.heap.length) (hk : st'.key = st.key) (hv : st'.value.isSome = st.value.isSome)
    (hs : KeyInv st') : Good st ([], .next st') := by
  refine good_next hm ?_ hr hf hh hs
  simp only [inUse, Option.some.injEq]
  funext x
  cases x <;> simp [held, hr, hk, hv]

/-- A byte is appended to the value. -/
theorem good_push {st st' : St} (hm : MInv st) (hr : st'.root = st.root) (hf : st'.freed = st.freed)
    (hh : st'.heap.length = st.heap.length) (hk : st'.key = st.key) (hv : st'.value.isSome = st.value.isSome)
    (hv' : st.value.isSome = true) (hs : KeyInv st') : Good st ([.use .value], .next st') := by
  refine good_next hm ?_ hr hf hh hs
  have hu : held st .value = true := hv'
  simp only [inUse, account, hu, if_true, Option.bind_some, Option.some.injEq]
  funext x
  cases x <;> simp [held, hr, hk, hv]

/-- The end with an error. -/
theorem error_end {st : St} (hm : MInv st) (e : Err × Nat) (l : InUse)
    (hl : l = mark (held st) .err true) : inUse (endEvents st (.error e)) l = some (left (.error e)) := by
  subst hl
  unfold endEvents freeConfig
  simp only
  rw [inUse_append, inUse_append, inUse_append, inUse_sections _ _ hm.nodup (by simp [held, mark])]
  have hc : without (mark (held st) .err true) st.root.free .config = true := by
    simp [without, mark, held]
  simp only [inUse, account, hc, if_true, Option.bind_some]
  cases hk : st.key <;> cases hv : st.value <;>
    simp [inUse, account, mark, without, held, hk, hv, left, error] <;> funext x <;> cases x <;>
    simp [mark, without, held, hk, hv, error]

theorem good_error {st : St} (hm : MInv st) (e : Err × Nat) :
    Good st ([.acquire .err], .done (.error e)) := by
  refine ⟨?_, fun c hc => by cases hc⟩
  rw [inUse_append]
  simp only [inUse, account, held, Bool.false_eq_true, if_false, Option.bind_some]
  exact error_end hm e _ rfl

theorem good_end {st : St} (hm : MInv st) :
    Good st ([], .done (.ok { heap := st.heap, root := st.root })) := by
  refine ⟨?_, fun c hc => by cases hc; exact ⟨hm.nodup, hm.wf⟩⟩
  unfold endEvents
  cases hk : st.key <;> cases hv : st.value <;>
    simp [inUse, account, mark, held, hk, hv, left] <;> funext x <;> cases x <;>
    simp [mark, held, hk, hv, configuration]

theorem nulFree_cut (s : Str) : NulFree (cstr s) := by
  intro b hb
  have := List.all_takeWhile (p := fun x : Byte => x != 0) (l := s)
  have := List.all_eq_true.1 this b hb
  simpa using this

theorem nodup_disjoint {a b : List Nat} (h : (a ++ b).Nodup) {i : Nat} (h1 : i ∈ a) : i ∉ b :=
  fun h2 => (List.nodup_append.1 h).2.2 i h1 i h2 rfl

theorem good_section {src : Str} {lists : List Str} {st : St} (hm : MInv st) (hk : st.key = none) :
    Good st (endSectionEvents src st, adv (endSection src lists st)) := by
  have hled := Trie.insert_ledger st.root (cstr (slice src st.start st.current)) st.heap.length
  have hrel := Trie.mem_free_of_released st.root (cstr (slice src st.start st.current)) st.heap.length
  have hfresh := hm.fresh
  have hnd : (st.heap.length :: st.root.free).Nodup := List.nodup_cons.2 ⟨hfresh, hm.nodup⟩
  refine ⟨?_, ?_, ?_, ?_⟩
  · unfold endSectionEvents endSection
    simp only
    generalize st.root.insert (cstr (slice src st.start st.current)) st.heap.length = r at hled hrel ⊢
    have hnd' := hled.nodup_iff.2 hnd
    rw [inUse_append, inUse_append]
    have h0 : inUse [.acquire .sectionName, .acquire (.section st.heap.length), .use .sectionName,
        .use .config] (held st)
        = some (mark (mark (held st) .sectionName true) (.section st.heap.length) true) := by
      simp [inUse, account, mark, held, hfresh]
    rw [h0, Option.bind_some, inUse_sections _ _ (List.nodup_append.1 hnd').1
      (by intro i hi; simp [mark, held, hrel i hi])]
    simp only [Option.bind_some, inUse, account]
    rw [if_pos (by simp [without, mark])]
    simp only [Option.bind_some, Option.some.injEq]
    funext x
    cases x with
    | «section» i =>
      have hmem : i ∈ r.2 ++ r.1.free ↔ i ∈ st.heap.length :: st.root.free := hled.mem_iff
      simp only [List.mem_append, List.mem_cons] at hmem
      have hdis : i ∈ r.2 → i ∉ r.1.free := nodup_disjoint hnd'
      simp only [mark, without, held]
      grind
    | _ => simp [mark, without, held]
  · unfold endSection
    simp only
    generalize st.root.insert (cstr (slice src st.start st.current)) st.heap.length = r at hled hrel ⊢
    rw [List.length_append, List.length_singleton, List.range_succ, List.append_assoc]
    refine (hled.append_left st.freed).trans ?_
    refine List.perm_middle.trans ?_
    exact (hm.perm.cons _).trans (List.perm_append_singleton _ _).symm
  · exact Trie.insert_wf _ _ _ (nulFree_cut _) hm.wf
  · simp only [KeyInv, endSection]
    exact hk

theorem good_dispatch {src : Str} {lists : List Str} {st : St} {c : Byte} (hlt : st.current < src.length)
    (h : C15.Inv src.length st) (hm : MInv st) : Good st (dispatchM src lists st c) := by
  have hstate := h.state
  have hkey := hm.key
  unfold dispatchM
  simp only
  split
  · -- start
    rename_i hs
    have hk : st.key = none := by simpa only [KeyInv, hs] using hkey
    split
    · exact good_same hm rfl rfl rfl rfl rfl (by simpa [KeyInv, hs] using hk)
    split
    · exact good_same hm rfl rfl rfl rfl rfl (by simpa [KeyInv, hs] using hk)
    split
    · exact good_same hm rfl rfl rfl rfl rfl hk
    split
    · exact good_error hm _
    split
    · trivial
    · rename_i hd
      obtain ⟨h1, h2⟩ := hm.live hd
      refine good_next hm ?_ rfl rfl rfl hk
      simp [ofSection, h1, inUse, account, held, h2]
      funext x; cases x <;> simp [mark, held]
    · rename_i hd
      obtain ⟨h1, h2⟩ := hm.live hd
      refine good_next hm ?_ rfl rfl rfl hk
      cases hv : st.value <;> simp [ofSection, h1, newValue, inUse, account, held, h2, hv] <;>
        funext x <;> cases x <;> simp [held, mark, hv]
  · rename_i hs
    exact good_same hm rfl rfl rfl rfl rfl (by simpa only [KeyInv, hs] using hkey)
  · rename_i hs
    have hk : st.key = none := by simpa only [KeyInv, hs] using hkey
    split
    · exact good_section hm hk
    split
    · exact good_same hm rfl rfl rfl rfl rfl (by simpa [KeyInv, hs] using hk)
    · exact good_error hm _
  · -- key
    rename_i hs
    have hk : st.key = none := by simpa only [KeyInv, hs] using hkey
    have hin : C15.InMap st := by simpa only [C15.StateInv, hs] using hstate
    split
    · split
      · obtain ⟨j, s, e⟩ := C15.insertValue_some (v := []) (st := { st with
          key := some (cstr (slice src st.start st.current)), state := .valueStart }) hin rfl
        obtain ⟨i, t, hd⟩ := hin
        obtain ⟨h1, h2⟩ := hm.live hd
        rw [e]
        refine good_next hm ?_ rfl rfl (by simp) trivial
        simp [ofSection, h1, inUse, account, held, h2, mark, hk]
        funext x; cases x <;> simp [mark, held, hk]
      · refine good_next hm ?_ rfl rfl rfl trivial
        cases hv : st.value <;> simp [newValue, inUse, account, held, mark, hk, hv] <;>
          funext x <;> cases x <;> simp [mark, held, hv]
    split
    · exact good_same hm rfl rfl rfl rfl rfl (by simpa [KeyInv, hs] using hk)
    · refine ⟨?_, fun c hc => by cases hc⟩
      rw [inUse_append]
      have h0 : inUse [.acquire .key, .use .key, .acquire .err, .release .key] (held st)
          = some (mark (held st) .err true) := by
        simp [inUse, account, mark, held, hk]
        funext x; cases x <;> simp [held, hk, mark]
      rw [h0]
      exact error_end hm _ _ rfl
  · -- valueStart
    rename_i hs
    have hin := (by simpa only [C15.StateInv, hs] using hstate :
      st.current < src.length → C15.InMap st ∧ st.key.isSome ∧ st.value.isSome) hlt
    split
    · exact good_same hm rfl rfl rfl rfl rfl (by simp [KeyInv, hs])
    split
    · exact good_same hm rfl rfl rfl rfl rfl trivial
    split
    · exact good_same hm rfl rfl rfl rfl rfl trivial
    · obtain ⟨v, hv⟩ := Option.isSome_iff_exists.1 hin.2.2
      simp only [St.push, hv, Option.map_some, advO]
      exact good_push hm rfl rfl rfl rfl (by simp [hv]) (by simp [hv]) trivial
  · -- valueQuote
    rename_i hs
    obtain ⟨hin, hk, hv⟩ : C15.InMap st ∧ st.key.isSome ∧ st.value.isSome := by
      simpa only [C15.StateInv, hs] using hstate
    split
    · split
      · trivial
      · rename_i v hv'
        obtain ⟨j, s, e⟩ := C15.insertValue_some (v := cstr v) hin hk
        obtain ⟨i, t, hd⟩ := hin
        obtain ⟨h1, h2⟩ := hm.live hd
        rw [e]
        refine good_next hm ?_ rfl rfl (by simp) rfl
        simp [ofSection, h1, inUse, account, held, h2, mark, hk, hv']
        funext x; cases x <;> simp [mark, held]
    · obtain ⟨v, hv⟩ := Option.isSome_iff_exists.1 hv
      simp only [St.push, hv, Option.map_some, advO]
      exact good_push hm rfl rfl rfl rfl (by simp [hv]) (by simp [hv]) (by simp [KeyInv, hs])
  · -- valuePostQuoted
    rename_i hs
    have hk : st.key = none := by simpa only [KeyInv, hs] using hkey
    split
    · exact good_same hm rfl rfl rfl rfl rfl (by simpa [KeyInv, hs] using hk)
    split
    · exact good_same hm rfl rfl rfl rfl rfl hk
    · exact good_error hm _
  · -- value
    rename_i hs
    obtain ⟨hin, hk, hv⟩ : C15.InMap st ∧ st.key.isSome ∧ st.value.isSome := by
      simpa only [C15.StateInv, hs] using hstate
    obtain ⟨v, hv⟩ := Option.isSome_iff_exists.1 hv
    split
    · obtain ⟨v', e⟩ : ∃ v', lastPush st c = some { st with value := some v' } := by
        unfold lastPush
        split
        · exact ⟨v, by rw [← hv]⟩
        · exact ⟨v ++ [c], by simp [St.push, hv]⟩
      obtain ⟨j, s, e'⟩ := C15.insertValue_some (st := { st with value := some v' })
        (v := rstrip (cstr v')) hin hk
      obtain ⟨i, t, hd⟩ := hin
      obtain ⟨h1, h2⟩ := hm.live hd
      simp only [endValue, e, e', Option.bind_eq_bind, Option.bind_some, advO]
      refine good_next hm ?_ rfl rfl (by simp) rfl
      unfold lastPushEvents
      split <;> simp [ofSection, h1, inUse, account, held, h2, mark, hk, hv] <;>
        funext x <;> cases x <;> simp [mark, held]
    · simp only [St.push, hv, Option.map_some, advO]
      exact good_push hm rfl rfl rfl rfl (by simp [hv]) (by simp [hv]) (by simp [KeyInv, hs])
  · -- listStart
    rename_i hs
    have hk : st.key = none := by simpa only [KeyInv, hs] using hkey
    obtain ⟨hin, hv⟩ : C15.InList st ∧ st.value.isSome := by
      simpa only [C15.StateInv, hs] using hstate
    obtain ⟨v, hv⟩ := Option.isSome_iff_exists.1 hv
    split
    · exact good_same hm rfl rfl rfl rfl rfl (by simpa [KeyInv, hs] using hk)
    split
    · exact good_same hm rfl rfl rfl rfl rfl hk
    · simp only [St.push, hv, Option.map_some, advO]
      exact good_push hm rfl rfl rfl rfl (by simp [hv]) (by simp [hv]) hk
  · -- listQuote
    rename_i hs
    have hk : st.key = none := by simpa only [KeyInv, hs] using hkey
    obtain ⟨hin, hv⟩ : C15.InList st ∧ st.value.isSome := by
      simpa only [C15.StateInv, hs] using hstate
    split
    · split
      · trivial
      · rename_i v hv'
        obtain ⟨j, s, e⟩ := C15.appendItem_some (v := cstr v) hin
        obtain ⟨i, t, hd⟩ := hin
        obtain ⟨h1, h2⟩ := hm.live hd
        rw [e]
        refine good_next hm ?_ rfl rfl (by simp) hk
        simp [ofSection, h1, inUse, account, held, h2, mark, hv']
        funext x; cases x <;> simp [mark, held]
    · obtain ⟨v, hv⟩ := Option.isSome_iff_exists.1 hv
      simp only [St.push, hv, Option.map_some, advO]
      exact good_push hm rfl rfl rfl rfl (by simp [hv]) (by simp [hv]) (by simpa [KeyInv, hs] using hk)
  · -- listPostQuoted
    rename_i hs
    have hk : st.key = none := by simpa only [KeyInv, hs] using hkey
    split
    · exact good_same hm rfl rfl rfl rfl rfl (by simpa [KeyInv, hs] using hk)
    split
    · exact good_same hm rfl rfl rfl rfl rfl hk
    · exact good_error hm _
  · -- list
    rename_i hs
    have hk : st.key = none := by simpa only [KeyInv, hs] using hkey
    obtain ⟨hin, hv⟩ : C15.InList st ∧ st.value.isSome := by
      simpa only [C15.StateInv, hs] using hstate
    obtain ⟨v, hv⟩ := Option.isSome_iff_exists.1 hv
    split
    · obtain ⟨v', e⟩ : ∃ v', lastPush st c = some { st with value := some v' } := by
        unfold lastPush
        split
        · exact ⟨v, by rw [← hv]⟩
        · exact ⟨v ++ [c], by simp [St.push, hv]⟩
      obtain ⟨j, s, e'⟩ := C15.appendItem_some (st := { st with value := some v' })
        (v := strip (cstr v')) hin
      obtain ⟨i, t, hd⟩ := hin
      obtain ⟨h1, h2⟩ := hm.live hd
      simp only [endItem, e, e', Option.bind_eq_bind, Option.bind_some, advO]
      refine good_next hm ?_ rfl rfl (by simp) hk
      unfold lastPushEvents
      split <;> simp [ofSection, h1, inUse, account, held, h2, mark, hv] <;>
        funext x <;> cases x <;> simp [mark, held]
    · simp only [St.push, hv, Option.map_some, advO]
      exact good_push hm rfl rfl rfl rfl (by simp [hv]) (by simp [hv]) (by simpa [KeyInv, hs] using hk)

theorem good_step {src : Str} {lists : List Str} {st : St}
    (h : C15.Inv src.length st) (hm : MInv st) : Good st (stepM src lists st) := by
  unfold stepM
  split
  · exact good_end hm
  rename_i c hc
  have hlt : st.current < src.length := (List.getElem?_eq_some_iff.1 hc).1
  split
  · rename_i hesc
    obtain ⟨v, hv⟩ := Option.isSome_iff_exists.1 (h.esc hesc)
    simp only [St.push, hv, Option.map_some, advO]
    exact good_push hm rfl rfl rfl rfl (by simp [hv]) (by simp [hv]) hm.key
  split
  · exact good_same hm rfl rfl rfl rfl rfl hm.key
  · exact good_dispatch hlt h hm

theorem loop_account (src : Str) (lists : List Str) (n : Nat) (st : St) (r : Result)
    (h : C15.Inv src.length st) (hm : MInv st)
    (hr : runM (step src lists) n st = some (.ok r)) :
    inUse (loopEvents src lists n st) (held st) = some (left r) := by
  induction n generalizing st with
  | zero => simp [runM] at hr
  | succ n ih =>
    have hg := good_step (lists := lists) h hm
    have hi := C15.step_good src lists st h
    have hsame := stepM_same src lists st
    unfold Good at hg
    rw [loopEvents]
    rw [runM] at hr
    rw [← hsame] at hr hi
    cases e : (stepM src lists st).2 with
    | next st' =>
      simp only [e] at hr hg hi ⊢
      rw [inUse_append, hg.1]
      exact ih st' hi.1 hg.2 hr
    | done x =>
      simp only [e] at hr hg ⊢
      cases hr
      exact hg.1
    | ub => simp [e] at hr

theorem init_minv : MInv St.init := ⟨by simp [St.init, Trie.free], trivial, rfl⟩

theorem parse_account (src : Str) (lists : List Str) (r : Result)
    (hr : parse src lists = some (.ok r)) :
    inUse (parseEvents src lists) nothing = some (left r) := by
  have := loop_account src lists _ St.init r (C15.init_inv _) init_minv hr
  simp only [parseEvents, inUse, account, nothing, Bool.false_eq_true, if_false, Option.bind_some]
  rw [← this]
  congr 1
  funext x
  cases x <;> simp [mark, nothing, held, St.init, Trie.free]

/-- The sections of a configuration that was read are different. -/
theorem sections_nodup (src : Str) (lists : List Str) (c : Config)
    (hr : parse src lists = some (.ok (.ok c))) : c.root.free.Nodup ∧ c.root.WF := by
  have hstep : ∀ s s', C15.Inv src.length s ∧ MInv s → step src lists s = .next s' →
      C15.Inv src.length s' ∧ MInv s' := by
    intro s s' hi hn
    have h1 := C15.step_good src lists s hi.1
    have h2 := good_step (lists := lists) hi.1 hi.2
    rw [hn] at h1
    unfold Good at h2
    rw [stepM_same, hn] at h2
    exact ⟨h1.1, h2.2⟩
  obtain ⟨a, e, hp⟩ := runM_safe (step := step src lists) (fun s => C15.Inv src.length s ∧ MInv s)
    (fun r => ∀ c, r = .ok c → c.root.free.Nodup ∧ c.root.WF) hstep
    (fun s hi hub => by
      have := C15.step_good src lists s hi.1
      rw [hub] at this
      exact this)
    (fun s r hi hd => by
      have h2 := good_step (lists := lists) hi.1 hi.2
      unfold Good at h2
      rw [stepM_same, hd] at h2
      exact h2.2) _ _ _ ⟨C15.init_inv _, init_minv⟩ hr
  cases e
  exact hp c rfl

end Blogc.ConfigMem
