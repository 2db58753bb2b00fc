import Verif.Lemmas.Config
import Verif.Spec.ConfigMistakes

/-!
# The control of the configuration parser

What the parser does next depends on its state and on the kind of the current section, not on what it has stored.
-/

namespace Blogc.Config

open Blogc Blogc.Spec.ConfigMistakes

/-- The state of the parser without what it has stored. -/
structure Ctl where
  current : Nat
  start : Nat
  state : State
  place : Place
  value : Bool
  escaped : Bool
  deriving DecidableEq

def placeOf (st : St) : Place :=
  match st.deref with
  | none => .outside
  | some (_, .map _) => .keys
  | some (_, .list _) => .list

def abs (st : St) : Ctl := ⟨st.current, st.start, st.state, placeOf st, st.value.isSome, st.escaped⟩

abbrev CResult := Except (Err × Nat) Unit

def cadv (a : Ctl) : Step Ctl CResult := .next { a with current := a.current + 1 }

def cdispatch (src : Str) (lists : List Str) (a : Ctl) (c : Byte) : Step Ctl CResult :=
  let isLast := a.current + 1 == src.length
  match a.state with
  | .start =>
    if c == c!"#" || c == c!";" then cadv { a with current := skipComment src a.current }
    else if c == c!" " || c == c!"\t" || isNl c then cadv a
    else if c == c!"[" then cadv { a with state := .sectionStart }
    else match a.place with
    | .outside => .done (.error (.mustStartWithSection, a.current))
    | .keys => .next { a with start := a.current, state := .key }
    | .list => .next { a with start := a.current, state := .listStart, value := true }
  | .sectionStart => cadv { a with start := a.current, state := .section }
  | .section =>
    if c == c!"]" then
      cadv { a with state := .start,
                    place := if cstr (slice src a.start a.current) ∈ lists then .list else .keys }
    else if !isNl c then cadv a
    else .done (.error (.sectionNewline, a.current))
  | .key =>
    if c == c!"=" then
      if isLast then cadv { a with state := .valueStart }
      else cadv { a with state := .valueStart, value := true }
    else if !isNl c && !isLast then cadv a
    else .done (.error (.keyWithoutValue (cstr (slice src a.start
      (if isLast && !isNl c then src.length else a.current))), a.current))
  | .valueStart =>
    if isBlank c then cadv a
    else if c == c!"\"" then cadv { a with state := .valueQuote }
    else if isNl c || isLast then .next { a with state := .value }
    else cadv { a with state := .value }
  | .valueQuote =>
    if c == c!"\"" then cadv { a with value := false, state := .valuePostQuoted } else cadv a
  | .valuePostQuoted =>
    if isBlank c then cadv a
    else if isNl c || isLast then cadv { a with state := .start }
    else .done (.error (.afterQuotedValue, a.current))
  | .value =>
    if isNl c || isLast then cadv { a with value := false, state := .start } else cadv a
  | .listStart =>
    if isBlank c then cadv a
    else if c == c!"\"" then cadv { a with state := .listQuote }
    else cadv { a with state := .list }
  | .listQuote =>
    if c == c!"\"" then cadv { a with value := false, state := .listPostQuoted } else cadv a
  | .listPostQuoted =>
    if isBlank c then cadv a
    else if isNl c || isLast then cadv { a with state := .start }
    else .done (.error (.afterQuotedItem, a.current))
  | .list =>
    if isNl c || isLast then cadv { a with value := false, state := .start } else cadv a

def cstep (src : Str) (lists : List Str) (a : Ctl) : Step Ctl CResult :=
  match src[a.current]? with
  | none => .done (.ok ())
  | some c =>
    if a.escaped then cadv { a with escaped := false }
    else if a.value && c == c!"\\" then cadv { a with escaped := true }
    else cdispatch src lists a c

/-- A step without what is stored. -/
def absStep : Step St Result → Step Ctl CResult
  | .next s => .next (abs s)
  | .done (.ok _) => .done (.ok ())
  | .done (.error e) => .done (.error e)
  | .ub => .ub

variable {src : Str} {lists : List Str}

open C15 in
theorem placeOf_insert {st st' : St} {v : Str} (h : st.insertValue v = some st') :
    abs st' = abs st ∧ st'.value = st.value := by
  unfold St.insertValue at h
  split at h
  · rename_i k i t hk hd
    cases h
    obtain ⟨h1, h2, h3⟩ := deref_lt hd
    refine ⟨?_, rfl⟩
    simp [abs, placeOf, St.deref, h1, h2, h3, List.getElem?_set]
    simp [St.deref, h1, h2, h3] at hd
    simp [hd]
  · cases h

open C15 in
theorem placeOf_append {st st' : St} {v : Str} (h : st.appendItem v = some st') :
    abs st' = abs st ∧ st'.value = st.value := by
  unfold St.appendItem at h
  split at h
  · rename_i i t hd
    cases h
    obtain ⟨h1, h2, h3⟩ := deref_lt hd
    refine ⟨?_, rfl⟩
    simp [abs, placeOf, St.deref, h1, h2, h3, List.getElem?_set]
    simp [St.deref, h1, h2, h3] at hd
    simp [hd]
  · cases h

theorem placeOf_congr {st st' : St} (h1 : st'.heap = st.heap) (h2 : st'.freed = st.freed) (h3 : st'.sect = st.sect) :
    placeOf st' = placeOf st := by
  simp [placeOf, St.deref, h1, h2, h3]

theorem absStep_adv (st : St) : absStep (adv st) = cadv (abs st) := rfl

theorem push_eq {st : St} {v : Str} {c : Byte} (h : st.value = some v) :
    st.push c = some { st with value := some (v ++ [c]) } := by
  rw [St.push, h]; rfl

theorem abs_mk (st : St) : abs st = ⟨st.current, st.start, st.state, placeOf st, st.value.isSome, st.escaped⟩ := rfl

open C15 in
theorem abs_step {st : St} (h : Inv src.length st) : absStep (step src lists st) = cstep src lists (abs st) := by
  unfold step cstep
  have e1 : (abs st).current = st.current := rfl
  have e2 : (abs st).escaped = st.escaped := rfl
  have e3 : (abs st).value = st.value.isSome := rfl
  have e4 : (abs st).state = st.state := rfl
  rw [e1, e2, e3]
  cases hc : src[st.current]? with
  | none => rfl
  | some c =>
    have hlt : st.current < src.length := (List.getElem?_eq_some_iff.1 hc).1
    have hstate := h.state
    simp only
    by_cases hesc : st.escaped = true
    · rw [if_pos hesc, if_pos hesc]
      obtain ⟨v, hv⟩ := Option.isSome_iff_exists.1 (h.esc hesc)
      simp only [St.push, hv, Option.map_some, advO, absStep_adv]
      simp [abs, hv, placeOf, St.deref]
    rw [if_neg hesc, if_neg hesc]
    by_cases hbs : (st.value.isSome && c == c!"\\") = true
    · rw [if_pos hbs, if_pos hbs]; rfl
    rw [if_neg hbs, if_neg hbs]
    unfold dispatch cdispatch
    simp only [e1, e4]
    cases hs : st.state <;> simp only [StateInv, hs] at hstate ⊢
    · -- start
      split
      · rw [absStep_adv]; simp [abs, hs, placeOf, St.deref]
      split
      · rw [absStep_adv]
      split
      · rw [absStep_adv]; simp [abs, placeOf, St.deref]
      cases hsec : st.sect with
      | none =>
        have : (abs st).place = .outside := by simp [abs, placeOf, St.deref, hsec]
        simp only [this]; rfl
      | some i =>
        obtain ⟨s, hd⟩ := deref_isSome h hsec
        cases s with
        | map t =>
          have : (abs st).place = .keys := by simp [abs, placeOf, hd]
          simp only [this, hd]
          simp only [absStep]
          rw [← hsec]
          simp only [abs_mk, Step.next.injEq, Ctl.mk.injEq, and_true, true_and]
          exact (by simp [placeOf, hd] : placeOf st = .keys)
        | list l =>
          have : (abs st).place = .list := by simp [abs, placeOf, hd]
          simp only [this, hd]
          simp only [absStep]
          rw [← hsec]
          simp only [abs_mk, Step.next.injEq, Ctl.mk.injEq, and_true, true_and]
          exact ⟨(by simp [placeOf, hd] : placeOf st = .list), rfl⟩
    · rfl
    · -- section
      split
      · rw [absStep_adv]
        congr 1
        have hg : Inv src.length (endSection src lists st) := by
          have := step_good src lists st h
          simp only [step, hc, if_neg hesc, if_neg hbs, dispatch, hs] at this
          rename_i hq
          rw [if_pos hq] at this
          obtain ⟨⟨a1, a2, a3, a4, a5⟩, _⟩ := this
          exact ⟨a1, a2, a3, a4, by simp [StateInv, endSection]⟩
        have hsec : (endSection src lists st).sect = some st.heap.length := rfl
        obtain ⟨s, hd⟩ := deref_isSome hg hsec
        have hp : placeOf (endSection src lists st) =
            if cstr (slice src st.start st.current) ∈ lists then .list else .keys := by
          have hx : s = if cstr (slice src st.start st.current) ∈ lists then Sec.list [] else .map .nil := by
            obtain ⟨h1, h2, h3⟩ := deref_lt hd
            rw [St.deref, h1] at hd
            simp only [if_neg h2] at hd
            simpa [endSection] using hd.symm
          rw [placeOf, hd, hx]
          by_cases hm : cstr (slice src st.start st.current) ∈ lists
          · simp [if_pos hm]
          · simp [if_neg hm]
        rw [abs_mk, hp]
        rfl
      split
      · rw [absStep_adv]
      · rfl
    · -- key
      split
      · split
        · obtain ⟨i, s, e⟩ := insertValue_some (v := [])
            (st := { st with key := some (cstr (slice src st.start st.current)), state := .valueStart })
            hstate rfl
          obtain ⟨p1, p2⟩ := placeOf_insert e
          rw [e, advO, absStep_adv, p1]
          rfl
        · rfl
      split
      · rw [absStep_adv]
      · rfl
    · -- valueStart
      have hstate := hstate hlt
      obtain ⟨v, hv⟩ := Option.isSome_iff_exists.1 hstate.2.2
      split
      · rw [absStep_adv]
      split
      · rfl
      split
      · rfl
      · rw [push_eq hv]
        simp only [Option.map_some, advO, absStep_adv]
        simp [abs_mk, hv, placeOf_congr]
        rfl
    · -- valueQuote
      obtain ⟨v, hv⟩ := Option.isSome_iff_exists.1 hstate.2.2
      split
      · simp only [hv]
        obtain ⟨i, s, e⟩ := insertValue_some (v := cstr v) hstate.1 hstate.2.1
        obtain ⟨p1, p2⟩ := placeOf_insert e
        rw [e]
        simp only [Option.map_some, advO, absStep_adv]
        have q := congrArg Ctl.place p1
        simp only [abs_mk] at q ⊢
        simp only [cadv, Step.next.injEq, Ctl.mk.injEq, and_true, true_and]
        first | exact q | exact ⟨q, rfl⟩
      · rw [push_eq hv]
        simp only [Option.map_some, advO, absStep_adv]
        simp [abs_mk, hv, placeOf_congr]
        rfl
    · -- valuePostQuoted
      split
      · rw [absStep_adv]
      split
      · rfl
      · rfl
    · -- value
      obtain ⟨v, hv⟩ := Option.isSome_iff_exists.1 hstate.2.2
      split
      · obtain ⟨v', e⟩ : ∃ v', lastPush st c = some { st with value := some v' } := by
          unfold lastPush
          split
          · exact ⟨v, by rw [← hv]⟩
          · exact ⟨v ++ [c], by simp [St.push, hv]⟩
        obtain ⟨i, s, e'⟩ := insertValue_some (st := { st with value := some v' })
          (v := rstrip (cstr v')) hstate.1 hstate.2.1
        obtain ⟨p1, p2⟩ := placeOf_insert e'
        simp only [endValue, e, e', Option.bind_eq_bind, Option.bind_some, advO, absStep_adv]
        have q := congrArg Ctl.place p1
        simp only [abs_mk] at q ⊢
        exact congrArg (fun p => (Step.next ⟨st.current + 1, st.start, .start, p, false, st.escaped⟩ :
          Step Ctl CResult)) q
      · rw [push_eq hv]
        simp only [Option.map_some, advO, absStep_adv]
        simp [abs_mk, hv, placeOf_congr]
        rfl
    · -- listStart
      obtain ⟨v, hv⟩ := Option.isSome_iff_exists.1 hstate.2
      split
      · rw [absStep_adv]
      split
      · rfl
      · rw [push_eq hv]
        simp only [Option.map_some, advO, absStep_adv]
        simp [abs_mk, hv, placeOf_congr]
        rfl
    · -- listQuote
      obtain ⟨v, hv⟩ := Option.isSome_iff_exists.1 hstate.2
      split
      · simp only [hv]
        obtain ⟨i, s, e⟩ := appendItem_some (v := cstr v) hstate.1
        obtain ⟨p1, p2⟩ := placeOf_append e
        rw [e]
        simp only [Option.map_some, advO, absStep_adv]
        have q := congrArg Ctl.place p1
        simp only [abs_mk] at q ⊢
        simp only [cadv, Step.next.injEq, Ctl.mk.injEq, and_true, true_and]
        first | exact q | exact ⟨q, rfl⟩
      · rw [push_eq hv]
        simp only [Option.map_some, advO, absStep_adv]
        simp [abs_mk, hv, placeOf_congr]
        rfl
    · -- listPostQuoted
      split
      · rw [absStep_adv]
      split
      · rfl
      · rfl
    · -- list
      obtain ⟨v, hv⟩ := Option.isSome_iff_exists.1 hstate.2
      split
      · obtain ⟨v', e⟩ : ∃ v', lastPush st c = some { st with value := some v' } := by
          unfold lastPush
          split
          · exact ⟨v, by rw [← hv]⟩
          · exact ⟨v ++ [c], by simp [St.push, hv]⟩
        obtain ⟨i, s, e'⟩ := appendItem_some (st := { st with value := some v' })
          (v := strip (cstr v')) hstate.1
        obtain ⟨p1, p2⟩ := placeOf_append e'
        simp only [endItem, e, e', Option.bind_eq_bind, Option.bind_some, advO, absStep_adv]
        have q := congrArg Ctl.place p1
        simp only [abs_mk] at q ⊢
        exact congrArg (fun p => (Step.next ⟨st.current + 1, st.start, .start, p, false, st.escaped⟩ :
          Step Ctl CResult)) q
      · rw [push_eq hv]
        simp only [Option.map_some, advO, absStep_adv]
        simp [abs_mk, hv, placeOf_congr]
        rfl

open C15 in
theorem abs_runM (n : Nat) {st : St} (h : Inv src.length st) (r : Result)
    (hr : runM (step src lists) n st = some (.ok r)) :
    runM (cstep src lists) n (abs st) = some (.ok (r.map fun _ => ())) := by
  induction n generalizing st with
  | zero => cases hr
  | succ n ih =>
    have e := abs_step (lists := lists) h
    have g := step_good src lists st h
    rw [runM] at hr ⊢
    rw [← e]
    cases hs : step src lists st with
    | next st' =>
      rw [hs] at hr g
      exact ih g.1 hr
    | done r' =>
      rw [hs] at hr
      cases hr
      cases r <;> rfl
    | ub => rw [hs] at hr; cases hr

/-- The parser fails as its control does. -/
theorem parse_control (e : Err × Nat) : parse src lists = some (.ok (.error e)) ↔
    ∃ n, runM (cstep src lists) n (abs St.init) = some (.ok (.error e)) := by
  obtain ⟨r, hr⟩ := C15.parse_total src lists
  have h := abs_runM _ (C15.init_inv _) r hr
  constructor
  · intro he
    rw [hr] at he
    cases he
    exact ⟨_, h⟩
  · rintro ⟨n, hn⟩
    have := runM_unique h hn
    rw [hr]
    cases r with
    | ok c => cases this
    | error x => cases this; rfl

end Blogc.Config
