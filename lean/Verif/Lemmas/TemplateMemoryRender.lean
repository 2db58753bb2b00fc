import Verif.Lemmas.TemplateMemoryParse
import Verif.Lemmas.RenderSafe

/-!
# Lemmas about the memory of the renderer
-/

namespace Blogc.TmplMem

open Blogc Blogc.Template Blogc.Render Blogc.Spec.TmplAccount

/-- The temporaries of `blogc_format_variable` are not in use, and those it is given are. -/
structure Calm (l : InUse) (it : Item) (p : Nat) : Prop where
  var : l .var = false
  valueVar : l .valueVar = false
  formatted : l .formatted = false
  dateError : l .dateError = false
  item : it.item.isSome = true → l (.wordLink p) = true ∧ l (.word p) = true
  name : it.name.isSome = true → l .name = true

/-- A thing `blogc_format_variable` returns. -/
def Result (x : Thing) : Prop := x = .value ∨ x = .defined ∨ x = .defined2

theorem put_put {l : InUse} {x : Thing} {b c : Bool} : put (put l x b) x c = put l x c := by
  funext y
  unfold put
  split <;> rfl

theorem put_comm {l : InUse} {x y : Thing} {b c : Bool} (h : x ≠ y) : put (put l x b) y c = put (put l y c) x b := by
  funext z
  unfold put
  split <;> split <;> simp_all

theorem Calm.put {l : InUse} {it : Item} {p : Nat} (h : Calm l it p) {x : Thing} (hx : Result x ∨ x = .var)  {b : Bool}
    (hb : x = .var → b = false) : Calm (put l x b) it p := by
  obtain ⟨h1, h2, h3, h4, h5, h6⟩ := h
  constructor <;> rcases hx with (rfl | rfl | rfl) | rfl <;> simp_all [TmplMem.put]

theorem foreachValue_ok {l : InUse} {it : Item} {p : Nat} (h : l .valueVar = false)
    (hi : it.item.isSome = true → l (.wordLink p) = true ∧ l (.word p) = true)
    (hn : it.name.isSome = true → l .name = true) : inUse (foreachValueEvents it p) l = some l := by
  simp only [foreachValueEvents]
  cases h1 : it.name with
  | none => rfl
  | some n =>
    cases h2 : it.item with
    | none => rfl
    | some i =>
      have hi := hi (by rw [h2]; rfl)
      have hn := hn (by rw [h1]; rfl)
      refine use_ok hi.1 (use_ok hn (use_ok hi.2 (acquire_ok h (use_ok (by simp [put]) (release_ok (by simp [put])
        (nil_ok fun x => ?_))))))
      rw [put_put, put_same h]

theorem foreachItem_ok {l : InUse} {it : Item} {p : Nat}
    (hi : it.item.isSome = true → l (.wordLink p) = true ∧ l (.word p) = true) :
    inUse (foreachItemEvents it p) l = some l := by
  simp only [foreachItemEvents]
  cases h2 : it.item with
  | none => rfl
  | some i =>
    have hi := hi (by rw [h2]; rfl)
    exact use_ok hi.1 (use_ok hi.2 rfl)

theorem base_ok {l : InUse} {it : Item} {p : Nat} (v : Str) (h : l .valueVar = false)
    (hi : it.item.isSome = true → l (.wordLink p) = true ∧ l (.word p) = true)
    (hn : it.name.isSome = true → l .name = true) : inUse (baseEvents it p v) l = some l := by
  simp only [baseEvents]
  split
  · exact foreachItem_ok hi
  split
  · exact foreachValue_ok h hi hn
  · rfl

theorem date_ok (sys : Sys) (date : Str) (g : Table) (loc : Option Table) {l : InUse} (h : l .dateError = false)
    (hf : l .formatted = false) : inUse (dateEvents sys date g loc) l = some (put l .formatted true) := by
  simp only [dateEvents]
  split
  · exact acquire_ok hf rfl
  · split
    · refine acquire_ok h (use_ok (by simp [put]) (release_ok (by simp [put]) (acquire_ok (by simp [put, hf])
        (nil_ok fun x => ?_))))
      rw [put_put, put_same h]
    · exact acquire_ok hf rfl

theorem dress_ok (sys : Sys) (g : Table) (loc : Option Table) (n v : Str) (fmt : Bool) (len : Int) {x : Thing} {l : InUse}
    (hx : Result x) (hd : l .dateError = false) (hf : l .formatted = false) (hv : l .var = true) (hlx : l x = false) :
    inUse (dressEvents sys g loc n v fmt len x) l = some (put (put l .var false) x true) := by
  have nv : x ≠ .var := by rcases hx with rfl | rfl | rfl <;> simp
  have nf : x ≠ .formatted := by rcases hx with rfl | rfl | rfl <;> simp
  have h1 : inUse (if fmt && startsWith n b!"DATE_" then dateEvents sys v g loc
      else if fmt then [Event.use .var, Event.acquire .formatted] else [Event.acquire .formatted]) l =
      some (put l .formatted true) := by
    split
    · exact date_ok sys v g loc hd hf
    split
    · exact use_ok hv (acquire_ok hf rfl)
    · exact acquire_ok hf rfl
  refine then_ok (then_ok h1 (release_ok (by simp [put, hv]) rfl)) ?_
  have e0 : (put (put l .formatted true) .var false) x = false := by simp [put, nv, nf, hlx]
  have e1 : (put (put l .formatted true) .var false) .formatted = true := by simp [put]
  have e2 : put (put (put l .formatted true) .var false) .formatted false = put l .var false := by
    rw [put_comm (by simp), put_put, put_same hf]
  split
  · refine use_ok e1 (acquire_ok e0 (release_ok (by simp [put]) (nil_ok fun y => ?_)))
    rw [put_comm nf, e2]
  · refine release_ok e1 (acquire_ok (by simp [put, nv, nf, hlx]) (nil_ok fun y => ?_))
    rw [e2]

theorem derived_ok {sys : Sys} {g g' : Table} {loc : Option Table} {it : Item} {p : Nat} {n : Str} {x : Thing} {l : InUse}
    {v : Option Str} (hx : Result x) (hc : Calm l it p) (hlx : l x = false)
    (h : derived sys g loc it n = .ok (g', v)) :
    inUse (derivedEvents sys g loc it p n x) l = some (put l x v.isSome) := by
  simp only [derived] at h
  cases hs : splitSize n with
  | ub => rw [hs] at h; cases h
  | ok r =>
    obtain ⟨w, len⟩ := r
    rw [hs] at h
    simp only [Res.bind, Res.ok.injEq, Prod.mk.injEq] at h
    obtain ⟨rfl, rfl⟩ := h
    simp only [derivedEvents, hs]
    have hb : inUse ([Event.acquire .var, .use .var] ++ baseEvents it p (splitFormatted w).1) l =
        some (put l .var true) := by
      refine then_ok (acquire_ok hc.var (use_ok (by simp [put]) rfl)) (base_ok _ ?_ ?_ ?_)
      · simp [put, hc.valueVar]
      · simpa [put] using hc.item
      · simpa [put] using hc.name
    refine then_ok hb ?_
    cases hv : (baseValue sys g loc it (splitFormatted w).1).2 with
    | none =>
      refine release_ok (by simp [put]) (nil_ok fun y => ?_)
      rw [put_put, put_same hc.var]
      simp only [Option.map_none, Option.isSome_none]
      rw [put_same hlx]
    | some u =>
      have nv : x ≠ .var := by rcases hx with rfl | rfl | rfl <;> simp
      simp only [Option.map_some, Option.isSome_some]
      rw [dress_ok sys _ loc n u _ len hx (by simp [put, hc.dateError]) (by simp [put, hc.formatted]) (by simp [put])
        (by simp [put, nv, hlx]), put_put, put_same hc.var]

/-- `blogc_format_variable` takes nothing but its result. -/
theorem format_ok {sys : Sys} {g g' : Table} {loc : Option Table} {it : Item} {p : Nat} {n : Str} {x : Thing} {l : InUse}
    {v : Option Str} (hx : Result x) (hc : Calm l it p) (hlx : l x = false)
    (h : formatVariable sys g loc it n = .ok (g', v)) :
    inUse (formatEvents sys g loc it p n x) l = some (put l x v.isSome) := by
  simp only [formatVariable] at h
  simp only [formatEvents]
  have ends : ∀ w : Option Str, inUse (if w.isSome then [Event.acquire x] else []) l = some (put l x w.isSome) := by
    intro w
    cases w with
    | none => rw [Option.isSome_none, put_same hlx]; rfl
    | some w => exact acquire_ok hlx rfl
  cases hg : getVariable n g loc with
  | some w =>
    rw [hg] at h
    cases h
    exact acquire_ok hlx rfl
  | none =>
    rw [hg] at h
    simp only at h ⊢
    by_cases h1 : n = b!"FOREACH_ITEM"
    · rw [if_pos h1] at h ⊢
      cases h
      exact then_ok (foreachItem_ok hc.item) (ends _)
    · rw [if_neg h1] at h ⊢
      by_cases h2 : n = b!"FOREACH_VALUE"
      · rw [if_pos h2] at h ⊢
        cases h
        exact then_ok (foreachValue_ok hc.valueVar hc.item hc.name) (ends _)
      · rw [if_neg h2] at h ⊢
        exact derived_ok hx hc hlx h

/-- The words before `a`, the elements before `b`, the empty words from `c` to before `d`, and the array. -/
def words (l : InUse) (a b c d : Nat) : InUse
  | .word k => k < a
  | .wordLink k => k < b
  | .blank k => c ≤ k ∧ k < d
  | .pieces => true
  | x => l x

theorem wordsMade_ok (l : InUse) (ws : List Str) : ∀ i j, inUse (wordsMade i j ws) (words l i 0 0 j) =
    some (words l (i + ws.countP (· ≠ [])) 0 0 (j + ws.countP (· = []))) := by
  induction ws with
  | nil => intro i j; rfl
  | cons w ws ih =>
    intro i j
    simp only [wordsMade]
    split
    · rename_i hw
      refine acquire_ok (by simp [words]) ?_
      have e : put (words l i 0 0 j) (.word i) true = words l (i + 1) 0 0 j := by
        funext x
        cases x <;> simp only [words, put] <;> grind
      rw [e, ih (i + 1) j]
      congr 2 <;> simp [hw] <;> omega
    · rename_i hw
      have hw : w = [] := by simpa using hw
      refine acquire_ok (by simp [words]) ?_
      have e : put (words l i 0 0 j) (.blank j) true = words l i 0 0 (j + 1) := by
        funext x
        cases x <;> simp only [words, put] <;> grind
      rw [e, ih i (j + 1)]
      congr 2 <;> simp [hw] <;> omega

theorem wordsKept_ok (l : InUse) (A B : Nat) (ws : List Str) : ∀ i j, i + ws.countP (· ≠ []) ≤ A →
    j + ws.countP (· = []) ≤ B →
    inUse (wordsKept i j ws) (words l A i j B) =
      some (words l A (i + ws.countP (· ≠ [])) (j + ws.countP (· = [])) B) := by
  induction ws with
  | nil => intro i j _ _; rfl
  | cons w ws ih =>
    intro i j hi hj
    simp only [wordsKept]
    split
    · rename_i hw
      simp [hw] at hi hj
      refine use_ok rfl (use_ok (by simp [words]; omega) (acquire_ok (by simp [words]) ?_))
      have e : put (words l A i j B) (.wordLink i) true = words l A (i + 1) j B := by
        funext x
        cases x <;> simp only [words, put] <;> grind
      rw [e]; refine (ih (i + 1) j (by simp; omega) (by simpa using hj)).trans ?_
      congr 2 <;> simp [hw] <;> omega
    · rename_i hw
      have hw : w = [] := by simpa using hw
      simp [hw] at hi hj
      refine use_ok rfl (use_ok (by simp [words]; omega) (release_ok (by simp [words]; omega) ?_))
      have e : put (words l A i j B) (.blank j) false = words l A i (j + 1) B := by
        funext x
        cases x <;> simp only [words, put] <;> grind
      rw [e]; refine (ih i (j + 1) (by simpa using hi) (by omega)).trans ?_
      congr 2 <;> simp [hw] <;> omega

/-- What is in use while a page is rendered from some nodes: besides the template, the text, the `m` words of the iterator,
and its name. -/
def during (ns : List Node) (m : Nat) (named : Bool) : InUse
  | .text => true
  | .word k | .wordLink k => k < m
  | .name => named
  | x => ofTemplate ns x

theorem split_ok (ns : List Node) (n : Str) (g : Table) (loc : Option Table) :
    inUse (splitEvents n g loc) (during ns 0 false) = some (during ns (splitListVariable n g loc).length false) := by
  simp only [splitEvents, splitListVariable]
  cases getVariable n g loc with
  | none => rfl
  | some v =>
    simp only
    generalize split v c!" " 0 = ws
    have hl : (ws.filter fun w => w ≠ []).length = ws.countP (· ≠ []) := by rw [List.countP_eq_length_filter]
    rw [hl]
    have e0 : put (during ns 0 false) .pieces true = words (during ns 0 false) 0 0 0 0 := by
      funext x
      cases x <;> simp [words, put, during, ofTemplate]
    refine then_ok (then_ok (then_ok (acquire_ok rfl rfl) ?_)
      (wordsKept_ok (during ns 0 false) _ _ ws 0 0 (Nat.le_refl _) (Nat.le_refl _)))
      (release_ok rfl (nil_ok fun x => ?_))
    · rw [e0]; exact wordsMade_ok _ ws 0 0
    · cases x <;> simp [words, put, during, ofTemplate]

theorem freeWords_ok (ns : List Node) (m : Nat) (b : Bool) : ∀ k, k ≤ m →
    inUse (freeWords k) (during ns m b) =
      some fun x => match x with
        | .word j | .wordLink j => decide (k ≤ j ∧ j < m)
        | x => during ns m b x := by
  intro k
  induction k with
  | zero =>
    intro _
    refine nil_ok fun x => ?_
    cases x <;> simp [during]
  | succ k ih =>
    intro hk
    rw [freeWords, List.range_succ, List.flatMap_append]
    refine then_ok (ih (by omega)) ?_
    refine use_ok (by simp; omega) (release_ok (by simp; omega) (release_ok (by simp [put]; omega) (nil_ok fun x => ?_)))
    cases x <;> simp only [put] <;> grind

theorem ended_ok (ns : List Node) (m : Nat) (v : Option Str) :
    inUse (freeWords m ++ freeIf v .name) (during ns m v.isSome) = some (during ns 0 false) := by
  refine then_ok (freeWords_ok ns m v.isSome m (Nat.le_refl _)) ?_
  simp only [freeIf]
  split
  · rename_i h
    refine release_ok (by simp [during, h]) (nil_ok fun x => ?_)
    cases x <;> simp [put, during]
  · rename_i h
    rw [Bool.not_eq_true] at h
    refine nil_ok fun x => ?_
    cases x <;> simp [during, h]

end Blogc.TmplMem
