import Verif.Props.C27
import Verif.Lemmas.Loader
import Verif.Props.C32

/-!
# C76: variable formatters
-/

namespace Blogc.C76

open Blogc Blogc.Render Blogc.Spec

/-- A date, as the template shows it formatted: `none` when it is not a date, or when the C library
refuses the format. -/
def ShownDate (sys : Sys) (format date shown : Str) : Prop :=
  ∃ tm, DateTime.parse date = some tm ∧ sys.strftime format tm = some shown

/-- The value of `NAME_FORMATTED`, given the value `v` of `NAME` and the format, if there is one. -/
inductive Formatted (sys : Sys) (name v : Str) : Option Str → Str → Prop where
  | other {f : Option Str} : ¬ b!"DATE_" <+: name ++ b!"_" → Formatted sys name v f v
  | noFormat : b!"DATE_" <+: name ++ b!"_" → Formatted sys name v none v
  | date {f out : Str} : b!"DATE_" <+: name ++ b!"_" → ShownDate sys f v out → Formatted sys name v (some f) out
  | invalid {f : Str} : b!"DATE_" <+: name ++ b!"_" → (∀ out, ¬ ShownDate sys f v out) →
      Formatted sys name v (some f) v

theorem insertAll_lookup (l : List (Str × Str)) (k : Str) (hk : NulFree k)
    (h : ∀ p ∈ l, NulFree p.1 ∧ p.1 ≠ k) : ∀ t : Table, (insertAll t l).lookup k = t.lookup k := by
  induction l with
  | nil => intro t; rfl
  | cons p l ih =>
    intro t
    obtain ⟨h1, h2⟩ := h p (by simp)
    rw [insertAll, ih fun q hq => h q (List.mem_cons_of_mem _ hq)]
    have := Loader.lookup_set t p.1 k p.2 h1 hk
    rw [if_neg (Ne.symm h2)] at this
    exact this

/-- Computing a variable changes no variable whose name does not begin with `BLOGC_`. -/
theorem computed_elsewhere (sys : Sys) (g : Table) (n k : Str) (hk : NulFree k) (h : ¬ b!"BLOGC_" <+: k) :
    (funcvarsEval sys g n).lookup k = g.lookup k := by
  unfold funcvarsEval
  cases g.lookup n with
  | some v => rfl
  | none =>
    refine insertAll_lookup _ k hk (fun p hp => ?_) g
    have key : ∀ m : Str, NulFree m → b!"BLOGC_" <+: m → NulFree m ∧ m ≠ k := fun m h1 h2 =>
      ⟨h1, fun e => h (e ▸ h2)⟩
    unfold injected at hp
    split at hp
    · cases hr : sys.rusage with
      | none => rw [hr] at hp; cases hp
      | some q =>
        rw [hr] at hp
        simp only [List.mem_cons, List.not_mem_nil, or_false] at hp
        rcases hp with rfl | rfl
        · exact key b!"BLOGC_RUSAGE_CPU_TIME" (by decide) (by decide)
        · exact key b!"BLOGC_RUSAGE_MEMORY" (by decide) (by decide)
    split at hp
    · rename_i e
      simp only [List.mem_map] at hp
      obtain ⟨v, _, rfl⟩ := hp
      exact key n (by rw [e]; decide) (by rw [e]; decide)
    split at hp
    · rename_i e
      simp only [List.mem_map] at hp
      obtain ⟨v, _, rfl⟩ := hp
      exact key n (by rw [e]; decide) (by rw [e]; decide)
    split at hp
    · rename_i e
      simp only [List.mem_map] at hp
      obtain ⟨v, _, rfl⟩ := hp
      exact key n (by rw [e]; decide) (by rw [e]; decide)
    split at hp
    · rename_i e
      split at hp
      · simp only [List.mem_cons, List.not_mem_nil, or_false] at hp
        subst hp
        exact key n (by rw [e]; decide) (by rw [e]; decide)
      · cases hp
    · cases hp

theorem getVariable_elsewhere (sys : Sys) (g : Table) (l : Option Table) (n k : Str) (hk : NulFree k)
    (h : ¬ b!"BLOGC_" <+: k) : getVariable k (funcvarsEval sys g n) l = getVariable k g l := by
  cases l with
  | none => exact computed_elsewhere sys g n k hk h
  | some l => simp only [getVariable, computed_elsewhere sys g n k hk h]

/-- A variable that is defined keeps its value. -/
theorem getVariable_defined (sys : Sys) (g : Table) (l : Option Table) (n v : Str)
    (h : getVariable n g l = some v) : getVariable n (funcvarsEval sys g n) l = some v := by
  cases hg : g.lookup n with
  | some w => simp only [funcvarsEval, hg]; exact h
  | none =>
    cases l with
    | none => simp only [getVariable, hg] at h; cases h
    | some l =>
      simp only [getVariable] at h ⊢
      cases hl : l.lookup n with
      | some w => rw [hl] at h; exact h
      | none => rw [hl] at h; simp only [hg] at h; cases h

theorem formatted_name (sys : Sys) (g : Table) (l : Option Table) (it : Item) (name : Str)
    (hu : getVariable (name ++ b!"_FORMATTED") g l = none) :
    formatVariable sys g l it (name ++ b!"_FORMATTED") = .ok ((baseValue sys g l it name).1,
      (baseValue sys g l it name).2.map fun v =>
        dress sys (baseValue sys g l it name).1 l (name ++ b!"_FORMATTED") v true (-1)) := by
  have hlast : ∀ s : Str, s.getLast? ≠ some c!"D" → name ++ b!"_FORMATTED" ≠ s := by
    intro s hs e
    apply hs
    rw [← e]; simp
  have e1 : splitSize (name ++ b!"_FORMATTED") = .ok (name ++ b!"_FORMATTED", -1) := by
    have := C27.splitSize_plain (name ++ b!"_FORMATTE") c!"D" (by unfold Digit; decide) (by decide)
    simpa using this
  have hf : splitFormatted (name ++ b!"_FORMATTED") = (name, true) := by
    simp [splitFormatted, endsWith]
  simp only [formatVariable, hu]
  rw [if_neg (hlast _ (by decide)), if_neg (hlast _ (by decide)), derived, e1]
  simp only [Res.bind, hf]

theorem startsWith_date (name : Str) :
    startsWith (name ++ b!"_FORMATTED") b!"DATE_" = true ↔ b!"DATE_" <+: name ++ b!"_" := by
  have h1 : startsWith (name ++ b!"_FORMATTED") b!"DATE_" = true ↔ b!"DATE_" <+: name ++ b!"_FORMATTED" := by
    simp only [startsWith]
    rw [if_neg (by simp), List.prefix_iff_eq_take, beq_iff_eq]
    exact eq_comm
  rw [h1]
  have e : name ++ b!"_FORMATTED" = (name ++ b!"_") ++ b!"FORMATTED" := by simp
  rw [e]
  constructor
  · intro h
    by_cases hl : (b!"DATE_" : Str).length ≤ (name ++ b!"_").length
    · exact List.prefix_of_prefix_length_le h (List.prefix_append _ _) hl
    · exfalso
      simp at hl
      match name, hl with
      | [], _ => revert h; decide
      | [a], _ => simp [List.cons_prefix_cons] at h
      | [a, b], _ => simp [List.cons_prefix_cons] at h
      | [a, b, c], _ => simp [List.cons_prefix_cons] at h
  · intro h
    exact h.trans (List.prefix_append _ _)

theorem dress_formatted (sys : Sys) (g : Table) (l : Option Table) (name v : Str) :
    Formatted sys name v (getVariable b!"DATE_FORMAT" g l)
      (dress sys g l (name ++ b!"_FORMATTED") v true (-1)) := by
  have h0 : ¬ (-1 : Int) > 0 := by decide
  simp only [dress, h0, if_false, Bool.true_and]
  by_cases hd : b!"DATE_" <+: name ++ b!"_"
  · rw [(startsWith_date name).2 hd, if_pos rfl, formatDate]
    cases getVariable b!"DATE_FORMAT" g l with
    | none => exact .noFormat hd
    | some f =>
      simp only
      cases hp : DateTime.parse v with
      | none => exact .invalid hd fun out ⟨tm, h, _⟩ => by rw [hp] at h; cases h
      | some tm =>
        simp only
        cases hs : sys.strftime f tm with
        | none =>
          refine .invalid hd fun out ⟨tm', h, h'⟩ => ?_
          rw [hp] at h
          cases h
          rw [hs] at h'; cases h'
        | some out => exact .date hd ⟨tm, hp, hs⟩
  · have : startsWith (name ++ b!"_FORMATTED") b!"DATE_" = false := by
      cases h : startsWith (name ++ b!"_FORMATTED") b!"DATE_" with
      | false => rfl
      | true => exact absurd ((startsWith_date name).1 h) hd
    rw [this, if_neg (by decide)]
    exact .other hd

/-- A variable that is called `NAME_FORMATTED` is shown as it is. -/
theorem defined (sys : Sys) (g : Table) (l : Option Table) (it : Item) (name v : Str)
    (h : getVariable (name ++ b!"_FORMATTED") g l = some v) :
    formatVariable sys g l it (name ++ b!"_FORMATTED") = .ok (g, some v) := by
  simp only [formatVariable, h]

/-- Otherwise, when `NAME` is defined, its formatted value is shown; the values of all other variables,
except for those provided by blogc, stay as they are. -/
theorem formats (sys : Sys) (g : Table) (l : Option Table) (it : Item) (name v : Str)
    (hu : getVariable (name ++ b!"_FORMATTED") g l = none) (hv : getVariable name g l = some v)
    (hi : it.item = none ∨ name ≠ b!"FOREACH_ITEM" ∧ name ≠ b!"FOREACH_VALUE") :
    ∃ g' out, formatVariable sys g l it (name ++ b!"_FORMATTED") = .ok (g', some out) ∧
      Formatted sys name v (getVariable b!"DATE_FORMAT" g l) out ∧
      ∀ k, NulFree k → ¬ b!"BLOGC_" <+: k → g'.lookup k = g.lookup k := by
  have hb : baseValue sys g l it name =
      (funcvarsEval sys g name, getVariable name (funcvarsEval sys g name) l) := by
    simp only [baseValue]
    cases hit : it.item with
    | none => rfl
    | some i =>
      rcases hi with hi | ⟨h1, h2⟩
      · rw [hit] at hi; cases hi
      · simp only; rw [if_neg h1, if_neg (fun h => h2 h.1)]
  refine ⟨funcvarsEval sys g name,
    dress sys (funcvarsEval sys g name) l (name ++ b!"_FORMATTED") v true (-1), ?_, ?_, fun k hk h => computed_elsewhere sys g name k hk h⟩
  · rw [formatted_name sys g l it name hu, hb, getVariable_defined sys g l name v hv]
    rfl
  · rw [← getVariable_elsewhere sys g l name b!"DATE_FORMAT" (by decide) (by decide)]
    exact dress_formatted sys _ l name v

/-- The formatted value is determined. -/
theorem formatted_unique (sys : Sys) (name v : Str) (f : Option Str) (a b : Str)
    (ha : Formatted sys name v f a) (hb : Formatted sys name v f b) : a = b := by
  cases ha with
  | other h =>
    cases hb with
    | other _ => rfl
    | noFormat h' => exact absurd h' h
    | date h' _ => exact absurd h' h
    | invalid h' _ => exact absurd h' h
  | noFormat h =>
    cases hb with
    | other h' => exact absurd h h'
    | noFormat _ => rfl
  | date h hs =>
    cases hb with
    | other h' => exact absurd h h'
    | date _ hs' =>
      obtain ⟨t, h1, h2⟩ := hs
      obtain ⟨t', h1', h2'⟩ := hs'
      rw [h1] at h1'; cases h1'
      rw [h2] at h2'; cases h2'
      rfl
    | invalid _ hn => exact absurd hs (hn _)
  | invalid h hn =>
    cases hb with
    | other h' => exact absurd h h'
    | date _ hs => exact absurd hs (hn _)
    | invalid _ _ => rfl

/-- A date as the manual asks for it is given to the C library with its fields. -/
theorem written_date (sys : Sys) (format out : Str) (d : Spec.DateTime.Date) (w : Spec.DateTime.Time)
    (hd : d.Ok) (hw : w.Ok) :
    ShownDate sys format (d.render ++ w.render) out ↔ sys.strftime format (C32.fields d w) = some out := by
  have hp : DateTime.parse (d.render ++ w.render) = some (C32.fields d w) :=
    (C32.accepted_iff _ _).2 ⟨d, w, [], hd, hw, by simp, rfl, fun _ => rfl⟩
  constructor
  · rintro ⟨tm, h1, h2⟩
    rw [hp] at h1; cases h1
    exact h2
  · intro h
    exact ⟨_, hp, h⟩

/-- A variable that is not defined, and that blogc does not provide, has no formatted value. -/
theorem undefined (sys : Sys) (g : Table) (l : Option Table) (it : Item) (name : Str)
    (hu : getVariable (name ++ b!"_FORMATTED") g l = none) (hv : getVariable name g l = none)
    (hn : NulFree name) (hb : ¬ b!"BLOGC_" <+: name)
    (hi : name ≠ b!"FOREACH_ITEM" ∧ name ≠ b!"FOREACH_VALUE") :
    ∃ g', formatVariable sys g l it (name ++ b!"_FORMATTED") = .ok (g', none) := by
  have hb' : baseValue sys g l it name =
      (funcvarsEval sys g name, getVariable name (funcvarsEval sys g name) l) := by
    simp only [baseValue]
    cases hit : it.item with
    | none => rfl
    | some i => simp only; rw [if_neg hi.1, if_neg (fun h => hi.2 h.1)]
  refine ⟨funcvarsEval sys g name, ?_⟩
  rw [formatted_name sys g l it name hu, hb', getVariable_elsewhere sys g l name name hn hb, hv]
  rfl

/-- `DATE_FIRST_FORMATTED` with a format; `TITLE_FORMATTED` without a formatter. -/
example :
    let sys : Sys := { C27.bare with strftime := fun f tm => if tm.year = 115 then some f else none }
    let g := (Trie.inserts [(b!"DATE_FIRST", b!"2015-02-03"), (b!"TITLE", b!"2015-02-03"),
      (b!"DATE_FORMAT", b!"%Y")]).1
    formatVariable sys g none ⟨none, none⟩ b!"DATE_FIRST_FORMATTED" = .ok (g, some b!"%Y") ∧
    formatVariable sys g none ⟨none, none⟩ b!"TITLE_FORMATTED" = .ok (g, some b!"2015-02-03") ∧
    Formatted sys b!"DATE_FIRST" b!"2015-02-03" (some b!"%Y") b!"%Y" := by
  refine ⟨rfl, rfl, .date (by decide) ⟨⟨115, 1, 3, 0, 0, 0⟩, by decide, rfl⟩⟩

end Blogc.C76
