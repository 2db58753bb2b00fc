import Verif.Lemmas.Render

/-!
# C27: truncated variables are prefixes of the requested length

`NAME_n` is looked up as `NAME`, so it follows a definition of `NAME` and the items of an
iterator; it does not follow a variable that itself is called `..._FORMATTED`
(`formatted_violated`) and not an item of an iterator hidden by a variable called `FOREACH_ITEM`
(`item_violated`). The empty name, which can be given with `-p`, reads outside the name
(`empty_name_violated`); no other name does (`in_bounds`).
-/

namespace Blogc.C27

open Blogc Blogc.Render Blogc.Spec

/-- `NAME_n`. -/
def sized (name ds : Str) : Str := name ++ c!"_" :: ds

theorem sized_special (name ds : Str) (h : Digits ds) :
    sized name ds ≠ b!"FOREACH_ITEM" ∧ sized name ds ≠ b!"FOREACH_VALUE" := by
  obtain ⟨hne, hd⟩ := h
  rcases List.eq_nil_or_concat ds with rfl | ⟨r, d, rfl⟩
  · exact absurd rfl hne
  have hdd := hd d (by simp)
  have hl : (sized name (r ++ [d])).getLast? = some d := by
    simp [sized, List.getLast?_append, List.getLast?_cons]
  constructor <;> intro e <;> rw [List.concat_eq_append] at e <;> rw [e] at hl <;>
    simp at hl <;> rw [← hl] at hdd <;> revert hdd <;> unfold Digit <;> decide

/-- The value of `NAME_n` in terms of the value of `NAME`. -/
theorem sized_eq (sys : Sys) (g : Table) (l : Option Table) (it : Item) (name ds : Str) (hd : Digits ds)
    (hu : getVariable (sized name ds) g l = none) :
    formatVariable sys g l it (sized name ds) = .ok
      ((baseValue sys g l it (splitFormatted name).1).1,
        (baseValue sys g l it (splitFormatted name).1).2.map fun v =>
          dress sys (baseValue sys g l it (splitFormatted name).1).1 l (sized name ds) v (splitFormatted name).2
            (min (2 ^ 63 - 1) (numeral ds : Int))) := by
  obtain ⟨h1, h2⟩ := sized_special name ds hd
  simp only [formatVariable, hu]
  rw [if_neg h1, if_neg h2, derived, sized, splitSize_digits name ds hd]
  rfl

theorem dress_take (sys : Sys) (g : Table) (l : Option Table) (n v : Str) (k : Nat) (hk : 0 < k)
    (hv : v.length < 2 ^ 63) :
    dress sys g l n v false (min (2 ^ 63 - 1) (k : Int)) = v.take k := by
  simp only [dress, Bool.false_and, Bool.false_eq_true, if_false]
  rw [if_pos (by omega)]
  by_cases h : k ≤ 2 ^ 63 - 1
  · rw [show (min (2 ^ 63 - 1) (k : Int)).toNat = k by omega]
  · rw [List.take_of_length_le (by omega), List.take_of_length_le (by omega)]

/-- If `NAME` is defined, `NAME_n` for `n > 0` is its first `n` bytes, unless `NAME_n` is itself
defined. Missing: names ending in `_FORMATTED`, and `FOREACH_ITEM` and `FOREACH_VALUE` within an
iterator (but see `formatted`, `item` and `value`). -/
theorem prefix_partial (sys : Sys) (g : Table) (l : Option Table) (it : Item) (name ds v : Str)
    (hd : Digits ds) (hpos : 0 < numeral ds) (hu : getVariable (sized name ds) g l = none)
    (hv : getVariable name g l = some v) (hlen : v.length < 2 ^ 63)
    (hf : endsWith name b!"_FORMATTED" = false)
    (hi : it.item = none ∨ name ≠ b!"FOREACH_ITEM" ∧ name ≠ b!"FOREACH_VALUE") :
    ∃ g', formatVariable sys g l it (sized name ds) = .ok (g', some (v.take (numeral ds))) ∧
      (g.lookup name ≠ none → g' = g) := by
  have hs : splitFormatted name = (name, false) := by simp [splitFormatted, hf]
  have hb : baseValue sys g l it name =
      (funcvarsEval sys g name, getVariable name (funcvarsEval sys g name) l) := by
    simp only [baseValue]
    cases hit : it.item with
    | none => rfl
    | some i =>
      rcases hi with hi | ⟨h1, h2⟩
      · rw [hit] at hi; cases hi
      · simp only; rw [if_neg h1, if_neg (fun h => h2 h.1)]
  have hv' : getVariable name (funcvarsEval sys g name) l = some v := by
    cases hg : g.lookup name with
    | some w => simp only [funcvarsEval, hg]; exact hv
    | none =>
      cases l with
      | none => simp only [getVariable, hg] at hv; cases hv
      | some l =>
        simp only [getVariable] at hv ⊢
        cases hl : l.lookup name with
        | some w => rw [hl] at hv; exact hv
        | none => rw [hl] at hv; simp only [hg] at hv; cases hv
  refine ⟨funcvarsEval sys g name, ?_, ?_⟩
  · rw [sized_eq sys g l it name ds hd hu, hs]
    simp only [hb, hv', Option.map_some, dress_take sys _ l _ v _ hpos hlen]
  · intro hg
    simp only [funcvarsEval]
    cases h : g.lookup name with
    | some w => rfl
    | none => exact absurd h hg

/-- `FOREACH_ITEM_n` is the first `n` bytes of the current item. -/
theorem item (sys : Sys) (g : Table) (l : Option Table) (it : Item) (ds i : Str)
    (hd : Digits ds) (hpos : 0 < numeral ds) (hu : getVariable (sized b!"FOREACH_ITEM" ds) g l = none)
    (hi : it.item = some i) (hlen : i.length < 2 ^ 63) :
    formatVariable sys g l it (sized b!"FOREACH_ITEM" ds) = .ok (g, some (i.take (numeral ds))) := by
  have hs : splitFormatted b!"FOREACH_ITEM" = (b!"FOREACH_ITEM", false) := by decide
  rw [sized_eq sys g l it _ ds hd hu, hs]
  simp only [baseValue, hi, if_true, Option.map_some, dress_take sys _ l _ i _ hpos hlen]

/-- `FOREACH_VALUE_n` is the first `n` bytes of the value that belongs to the current item. -/
theorem value (sys : Sys) (g : Table) (l : Option Table) (it : Item) (ds n i v : Str)
    (hd : Digits ds) (hpos : 0 < numeral ds) (hu : getVariable (sized b!"FOREACH_VALUE" ds) g l = none)
    (hn : it.name = some n) (hi : it.item = some i)
    (hv : getVariable (foreachValueVariable n i) g l = some v) (hlen : v.length < 2 ^ 63) :
    formatVariable sys g l it (sized b!"FOREACH_VALUE" ds) = .ok (g, some (v.take (numeral ds))) := by
  have hs : splitFormatted b!"FOREACH_VALUE" = (b!"FOREACH_VALUE", false) := by decide
  rw [sized_eq sys g l it _ ds hd hu, hs]
  have h1 : ¬ (b!"FOREACH_VALUE" : Str) = b!"FOREACH_ITEM" := by decide
  simp only [baseValue, hi, hn, Option.isSome_some, and_self, if_true, foreachValue, hv]
  rw [if_neg h1]
  simp only [Option.map_some, dress_take sys _ l _ v _ hpos hlen]

/-- A name that does not end in digits after an underscore is not split. -/
theorem splitSize_plain (name : Str) (x : Byte) (hx : ¬ Digit x) (h : x ≠ c!"_") :
    splitSize (name ++ [x]) = .ok (name ++ [x], -1) := by
  have hw := walk_digits name x [] [] hx (fun c hc => nomatch hc)
  simp only [List.append_nil, List.length_nil, Nat.add_zero] at hw
  rw [splitSize, if_neg (by simp)]
  simp only [List.length_append, List.length_singleton, Nat.add_sub_cancel, hw]
  rw [if_neg (by simp)]

theorem startsWith_append (s t pre : Str) (h : pre.length ≤ s.length) :
    startsWith (s ++ t) pre = startsWith s pre := by
  simp only [startsWith, List.length_append]
  rw [if_neg (by omega), if_neg (by omega), List.take_append_of_le_length h]

theorem dress_fmt (sys : Sys) (g : Table) (l : Option Table) (n n' v : Str)
    (h : startsWith n b!"DATE_" = startsWith n' b!"DATE_") (k : Int) :
    dress sys g l n v true k = dress sys g l n' v true k := by
  simp only [dress, h]

theorem dress_size (sys : Sys) (g : Table) (l : Option Table) (n v : Str) (k : Nat) (hk : 0 < k)
    (hv : (dress sys g l n v true (-1)).length < 2 ^ 63) :
    dress sys g l n v true (min (2 ^ 63 - 1) (k : Int)) = (dress sys g l n v true (-1)).take k := by
  simp only [dress, show ¬ (-1 : Int) > 0 by decide, if_false] at hv ⊢
  rw [if_pos (by omega)]
  by_cases h : k ≤ 2 ^ 63 - 1
  · rw [show (min (2 ^ 63 - 1) (k : Int)).toNat = k by omega]
  · rw [List.take_of_length_le (by omega), List.take_of_length_le (by omega)]

/-- `NAME_FORMATTED_n` is the first `n` bytes of `NAME_FORMATTED` when that is not itself the
name of a variable. -/
theorem formatted (sys : Sys) (g g' : Table) (l : Option Table) (it : Item) (name ds v : Str)
    (hd : Digits ds) (hpos : 0 < numeral ds)
    (hu : getVariable (sized (name ++ b!"_FORMATTED") ds) g l = none)
    (hw : getVariable (name ++ b!"_FORMATTED") g l = none)
    (hv : formatVariable sys g l it (name ++ b!"_FORMATTED") = .ok (g', some v)) (hlen : v.length < 2 ^ 63) :
    formatVariable sys g l it (sized (name ++ b!"_FORMATTED") ds) = .ok (g', some (v.take (numeral ds))) := by
  have hlast : ∀ s : Str, s.getLast? ≠ some c!"D" → name ++ b!"_FORMATTED" ≠ s := by
    intro s hs e
    apply hs
    rw [← e]; simp
  have e1 : splitSize (name ++ b!"_FORMATTED") = .ok (name ++ b!"_FORMATTED", -1) := by
    have := splitSize_plain (name ++ b!"_FORMATTE") c!"D" (by unfold Digit; decide) (by decide)
    simpa using this
  simp only [formatVariable, hw] at hv
  rw [if_neg (hlast _ (by decide)), if_neg (hlast _ (by decide)), derived, e1] at hv
  rw [sized_eq sys g l it _ ds hd hu]
  have hf : splitFormatted (name ++ b!"_FORMATTED") = (name, true) := by
    simp [splitFormatted, endsWith]
  have hst : startsWith (sized (name ++ b!"_FORMATTED") ds) b!"DATE_" =
      startsWith (name ++ b!"_FORMATTED") b!"DATE_" :=
    startsWith_append _ _ _ (by simp)
  simp only [Res.bind, hf, Res.ok.injEq, Prod.mk.injEq] at hv ⊢
  obtain ⟨hg, hb⟩ := hv
  refine ⟨hg, ?_⟩
  cases hx : (baseValue sys g l it name).2 with
  | none => rw [hx] at hb; cases hb
  | some w =>
    rw [hx, Option.map_some, Option.some.injEq] at hb
    rw [Option.map_some, Option.some.injEq, ← hb, dress_fmt sys _ l (sized (name ++ b!"_FORMATTED") ds)
      (name ++ b!"_FORMATTED") w hst, dress_size sys _ l _ w _ hpos (by rw [hb]; exact hlen)]

/-- Only the empty name is read outside its bounds. -/
theorem in_bounds (sys : Sys) (g : Table) (l : Option Table) (it : Item) (name : Str) (h : name ≠ []) :
    ∃ r, formatVariable sys g l it name = .ok r := by
  simp only [formatVariable]
  split
  · exact ⟨_, rfl⟩
  split
  · exact ⟨_, rfl⟩
  split
  · exact ⟨_, rfl⟩
  have : ∃ r, splitSize name = .ok r := by
    rw [splitSize, if_neg (fun h0 => h (List.eq_nil_of_length_eq_zero h0))]
    simp only
    split <;> exact ⟨_, rfl⟩
  obtain ⟨r, hr⟩ := this
  rw [derived, hr]
  exact ⟨_, rfl⟩

/-- Nothing provided by the system. -/
def bare : Sys := ⟨none, none, none, none, false, fun _ _ => none⟩

/-- The empty name reads the byte before it. -/
theorem empty_name_violated : formatVariable bare (Trie.inserts []).1 none ⟨none, none⟩ [] = .ub := rfl

/-- `X_FORMATTED` is defined as `abc`, `X` is `xyz`, and `X_FORMATTED_2` is not `ab`. -/
theorem formatted_violated :
    ∃ g, getVariable b!"X_FORMATTED" g none = some b!"abc" ∧
      formatVariable bare g none ⟨none, none⟩ b!"X_FORMATTED_2" = .ok (g, some b!"xy") := by
  exact ⟨(Trie.inserts [(b!"X_FORMATTED", b!"abc"), (b!"X", b!"xyz")]).1, rfl, rfl⟩

/-- `FOREACH_ITEM` is defined as `abc`, the current item is `xyz`: the name is `abc` and
`FOREACH_ITEM_2` is not `ab`. -/
theorem item_violated :
    ∃ g, formatVariable bare g none ⟨some b!"TAGS", some b!"xyz"⟩ b!"FOREACH_ITEM" = .ok (g, some b!"abc") ∧
      formatVariable bare g none ⟨some b!"TAGS", some b!"xyz"⟩ b!"FOREACH_ITEM_2" = .ok (g, some b!"xy") := by
  exact ⟨(Trie.inserts [(b!"FOREACH_ITEM", b!"abc")]).1, rfl, rfl⟩

/-- `A_3` shows a value and `A_3_2` shows none. -/
theorem twice_violated :
    ∃ g, formatVariable bare g none ⟨none, none⟩ b!"A_3" = .ok (g, some b!"abc") ∧
      formatVariable bare g none ⟨none, none⟩ b!"A_3_2" = .ok (g, none) := by
  exact ⟨(Trie.inserts [(b!"A", b!"abcd")]).1, rfl, rfl⟩

/-- The hypotheses of `prefix_partial` on `TITLE_12`. -/
example :
    let g := (Trie.inserts [(b!"TITLE", b!"A long title of a post")]).1
    Digits b!"12" ∧ 0 < numeral b!"12" ∧ getVariable (sized b!"TITLE" b!"12") g none = none ∧
    getVariable b!"TITLE" g none = some b!"A long title of a post" ∧
    formatVariable bare g none ⟨none, none⟩ b!"TITLE_12" = .ok (g, some b!"A long title") := by
  refine ⟨⟨by decide, by unfold Digit; decide⟩, by decide, rfl, rfl, rfl⟩

end Blogc.C27
