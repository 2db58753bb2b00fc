import Verif.Model.Main
import Verif.Spec.MakeSettings
import Verif.Spec.Utf8
import Verif.Props.C02
import Verif.Props.C07
import Verif.Props.C11

/-!
# C64: command line variable definitions are validated
-/

namespace Blogc.C64

open Blogc.Spec Blogc.Spec.MakeSettings Blogc.Main
open Blogc.C02 (splitAcc)

theorem isUpper_iff (c : Byte) : Main.isUpper c = true ↔ c!"A" ≤ c ∧ c ≤ c!"Z" := by
  simp [Main.isUpper]

theorem isKeyByte_iff (c : Byte) : Main.isKeyByte c = true ↔
    (c!"A" ≤ c ∧ c ≤ c!"Z") ∨ (c!"0" ≤ c ∧ c ≤ c!"9") ∨ c = c!"_" := by
  simp [Main.isKeyByte, Main.isUpper, or_assoc]

theorem checkKey_iff (k : Str) : Main.checkKey k = none ↔ k = [] ∨ ValidKey k := by
  cases k with
  | nil => simp [Main.checkKey]
  | cons c rest =>
    simp only [Main.checkKey, reduceCtorEq, false_or, ValidKey]
    constructor
    · intro h
      refine ⟨c, rest, rfl, ?_⟩
      split at h
      · cases h
      · split at h
        · cases h
        · rename_i h1 h2
          simp only [Bool.not_eq_true', Bool.not_eq_false] at h1 h2
          refine ⟨(isUpper_iff c).1 h1, fun x hx => (isKeyByte_iff x).1 ?_⟩
          exact List.all_eq_true.1 h2 x hx
    · rintro ⟨c', rest', e, h1, h2⟩
      injection e with e1 e2
      subst e1 e2
      have a := (isUpper_iff c).2 h1
      have b : rest.all Main.isKeyByte = true :=
        List.all_eq_true.2 fun x hx => (isKeyByte_iff x).2 (h2 x hx)
      simp [a, b]

theorem checkKey_status (k : Str) (s : Stop) (h : Main.checkKey k = some s) : s.status = 1 := by
  cases k with
  | nil => cases h
  | cons c rest =>
    simp only [Main.checkKey] at h
    split at h
    · injection h with h; subst h; rfl
    · split at h
      · injection h with h; subst h; rfl
      · cases h

/-- A text with a separator is split at the first one. -/
theorem splitAcc_two (c : Byte) (k w cur : Str) (h : c ∉ k) :
    splitAcc c 2 (k ++ c :: w) cur 0 = [cur ++ k, w] := by
  have last : ∀ (w cur : Str), splitAcc c 2 w cur 1 = [cur ++ w] := by
    intro w
    induction w with
    | nil => intro cur; simp [splitAcc]
    | cons b w ih => intro cur; simp [splitAcc, ih]
  induction k generalizing cur with
  | nil => simp [splitAcc, last]
  | cons b k ih =>
    have hb : b ≠ c := fun e => h (by simp [e])
    have hk : c ∉ k := fun e => h (by simp [e])
    simp [splitAcc, hb, ih _ hk]

theorem splitAcc_none (c : Byte) (k cur : Str) (h : c ∉ k) : splitAcc c 2 k cur 0 = [cur ++ k] := by
  induction k generalizing cur with
  | nil => simp [splitAcc]
  | cons b k ih =>
    have hb : b ≠ c := fun e => h (by simp [e])
    have hk : c ∉ k := fun e => h (by simp [e])
    simp [splitAcc, hb, ih _ hk]

theorem split_two (c : Byte) (k w : Str) (h : c ∉ k) : split (k ++ c :: w) c 2 = [k, w] := by
  rw [C02.split_eq _ _ _ (by simp)]
  exact splitAcc_two c k w [] h

theorem split_none (c : Byte) (k : Str) (h : c ∉ k) : split k c 2 = [] ∨ split k c 2 = [k] := by
  by_cases hk : k = []
  · subst hk; exact .inl rfl
  · rw [C02.split_eq _ _ _ hk, splitAcc_none c k [] h]
    exact .inr rfl

theorem valid_no_eq {k : Str} (h : ValidKey k) : c!"=" ∉ k := by
  obtain ⟨c, rest, rfl, h1, h2⟩ := h
  intro hm
  rcases List.mem_cons.1 hm with e | e
  · subst e; exact absurd h1.1 (by decide)
  · rcases h2 _ e with h | h | h
    · exact absurd h.1 (by decide)
    · exact absurd h.2 (by decide)
    · exact absurd h (by decide)

/-- The forms a definition can have on the command line, before other arguments. -/
inductive Given (text : Str) : List Str → List Str → Prop where
  | attached (rest : List Str) (h : text ≠ []) : Given text ((b!"-D" ++ text) :: rest) rest
  | separate (rest : List Str) : Given text (b!"-D" :: text :: rest) rest

/-- The two forms mean the same. -/
theorem given_eq (make : Bool) (text : Str) (args rest : List Str) (h : Given text args rest) (o : Opts) :
    argLoop make none args o = (define text o).bind fun
      | .error s => .ok (.error s)
      | .ok o => argLoop make none rest o := by
  have hw : withValue c!"D" text o = define text o := by
    simp only [withValue]
    rw [if_neg (by decide), if_neg (by decide), if_neg (by decide), if_neg (by decide)]
  have ho : option make c!"D" text o =
      if text = [] then .ok (.wait c!"D")
      else (withValue c!"D" text o).bind fun
        | .error s => .ok (.stop s)
        | .ok o => .ok (.go o) := by
    simp only [option]
    rw [if_neg (by decide), if_neg (by decide), if_neg (by decide), if_neg (by decide),
      if_neg (by decide), if_pos (by decide)]
    rfl
  cases h with
  | attached rest h =>
    simp only [argLoop, List.cons_append, List.nil_append, if_true]
    rw [ho, if_neg h, hw]
    cases define text o with
    | ub => rfl
    | ok r => cases r <;> rfl
  | separate rest =>
    have ho' : option make c!"D" [] o = .ok (.wait c!"D") := by
      simp only [option]
      rw [if_neg (by decide), if_neg (by decide), if_neg (by decide), if_neg (by decide),
        if_neg (by decide), if_pos (by decide), if_pos trivial]
    simp only [argLoop, if_true]
    rw [ho']
    simp only [Res.bind, argLoop]
    rw [hw]
    cases define text o with
    | ub => rfl
    | ok r => cases r <;> rfl

/-- A valid definition sets its variable to everything after the first `=`, and
nothing else; the program goes on with the other arguments. -/
theorem sets (make : Bool) (k v : Str) (hk : ValidKey k) (hu : WellFormedUtf8 (k ++ b!"=" ++ v))
    (args rest : List Str) (hg : Given (k ++ b!"=" ++ v) args rest) (o : Opts) :
    argLoop make none args o
      = argLoop make none rest { o with config := (o.config.insert k v).1 } := by
  rw [given_eq make _ args rest hg o]
  obtain ⟨b, hb, hw⟩ := C11.validate_iff (k ++ b!"=" ++ v)
  have hbt : b = true := hw.2 hu
  subst hbt
  have hs : split (k ++ b!"=" ++ v) c!"=" 2 = [k, v] := by
    rw [List.append_assoc]
    exact split_two c!"=" k v (valid_no_eq hk)
  simp only [define, hb, Res.bind, Bool.not_true, Bool.false_eq_true, if_false, hs,
    (checkKey_iff k).2 (.inr hk)]

/-- An invalid definition of valid UTF-8 stops the program with exit status 1,
unless its text starts with `=`. The full statement asks for this of every
invalid definition, see `not_utf8_violated` and `empty_key_violated`. -/
theorem refuses_partial (make : Bool) (text : Str) (hu : WellFormedUtf8 text)
    (he : text.head? ≠ some c!"=")
    (hn : ¬ ∃ k v, ValidKey k ∧ text = k ++ b!"=" ++ v)
    (args rest : List Str) (hg : Given text args rest) (o : Opts) :
    ∃ s, argLoop make none args o = .ok (.error s) ∧ s.status = 1 := by
  rw [given_eq make _ args rest hg o]
  obtain ⟨b, hb, hw⟩ := C11.validate_iff text
  have hbt : b = true := hw.2 hu
  subst hbt
  simp only [define, hb, Res.bind, Bool.not_true, Bool.false_eq_true, if_false]
  by_cases hm : c!"=" ∈ text
  · obtain ⟨k, v, e, hk⟩ : ∃ k v, text = k ++ c!"=" :: v ∧ c!"=" ∉ k := by
      clear hn hg hu hb hw he
      induction text with
      | nil => cases hm
      | cons a t ih =>
        by_cases ha : a = c!"="
        · exact ⟨[], t, by simp [ha], by simp⟩
        · rcases List.mem_cons.1 hm with h | h
          · exact absurd h.symm ha
          · obtain ⟨k, v, e, hk⟩ := ih h
            refine ⟨a :: k, v, by simp [e], ?_⟩
            intro h
            rcases List.mem_cons.1 h with h | h
            · exact ha h.symm
            · exact hk h
    subst e
    rw [split_two c!"=" k v hk]
    cases hc : Main.checkKey k with
    | some s => exact ⟨s, by simp only [hc], checkKey_status k s hc⟩
    | none =>
      rcases (checkKey_iff k).1 hc with rfl | hv
      · exact absurd rfl he
      · exact absurd ⟨k, v, hv, by simp⟩ hn
  · refine ⟨.noEquals, ?_, rfl⟩
    rcases split_none c!"=" text hm with h | h <;> rw [h]

/-- The whole program refuses such a definition: it exits with status 1 and has
no effect. -/
theorem refused_run_partial (env : Env) (text : Str) (hu : WellFormedUtf8 text)
    (he : text.head? ≠ some c!"=")
    (hn : ¬ ∃ k v, ValidKey k ∧ text = k ++ b!"=" ++ v)
    (args rest : List Str) (hg : Given text args rest) :
    Main.main env args = .ret (.exit 1) := by
  obtain ⟨s, h1, h2⟩ := refuses_partial env.make text hu he hn args rest hg (initial env.version)
  simp only [Main.main, h1, h2]

/-- A definition that is not valid UTF-8 stops the program, with exit status 0. -/
theorem not_utf8_violated (env : Env) (text : Str) (hu : ¬ WellFormedUtf8 text)
    (args rest : List Str) (hg : Given text args rest) :
    Main.main env args = .ret (.exit 0) := by
  obtain ⟨b, hb, hw⟩ := C11.validate_iff text
  have hbf : b = false := by
    cases b with
    | false => rfl
    | true => exact absurd (hw.1 rfl) hu
  subst hbf
  have h : argLoop env.make none args (initial env.version) = .ok (.error .notUtf8) := by
    rw [given_eq env.make text args rest hg]
    simp only [define, hb, Res.bind, Bool.not_false, if_true]
  simp only [Main.main, h]
  rfl

/-- A definition without a name, such as `-D=x`, is accepted. -/
theorem empty_key_violated (make : Bool) (v : Str) (hu : WellFormedUtf8 (b!"=" ++ v))
    (args rest : List Str) (hg : Given (b!"=" ++ v) args rest) (o : Opts) :
    argLoop make none args o
      = argLoop make none rest { o with config := (o.config.insert [] v).1 } ∧ ¬ ValidKey [] := by
  refine ⟨?_, fun ⟨c, r, h, _⟩ => by cases h⟩
  rw [given_eq make _ args rest hg o]
  obtain ⟨b, hb, hw⟩ := C11.validate_iff (b!"=" ++ v)
  have hbt : b = true := hw.2 hu
  subst hbt
  have hs : split (b!"=" ++ v) c!"=" 2 = [[], v] := split_two c!"=" [] v (by simp)
  simp only [define, hb, Res.bind, Bool.not_true, Bool.false_eq_true, if_false, hs,
    (checkKey_iff []).2 (.inl rfl)]

/-! Non-vacuity. -/

theorem utf8_of {s : Str} (h : utf8Validate s = .ok true) : WellFormedUtf8 s := by
  obtain ⟨b, hb, hw⟩ := C11.validate_iff s
  rw [h] at hb
  injection hb with hb
  exact hw.1 hb.symm

theorem not_utf8_of {s : Str} (h : utf8Validate s = .ok false) : ¬ WellFormedUtf8 s := by
  obtain ⟨b, hb, hw⟩ := C11.validate_iff s
  rw [h] at hb
  injection hb with hb
  subst hb
  exact fun h => absurd (hw.2 h) (by decide)

example : ValidKey b!"A_1" ∧ WellFormedUtf8 (b!"A_1" ++ b!"=" ++ b!"x=y") ∧
    Given (b!"A_1" ++ b!"=" ++ b!"x=y") [b!"-DA_1=x=y", b!"f"] [b!"f"] :=
  ⟨((checkKey_iff _).1 (by decide)).resolve_left (by decide), utf8_of (by decide +kernel),
    .attached _ (by decide)⟩

example : WellFormedUtf8 b!"a=x" ∧ (b!"a=x").head? ≠ some c!"=" ∧
    (¬ ∃ k v, ValidKey k ∧ b!"a=x" = k ++ b!"=" ++ v) ∧ Given b!"a=x" [b!"-D", b!"a=x"] [] := by
  refine ⟨utf8_of (by decide +kernel), by decide, ?_, .separate _⟩
  rintro ⟨k, v, ⟨c, r, rfl, h, -⟩, e⟩
  injection e with e _
  subst e
  exact absurd h.2 (by decide)

example : ¬ WellFormedUtf8 (b!"A=" ++ [0xff]) := not_utf8_of (by decide +kernel)

end Blogc.C64
