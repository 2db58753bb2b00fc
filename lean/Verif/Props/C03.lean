import Verif.Props.C02

/-!
# C03: byte replacement
-/

namespace Blogc.C03

open Blogc

theorem join_splitAcc_repl (c : Byte) (r : Str) (rest cur : Str) (n : Nat) :
    join r (C02.splitAcc c 0 rest cur n)
      = cur ++ rest.flatMap (fun b => if b = c then r else [b]) := by
  induction rest generalizing cur n with
  | nil => simp [C02.splitAcc, join]
  | cons b rest ih =>
    simp only [C02.splitAcc, List.flatMap_cons]
    by_cases hb : b = c
    · rw [if_pos (by simp [hb]), if_pos hb, C02.join_cons _ _ _ (C02.splitAcc_ne_nil _ _ _ _ _), ih]
      simp
    · rw [if_neg (fun h => hb h.1), if_neg hb, ih]
      simp

/-- `bc_str_replace` substitutes every occurrence of the byte and keeps
everything else in order. -/
theorem replace_spec (s : Str) (c : Byte) (r : Str) :
    replace s c r = s.flatMap (fun b => if b = c then r else [b]) := by
  by_cases h : s = []
  · subst h; rfl
  · rw [replace, C02.split_eq s c 0 h, join_splitAcc_repl]; rfl

example : replace b!"a-b--" c!"-" b!"--" = b!"a--b----" := by decide

end Blogc.C03
