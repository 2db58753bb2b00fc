import Verif.Basic

/-!
# Space-separated lists, and the names of the values mapped to their items
-/

namespace Blogc.Spec

open Blogc

def Spaces (s : Str) : Prop := ∀ c ∈ s, c = c!" "

/-- `ListOf s ws`: the words of the space-separated list `s` are `ws`, in order. -/
inductive ListOf : Str → List Str → Prop where
  | nil {s : Str} : Spaces s → ListOf s []
  | cons {sp w t : Str} {ws : List Str} : Spaces sp → w ≠ [] → c!" " ∉ w →
      (t = [] ∨ ∃ r, t = c!" " :: r) → ListOf t ws → ListOf (sp ++ w ++ t) (w :: ws)

/-- Upper case, and `_` for special characters. -/
def mapped (c : Byte) : Byte :=
  if c ∈ b!"ABCDEFGHIJKLMNOPQRSTUVWXYZ0123456789" then c
  else if c ∈ b!"abcdefghijklmnopqrstuvwxyz" then c - 32
  else c!"_"

/-- The variable that holds the value mapped to an item: `TAGS__ITEM1`. -/
def valueName (name item : Str) : Str := name ++ b!"__" ++ item.map mapped

/-- The names templates can refer to. -/
def TemplateName (name : Str) : Prop :=
  ∀ c ∈ name, c ∈ b!"ABCDEFGHIJKLMNOPQRSTUVWXYZ0123456789_"

example : ListOf b!" a  bc " [b!"a", b!"bc"] :=
  .cons (sp := b!" ") (w := b!"a") (by simp [Spaces]) (by decide) (by decide) (.inr ⟨b!" bc ", rfl⟩)
    (.cons (sp := b!"  ") (w := b!"bc") (by simp [Spaces]) (by decide) (by decide) (.inr ⟨[], rfl⟩)
      (.nil (by simp [Spaces])))
example : valueName b!"TAGS" b!"item-1" = b!"TAGS__ITEM_1" := by decide

end Blogc.Spec
