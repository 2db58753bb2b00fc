import Verif.Model.Inline

/-!
# C36: identifiers of headers
-/

namespace Blogc.C36

open Blogc Blogc.Content

/-- A byte allowed in an identifier. -/
def SlugChar (c : Byte) : Prop :=
  (c!"a" ≤ c ∧ c ≤ c!"z") ∨ (c!"0" ≤ c ∧ c ≤ c!"9") ∨ c = c!"-"

instance (c : Byte) : Decidable (SlugChar c) := inferInstanceAs (Decidable (_ ∨ _))

theorem slugByte_table : ∀ n : Fin 256, SlugChar (slugByte (UInt8.ofFin n)) ∧
    slugByte (slugByte (UInt8.ofFin n)) = slugByte (UInt8.ofFin n) ∧
    (SlugChar (UInt8.ofFin n) → slugByte (UInt8.ofFin n) = UInt8.ofFin n) := by decide +kernel

theorem slugByte_spec (c : Byte) : SlugChar (slugByte c) ∧ slugByte (slugByte c) = slugByte c ∧
    (SlugChar c → slugByte c = c) := slugByte_table c.toFin

/-- Only lower-case letters, digits and `-`. -/
theorem slug_chars (s : Str) : ∀ c ∈ slugify s, SlugChar c := by
  intro c hc
  obtain ⟨d, _, rfl⟩ := List.mem_map.1 hc
  exact (slugByte_spec d).1

/-- One character for each character of the title. -/
theorem slug_length (s : Str) : (slugify s).length = s.length := List.length_map _

/-- A slug is its own slug. -/
theorem slug_idempotent (s : Str) : slugify (slugify s) = slugify s := by
  rw [slugify, slugify, List.map_map]
  exact List.map_congr_left fun c _ => (slugByte_spec c).2.1

/-- Letters and digits are kept up to case, at their position. -/
theorem slug_keeps (s : Str) (i : Nat) (c : Byte) (h : s[i]? = some c) :
    (slugify s)[i]? = some (if toLower c ∈ b!"abcdefghijklmnopqrstuvwxyz0123456789" then toLower c
      else c!"-") := by
  rw [slugify, List.getElem?_map, h]
  have : ∀ n : Fin 256, slugByte (UInt8.ofFin n) =
      if toLower (UInt8.ofFin n) ∈ b!"abcdefghijklmnopqrstuvwxyz0123456789" then
        toLower (UInt8.ofFin n) else c!"-" := by decide +kernel
  exact congrArg some (this c.toFin)

example : slugify b!"Hello, World 42!" = b!"hello--world-42-" := by decide

/-- Non-ASCII text. -/
example : slugify b!"é" = b!"--" := by decide

end Blogc.C36
