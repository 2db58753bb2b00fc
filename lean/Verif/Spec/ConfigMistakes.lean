import Verif.Spec.Strings

/-!
# Mistakes in configuration files

What can be wrong in a configuration file, and where: the file is fine up to some line, and what follows cannot stand
there. The forms of lines are those of the manual page, with all the liberties the files can take.
-/

namespace Blogc.Spec.ConfigMistakes

open Blogc Blogc.Spec

/-- A line break. -/
def Break (c : Byte) : Prop := c = c!"\n" ∨ c = c!"\r"

/-- A blank inside a line. -/
def Blank (c : Byte) : Prop := c = c!" " ∨ c = c!"\t" ∨ c = 12 ∨ c = 11

/-- What a key or an item can begin with. -/
def First (c : Byte) : Prop := c ≠ c!" " ∧ c ≠ c!"\t" ∧ ¬ Break c ∧ c ≠ c!"#" ∧ c ≠ c!";" ∧ c ≠ c!"["

/-- A text with escapes: a backslash with any byte after it, or a byte that is allowed. -/
inductive Escaped (P : Byte → Prop) : Str → Prop where
  | nil : Escaped P []
  | pair {c : Byte} {s : Str} : Escaped P s → Escaped P (c!"\\" :: c :: s)
  | byte {c : Byte} {s : Str} : c ≠ c!"\\" → P c → Escaped P s → Escaped P (c :: s)

/-- What is between the line break or the equal sign and a value. -/
def Lead (s : Str) : Prop := Escaped Blank s

/-- What is between two quotes. -/
def Quoted (s : Str) : Prop := Escaped (· ≠ c!"\"") s

/-- The rest of a line, after the first byte of a value. -/
def Rest (s : Str) : Prop := Escaped (fun c => ¬ Break c) s

/-- A key: something before an equal sign, in one line. -/
def Key (k : Str) : Prop := ∀ c ∈ k, c ≠ c!"=" ∧ ¬ Break c

/-- The name of a section after its first byte, which may be any. -/
def Name (n : Str) : Prop := ∀ c ∈ n, c ≠ c!"]" ∧ ¬ Break c

/-- A text that begins a line of a section. -/
def Begins (s : Str) : Prop := ∃ c r, s = c :: r ∧ First c

/-- Where a line stands: before all sections, or in a section of keys and values, or in a list. -/
inductive Place where
  | outside | keys | list
  deriving DecidableEq, Repr

/-- `Line lists p s q`: the text `s` can stand at `p`, and `q` is the place after it. `lists` are the names of the
sections that are lists. -/
inductive Line (lists : List Str) : Place → Str → Place → Prop where
  | blank {p : Place} {c : Byte} : c = c!" " ∨ c = c!"\t" ∨ Break c → Line lists p [c] p
  | comment {p : Place} {m e : Byte} {t : Str} : m = c!"#" ∨ m = c!";" → (∀ c ∈ t, ¬ Break c) → Break e →
      Line lists p (m :: t ++ [e]) p
  | head {p : Place} {c : Byte} {n : Str} : Name n →
      Line lists p (b!"[" ++ c :: n ++ b!"]") (if cstr (c :: n) ∈ lists then .list else .keys)
  | empty {k v : Str} {e : Byte} : Key k → Begins (k ++ b!"=") → Lead v → Break e →
      Line lists .keys (k ++ b!"=" ++ v ++ [e]) .keys
  | plain {k v r : Str} {c e : Byte} : Key k → Begins (k ++ b!"=") → Lead v → ¬ Blank c → ¬ Break c → c ≠ c!"\"" →
      c ≠ c!"\\" → Rest r → Break e → Line lists .keys (k ++ b!"=" ++ v ++ c :: r ++ [e]) .keys
  | quoted {k v t g : Str} {e : Byte} : Key k → Begins (k ++ b!"=") → Lead v → Quoted t → (∀ c ∈ g, Blank c) →
      Break e → Line lists .keys (k ++ b!"=" ++ v ++ b!"\"" ++ t ++ b!"\"" ++ g ++ [e]) .keys
  | item {v r : Str} {c e : Byte} : Begins (v ++ [c]) → Lead v → ¬ Blank c → c ≠ c!"\"" → c ≠ c!"\\" → Rest r →
      Break e → Line lists .list (v ++ c :: r ++ [e]) .list
  | quotedItem {v t g : Str} {e : Byte} : Begins (v ++ b!"\"") → Lead v → Quoted t → (∀ c ∈ g, Blank c) → Break e →
      Line lists .list (v ++ b!"\"" ++ t ++ b!"\"" ++ g ++ [e]) .list

/-- Some lines. -/
inductive Lines (lists : List Str) : Place → Str → Place → Prop where
  | nil {p : Place} : Lines lists p [] p
  | snoc {p q r : Place} {s t : Str} : Lines lists p s q → Line lists q t r → Lines lists p (s ++ t) r

/-- What is wrong. -/
inductive Reason where
  | noSection | brokenName | noValue (key : Str) | afterValue | afterItem
  deriving DecidableEq, Repr

/-- `Mistake p s r n`: the text `s` cannot stand at `p` for the reason `r`, as can be told at the offset `n`. -/
inductive Mistake : Place → Str → Reason → Nat → Prop where
  | noSection {c : Byte} {s : Str} : First c → Mistake .outside (c :: s) .noSection 0
  | brokenName {p : Place} {c e : Byte} {n s : Str} : Name n → Break e →
      Mistake p (b!"[" ++ c :: n ++ e :: s) .brokenName (n.length + 2)
  | noValue {k s : Str} {e : Byte} : Key k → Begins k → Break e → Mistake .keys (k ++ e :: s) (.noValue k) k.length
  | lastKey {k : Str} {c : Byte} : Key (k ++ [c]) → Begins (k ++ [c]) →
      Mistake .keys (k ++ [c]) (.noValue (k ++ [c])) k.length
  | afterValue {k v t g s : Str} {c d : Byte} : Key k → Begins (k ++ b!"=") → Lead v → Quoted t → (∀ c ∈ g, Blank c) →
      ¬ Blank c → ¬ Break c →
      Mistake .keys (k ++ b!"=" ++ v ++ b!"\"" ++ t ++ b!"\"" ++ g ++ c :: d :: s) .afterValue
        (k ++ b!"=" ++ v ++ b!"\"" ++ t ++ b!"\"" ++ g).length
  | afterItem {v t g s : Str} {c d : Byte} : Begins (v ++ b!"\"") → Lead v → Quoted t → (∀ c ∈ g, Blank c) →
      ¬ Blank c → ¬ Break c →
      Mistake .list (v ++ b!"\"" ++ t ++ b!"\"" ++ g ++ c :: d :: s) .afterItem
        (v ++ b!"\"" ++ t ++ b!"\"" ++ g).length

/-- `Malformed lists src r n`: the file goes wrong at the offset `n`, for the reason `r`. -/
def Malformed (lists : List Str) (src : Str) (r : Reason) (n : Nat) : Prop :=
  ∃ s t p k, src = s ++ t ∧ Lines lists .outside s p ∧ Mistake p t r k ∧ n = s.length + k

/-- The words for a mistake. -/
def wording : Reason → Str
  | .noSection => b!"File must start with section."
  | .brokenName => b!"Section names can't have new lines."
  | .noValue k => b!"Key without value: " ++ k ++ b!"."
  | .afterValue => b!"Invalid value for key, should not have anything after quotes."
  | .afterItem => b!"Invalid value for list item, should not have anything after quotes."

end Blogc.Spec.ConfigMistakes
