import Verif.Spec.Config

/-!
# The ways to write a configuration document

Blanks around keys, values, items and section headers, and line endings, are up to the user.
-/

namespace Blogc.Spec.Config

open Blogc Blogc.Spec

/-- Blanks at the beginning of a line. -/
def Indent (s : Str) : Prop := ∀ c ∈ s, c = c!" " ∨ c = c!"\t"

/-- Blanks inside a line: also form feeds and vertical tabs. -/
def Gap (s : Str) : Prop := ∀ c ∈ s, c = c!" " ∨ c = c!"\t" ∨ c = 12 ∨ c = 11

/-- The end of a line. -/
def Ending (e : Str) : Prop := e = b!"\n" ∨ e = b!"\r" ∨ e = b!"\r\n" ∨ e = b!"\n\r"

/-- `Written l s`: the text `s`, without its line end, is a way to write the line `l`. -/
inductive Written : Line → Str → Prop where
  | blank {ws i : Str} : Indent i → Written (.blank ws) i
  | comment {m : Byte} {t i : Str} : Indent i → Written (.comment m t) (i ++ m :: t)
  | pair {k v : Str} {q : Bool} {i g1 g2 g3 : Str} : Gap i → Gap g1 → Gap g2 → Gap g3 →
      Written (.pair k v q) (i ++ k ++ g1 ++ b!"=" ++ g2 ++ renderValue v q ++ g3)
  | item {v : Str} {q : Bool} {i g : Str} : Gap i → Gap g →
      Written (.item v q) (i ++ renderValue v q ++ g)

/-- Some lines, each with its own line ending. -/
inductive WrittenLines : List Line → Str → Prop where
  | nil : WrittenLines [] []
  | cons {l : Line} {ls : List Line} {t e s : Str} : Written l t → Ending e → WrittenLines ls s →
      WrittenLines (l :: ls) (t ++ e ++ s)

/-- Some sections. After the name of a section, in the same line, there may be blanks or a
comment. -/
inductive WrittenSections : List Section → Str → Prop where
  | nil : WrittenSections [] []
  | cons {n i t e a b : Str} {l : Line} {ls : List Line} {ss : List Section} : Indent i →
      l.OkPre → Written l t → Ending e → WrittenLines ls a → WrittenSections ss b →
      WrittenSections (⟨n, ls⟩ :: ss) (i ++ b!"[" ++ n ++ b!"]" ++ t ++ e ++ a ++ b)

/-- `WrittenDoc d s`: `s` is a way to write the document `d`. -/
def WrittenDoc (d : Doc) (s : Str) : Prop :=
  ∃ a b, WrittenLines d.preamble a ∧ WrittenSections d.sections b ∧ s = a ++ b

end Blogc.Spec.Config
