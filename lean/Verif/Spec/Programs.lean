import Verif.Model.MakeBinary

/-!
# Which program is meant

Written without the functions of the model: only what the machine is
(`Host`: the name blogc-make is run by, the environment, the files).
-/

namespace Blogc.Programs

open Blogc Blogc.Make

/-- `InDir path dir`: `dir` is the directory that `path` is in. Slashes may be
repeated, and may stand at the end. -/
inductive InDir : Str → Str → Prop where
  | inside (d name : Str) (k m : Nat) : d ≠ [] → d.getLast? ≠ some c!"/" → name ≠ [] → c!"/" ∉ name →
      InDir (d ++ List.replicate (k + 1) c!"/" ++ name ++ List.replicate m c!"/") d
  | top (name : Str) (k m : Nat) : name ≠ [] → c!"/" ∉ name →
      InDir (List.replicate (k + 1) c!"/" ++ name ++ List.replicate m c!"/") b!"/"
  | root (k : Nat) : InDir (List.replicate (k + 1) c!"/") b!"/"
  | here (name : Str) (m : Nat) : name ≠ [] → c!"/" ∉ name →
      InDir (name ++ List.replicate m c!"/") b!"."

/-- There is a program `name` in the directory that blogc-make was run from, and
`path` is its path. A name without a slash was found in `PATH`, and tells no
directory. -/
def Beside (h : Host) (name path : Str) : Prop :=
  ∃ a d, h.argv0 = some a ∧ c!"/" ∈ a ∧ InDir a d ∧ path = d ++ b!"/" ++ name ∧ h.kind path = .program

/-- blogc-make is a part of blogc, and blogc is looked for. -/
def IsSelf (embedded : Bool) (h : Host) (name : Str) : Prop :=
  embedded = true ∧ name = b!"blogc" ∧ h.argv0 ≠ none

/-- The program meant: the running one, if it is blogc; what the environment
says; the one in the directory of blogc-make; the one found in `PATH` by its
name. -/
inductive Intended (embedded : Bool) (h : Host) (name var : Str) : Str → Prop where
  | self (a : Str) : IsSelf embedded h name → h.argv0 = some a → Intended embedded h name var a
  | told (e : Str) : ¬ IsSelf embedded h name → h.env var = some e → Intended embedded h name var e
  | beside (p : Str) : ¬ IsSelf embedded h name → h.env var = none → Beside h name p →
      Intended embedded h name var p
  | search : ¬ IsSelf embedded h name → h.env var = none → (∀ p, ¬ Beside h name p) →
      Intended embedded h name var name

/-- No directory stands where the program is looked for. -/
def NoFolder (h : Host) (name : Str) : Prop :=
  ∀ a d, h.argv0 = some a → c!"/" ∈ a → InDir a d → h.kind (d ++ b!"/" ++ name) ≠ .folder

/-- The arguments and the environment are C strings. -/
structure CStrings (h : Host) : Prop where
  argv0 : ∀ a, h.argv0 = some a → NulFree a
  env : ∀ v e, h.env v = some e → NulFree e

end Blogc.Programs
