import Verif.Model.MakeRules

/-!
# Model of the file names of blogc-make: src/blogc-make/utils.c and the output
lists of src/blogc-make/rules.c
-/

namespace Blogc.Make

open Blogc

/-- `s != NULL && s[0] != '\0'`. -/
def have? : Option Str → Bool
  | some (_ :: _) => true
  | _ => false

/-- `s[0] == '/'`, for a string that is present. -/
def slashFirst : Option Str → Bool
  | some (c :: _) => c == c!"/"
  | _ => false

/-- The text of a string (nothing for NULL, which is never appended). -/
def text (s : Option Str) : Str := s.getD []

/-- `bm_generate_filename`, src/blogc-make/utils.c:18-71. NULL is `none`; an
empty result is NULL. (Lines 56-57 are never executed.) -/
def generateFilename (dir gprefix pre fname ext : Option Str) : Option Str :=
  let extNoSlash := have? ext && !slashFirst ext
  let isIndex := have? fname && have? ext && (fname == some b!"index" && slashFirst ext) && !have? pre
  let rv : Str := if dir.isSome && (have? gprefix || have? pre || have? fname || have? ext) then text dir else []
  let rv := if have? gprefix then rv ++ b!"/" ++ text gprefix else rv
  let rv := if (have? pre || have? fname || extNoSlash) && !isIndex then rv ++ b!"/" else rv
  let rv := if have? pre then rv ++ text pre else rv
  let rv :=
    if have? fname then
      let rv := if have? pre && have? fname && !slashFirst fname then rv ++ b!"/" else rv
      if !isIndex then rv ++ text fname else rv
    else if extNoSlash then
      if !have? pre then rv ++ b!"index" else rv
    else rv
  let rv := if have? ext then rv ++ text ext else rv
  if rv.length = 0 then none else some rv

/-- `bm_generate_filename2`, src/blogc-make/utils.c:74-103. -/
def generateFilename2 (dir gprefix pre fname prefix2 fname2 ext : Option Str) : Option Str :=
  let p : Str := if have? pre then text pre else []
  let p := if have? pre && (have? fname || have? prefix2) then p ++ b!"/" else p
  let p := if have? fname then p ++ text fname else p
  let p := if have? fname && have? prefix2 then p ++ b!"/" else p
  let p := if have? prefix2 then p ++ text prefix2 else p
  generateFilename dir gprefix (some p) fname2 ext

/-- The name of page `n` of a tag, src/blogc-make/rules.c:378-380 and 431-433
(`%d` of a `size_t`: page numbers are below 2^31). -/
def tagPage (dir blogPrefix tagPrefix pagPrefix htmlExt : Option Str) (tag : Str) (n : Nat) : Option Str :=
  generateFilename2 dir blogPrefix tagPrefix (some tag) pagPrefix (some (decNat n)) htmlExt

/-- The inner loop of src/blogc-make/rules.c:430-443: the first page number
from `k` on, at most `k + fuel - 1`, whose name is `path`. -/
def findPage (name : Nat → Option Str) (path : Str) : (fuel k : Nat) → Option Nat
  | 0, _ => none
  | fuel + 1, k => if name k = some path then some k else findPage name path fuel (k + 1)

/-- The loop of src/blogc-make/rules.c:425-446: the tag and the page of an
output file; `count` is the number of outputs. -/
def findTagPage (name : Str → Nat → Option Str) (count : Nat) (path : Str) : List Str → Option (Str × Nat)
  | [] => none
  | tag :: l =>
    match findPage (name tag) path count 1 with
    | some k => some (tag, k)
    | none => findTagPage name count path l

/-- The names of `pagination_tags_outputlist`, src/blogc-make/rules.c:362-385:
`pages tag` is the number of pages of the tag (0 if unknown). -/
def tagOutputs (name : Str → Nat → Option Str) (pages : Str → Nat) : List Str → List (Option Str)
  | [] => []
  | tag :: l => (List.range (pages tag)).map (fun i => name tag (i + 1)) ++ tagOutputs name pages l

end Blogc.Make
