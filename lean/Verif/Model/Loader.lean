import Verif.Model.Numbers
import Verif.Model.Trie
import Verif.Model.Sort

/-!
# Model of `blogc_source_parse_from_files`, src/blogc/loader.c:109-313
-/

namespace Blogc.Loader

/-- A table of variables. -/
abbrev Vars := Trie Str

/-- What the loader gets from the rest of the program. -/
structure Env where
  /-- `blogc_source_parse_from_file` (loader.c:73-106): from the global
  `TOCTREE_MAXDEPTH` and a path, the variables of the source; `none` is an
  error. -/
  parse : Option Str → Str → Option Vars
  /-- `blogc_convert_datetime(date, "%s", ...)`: `none` is an error. -/
  stamp : Str → Option Str

/-- `bc_trie_insert` (the released value is dropped here). -/
def set (t : Vars) (k v : Str) : Vars := (t.insert k v).1

/-- `sort_source`, src/blogc/loader.c:109-123: the subtraction is of unsigned 64
bit numbers, the result is converted to `int`. -/
def sortSource (a b : Vars) : Int :=
  match a.lookup b!"c", b.lookup b!"c" with
  | some ca, some cb => toInt32 ((strtoul cb : Int) - strtoul ca)
  | _, _ => 0

/-- `sort_source_reverse`, src/blogc/loader.c:126-130. -/
def sortSourceReverse (a b : Vars) : Int := sortSource b a

/-- The loop of src/blogc/loader.c:144-186. The outcome is the list of the
sources and `with_date`; `none` is an error. -/
def loadLoop (env : Env) (maxdepth : Option Str) (sort : Bool) : List Str → Option (List Vars × Nat)
  | [] => some ([], 0)
  | f :: l =>
    match env.parse maxdepth f with
    | none => none
    | some s =>
      let date := s.lookup b!"DATE"
      let s' : Option Vars :=
        if sort then
          match date with
          | none => none
          | some d =>
            match env.stamp d with
            | none => none
            | some ts => some (set s b!"c" ts)
        else some s
      match s', loadLoop env maxdepth sort l with
      | some s', some (rest, n) => some (s' :: rest, (if date.isSome then 1 else 0) + n)
      | _, _ => none

/-- The tag test, src/blogc/loader.c:243-263. -/
def tagOk (filterTag : Option Str) (s : Vars) : Bool :=
  match filterTag with
  | none => true
  | some tag =>
    match s.lookup b!"TAGS" with
    | none => false
    | some tags => (split tags c!" " 0).any fun t => !t.isEmpty && t == tag

/-- The loop of src/blogc/loader.c:241-273: the entries kept and the final
`counter`. -/
def pageLoop (filterTag : Option Str) (paged : Bool) (start stop : Nat) :
    List Vars → (counter : Nat) → List Vars × Nat
  | [], counter => ([], counter)
  | s :: l, counter =>
    if !tagOk filterTag s then pageLoop filterTag paged start stop l counter
    else if paged then
      if counter < start ∨ counter ≥ stop then
        pageLoop filterTag paged start stop l (counter + 1)
      else
        let r := pageLoop filterTag paged start stop l (counter + 1)
        (s :: r.1, r.2)
    else
      let r := pageLoop filterTag paged start stop l counter
      (s :: r.1, r.2)

/-- Copy a variable of an entry to the global table under another name. -/
def copyVar (conf : Vars) (s : Vars) (src dst : Str) : Vars :=
  match s.lookup src with
  | some v => set conf dst v
  | none => conf

/-- The loop of src/blogc/loader.c:277-297. -/
def firstLast : (first : Bool) → List Vars → Vars → Vars
  | _, [], conf => conf
  | first, s :: l, conf =>
    let conf := if first then
        copyVar (copyVar conf s b!"DATE" b!"DATE_FIRST") s b!"FILENAME" b!"FILENAME_FIRST"
      else conf
    let conf := if l.isEmpty then
        copyVar (copyVar conf s b!"DATE" b!"DATE_LAST") s b!"FILENAME" b!"FILENAME_LAST"
      else conf
    firstLast false l conf

/-- `ceilf(((float) counter) / per_page)` converted to `size_t`,
src/blogc/loader.c:300. Division by zero gives an infinity or not-a-number, and
converting these, or a value that does not fit, is undefined. -/
def lastPage (counter perPage : Nat) : Res Nat :=
  let d := floatOfNat perPage
  if d = 0 then .ub
  else
    let q := ceilDiv32 (floatOfNat counter) d
    if q < 2 ^ 64 then .ok q else .ub

/-- The page variables, src/blogc/loader.c:299-310. -/
def pageVars (conf : Vars) (page : Nat) (perPage counter : Nat) (rvEmpty : Bool) : Res Vars := do
  let last ← lastPage counter perPage
  let conf := set conf b!"CURRENT_PAGE" (decInt page)
  let conf := if page > 1 then set conf b!"PREVIOUS_PAGE" (decInt (page - 1)) else conf
  let conf := if page < last then set conf b!"NEXT_PAGE" (decInt (page + 1)) else conf
  let conf := if rvEmpty then conf else set conf b!"FIRST_PAGE" b!"1"
  let conf := if last > 0 then set conf b!"LAST_PAGE" (decInt (toInt32 last)) else conf
  return conf

/-- `page` after lines 219-225. -/
def pageOf (filterPage : Option Str) : Nat :=
  let p := (strtol (filterPage.getD [])).1
  if p ≤ 0 then 1 else p.toNat

/-- `per_page` after lines 227-233. -/
def perPageOf (filterPerPage : Option Str) : Nat :=
  (strtol (filterPerPage.getD b!"10")).1.toNat

/-- The order of the sources, src/blogc/loader.c:196-210. -/
def order (sort reverse : Bool) (sources : List Vars) : Res (List Vars) :=
  if sort then
    match slistSort (fun _ => if reverse then sortSourceReverse else sortSource)
        (sources.length + 1) sources with
    | some r => r
    | none => .ub     -- does not terminate: excluded by C10
  else if reverse then .ok sources.reverse
  else .ok sources

/-- Lines 212-312, for the ordered sources. The signed product of line 236 must
not overflow. -/
def select (conf : Vars) (sources : List Vars) : Res (List Vars × Vars) :=
  let filterPage := conf.lookup b!"FILTER_PAGE"
  let page := pageOf filterPage
  let perPage := perPageOf (conf.lookup b!"FILTER_PER_PAGE")
  if (page - 1) * perPage ≥ 2 ^ 63 then .ub
  else
    let start := (page - 1) * perPage
    let r := pageLoop (conf.lookup b!"FILTER_TAG") filterPage.isSome start (start + perPage) sources 0
    let conf' := firstLast true r.1 conf
    if filterPage.isSome then do
      let conf'' ← pageVars conf' page perPage r.2 r.1.isEmpty
      return (r.1, conf'')
    else .ok (r.1, conf')

/-- `blogc_source_parse_from_files`, src/blogc/loader.c:133-313. `none` is an
error; otherwise the entries and the new global table. -/
def fromFiles (env : Env) (conf : Vars) (l : List Str) : Res (Option (List Vars × Vars)) :=
  let sort := strToBool (conf.lookup b!"FILTER_SORT")
  match loadLoop env (conf.lookup b!"TOCTREE_MAXDEPTH") sort l with
  | none => .ok none
  | some (sources, withDate) =>
    if withDate > 0 ∧ withDate < l.length then .ok none
    else do
      let sources ← order sort (strToBool (conf.lookup b!"FILTER_REVERSE")) sources
      let r ← select conf sources
      return some r

end Blogc.Loader
