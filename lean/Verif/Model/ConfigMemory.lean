import Verif.Model.Config

/-!
# Memory of src/common/config-parser.c

`bc_config_parse` again, with what it takes from the memory and gives back. A section is one thing
with its table or list and the texts in it, a configuration is one with its table of sections (C110).
-/

namespace Blogc.ConfigMem

open Blogc Blogc.Config

/-- What is taken from the memory, by the name of the variable; sections are numbered. -/
inductive Thing where
  | config
  | section (i : Nat)
  | sectionName
  | key
  | value
  | err
  deriving DecidableEq, Repr

inductive Event where
  | acquire (x : Thing)
  | release (x : Thing)
  | use (x : Thing)
  deriving DecidableEq, Repr

/-- The use of `section`. -/
def ofSection (st : St) : List Event :=
  match st.sect with
  | some i => [.use (.section i)]
  | none => []

/-- `if (value == NULL) value = bc_string_new()`, src/common/config-parser.c:120-121 and 179-180. -/
def newValue (st : St) : List Event := if st.value.isSome then [] else [.acquire .value]

/-- src/common/config-parser.c:137-158. Inserting a name that is there releases the old section. -/
def endSectionEvents (src : Str) (st : St) : List Event :=
  let name := cstr (slice src st.start st.current)
  let i := st.heap.length
  [.acquire .sectionName, .acquire (.section i), .use .sectionName, .use .config] ++
    (st.root.insert name i).2.map (fun j => .release (.section j)) ++ [.release .sectionName]

/-- src/common/config-parser.c:237-238 and 288-289. -/
def lastPushEvents (c : Byte) : List Event := if isNl c then [] else [.use .value]

/-- The `switch (state)` of `bc_config_parse`, src/common/config-parser.c:95-301. -/
def dispatchM (src : Str) (lists : List Str) (st : St) (c : Byte) : List Event × Step St Result :=
  let isLast := st.current + 1 == src.length
  match st.state with
  | .start =>
    if c == c!"#" || c == c!";" then ([], adv { st with current := skipComment src st.current })
    else if c == c!" " || c == c!"\t" || isNl c then ([], adv st)
    else if c == c!"[" then ([], adv { st with state := .sectionStart })
    else match st.sect with
    | none => ([.acquire .err], .done (.error (.mustStartWithSection, st.current)))
    | some _ =>
      match st.deref with
      | none => (ofSection st, .ub)
      | some (_, .map _) => (ofSection st, .next { st with start := st.current, state := .key })
      | some (_, .list _) =>
        (ofSection st ++ newValue st,
          .next { st with start := st.current, state := .listStart, value := some (st.value.getD []) })
  | .sectionStart => ([], adv { st with start := st.current, state := .section })
  | .section =>
    if c == c!"]" then (endSectionEvents src st, adv (endSection src lists st))
    else if !isNl c then ([], adv st)
    else ([.acquire .err], .done (.error (.sectionNewline, st.current)))
  | .key =>
    if c == c!"=" then
      let st' := { st with key := some (cstr (slice src st.start st.current)), state := .valueStart }
      if isLast then ([.acquire .key] ++ ofSection st ++ [.use .key, .release .key], advO (st'.insertValue []))
      else ([.acquire .key] ++ newValue st, adv { st' with value := some (st.value.getD []) })
    else if !isNl c && !isLast then ([], adv st)
    else
      let stop := if isLast && !isNl c then src.length else st.current
      ([.acquire .key, .use .key, .acquire .err, .release .key],
        .done (.error (.keyWithoutValue (cstr (slice src st.start stop)), st.current)))
  | .valueStart =>
    if isBlank c then ([], adv st)
    else if c == c!"\"" then ([], adv { st with state := .valueQuote })
    else if isNl c || isLast then ([], .next { st with state := .value })
    else ([.use .value], advO ((st.push c).map fun s => { s with state := .value }))
  | .valueQuote =>
    if c == c!"\"" then
      match st.value with
      | none => ([.use .value], .ub)
      | some v => (ofSection st ++ [.use .key, .use .value, .release .value, .release .key],
          advO ((st.insertValue (cstr v)).map fun s => { s with value := none, state := .valuePostQuoted }))
    else ([.use .value], advO (st.push c))
  | .valuePostQuoted =>
    if isBlank c then ([], adv st)
    else if isNl c || isLast then ([], adv { st with state := .start })
    else ([.acquire .err], .done (.error (.afterQuotedValue, st.current)))
  | .value =>
    if isNl c || isLast then
      (lastPushEvents c ++ ofSection st ++ [.use .key, .use .value, .release .key, .release .value],
        advO (endValue st c))
    else ([.use .value], advO (st.push c))
  | .listStart =>
    if isBlank c then ([], adv st)
    else if c == c!"\"" then ([], adv { st with state := .listQuote })
    else ([.use .value], advO ((st.push c).map fun s => { s with state := .list }))
  | .listQuote =>
    if c == c!"\"" then
      match st.value with
      | none => ([.use .value], .ub)
      | some v => (ofSection st ++ [.use .value, .release .value],
          advO ((st.appendItem (cstr v)).map fun s => { s with value := none, state := .listPostQuoted }))
    else ([.use .value], advO (st.push c))
  | .listPostQuoted =>
    if isBlank c then ([], adv st)
    else if isNl c || isLast then ([], adv { st with state := .start })
    else ([.acquire .err], .done (.error (.afterQuotedItem, st.current)))
  | .list =>
    if isNl c || isLast then
      (lastPushEvents c ++ ofSection st ++ [.use .value, .release .value], advO (endItem st c))
    else ([.use .value], advO (st.push c))

/-- One iteration of the loop, src/common/config-parser.c:78-310. -/
def stepM (src : Str) (lists : List Str) (st : St) : List Event × Step St Result :=
  match src[st.current]? with
  | none => ([], .done (.ok { heap := st.heap, root := st.root }))
  | some c =>
    if st.escaped then ([.use .value], advO ((st.push c).map fun s => { s with escaped := false }))
    else if st.value.isSome && c == c!"\\" then ([], adv { st with escaped := true })
    else dispatchM src lists st c

/-- `bc_config_free`, src/common/config-parser.c:430-437, with `free_section` (lines 38-53) for each
section in the table. -/
def freeConfig (root : Trie Nat) : List Event :=
  root.free.map (fun i => .release (.section i)) ++ [.release .config]

/-- The end of `bc_config_parse`, src/common/config-parser.c:303-314. -/
def endEvents (st : St) (r : Result) : List Event :=
  (match r with
    | .ok _ => []
    | .error _ => freeConfig st.root) ++
  (if st.key.isSome then [.release .key] else []) ++ (if st.value.isSome then [.release .value] else [])

/-- The loop of `bc_config_parse`. -/
def loopEvents (src : Str) (lists : List Str) : Nat → St → List Event
  | 0, _ => []
  | n + 1, st =>
    (stepM src lists st).1 ++
      match (stepM src lists st).2 with
      | .next st' => loopEvents src lists n st'
      | .done r => endEvents st r
      | .ub => []

/-- `bc_config_parse`, src/common/config-parser.c:56-317. -/
def parseEvents (src : Str) (lists : List Str) : List Event :=
  .acquire .config :: loopEvents src lists (2 * src.length + 2) St.init

end Blogc.ConfigMem
