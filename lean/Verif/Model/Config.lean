import Verif.Machine
import Verif.Model.Strings
import Verif.Model.Trie

/-!
# Model of `src/common/config-parser.c`
-/

namespace Blogc.Config

/-- `bc_configparser_state_t`, src/common/config-parser.c:12-25. -/
inductive State where
  | start | sectionStart | section | key | valueStart | valueQuote | valuePostQuoted | value
  | listStart | listQuote | listPostQuoted | list
  deriving DecidableEq, Repr

/-- `bc_configparser_section_t`, src/common/config-parser.c:32-35, with the data
its type announces. -/
inductive Sec where
  | map (t : Trie Str)
  | list (l : List Str)
  deriving Repr

/-- The errors of the parser (messages of lines 126, 164, 189, 230 and 281). -/
inductive Err where
  | mustStartWithSection
  | sectionNewline
  | keyWithoutValue (key : Str)
  | afterQuotedValue
  | afterQuotedItem
  deriving DecidableEq, Repr

/-- Locals of `bc_config_parse`, src/common/config-parser.c:63-76. Sections live
on a heap (`heap`, in allocation order) and are referred to by index; `root`
is `rv->root`, whose free function releases sections (`freed`). -/
structure St where
  current : Nat
  start : Nat
  state : State
  heap : List Sec
  root : Trie Nat
  freed : List Nat
  sect : Option Nat
  key : Option Str
  value : Option Str
  escaped : Bool
  deriving Repr

def St.init : St :=
  { current := 0, start := 0, state := .start, heap := [], root := .nil, freed := [],
    sect := none, key := none, value := none, escaped := false }

/-- `bc_config_t`, with its heap of sections. -/
structure Config where
  heap : List Sec
  root : Trie Nat
  deriving Repr

/-- What `bc_config_parse` returns: an error with its position, or the
configuration. -/
abbrev Result := Except (Err × Nat) Config

/-- Dereference of the pointer `section`: it must not be null or released. -/
def St.deref (st : St) : Option (Nat × Sec) :=
  match st.sect with
  | none => none
  | some i => if i ∈ st.freed then none else (st.heap[i]?).map (i, ·)

/-- `bc_trie_insert(section->data, bc_str_strip(key), v)`, then `key = NULL`
(src/common/config-parser.c:173, 212, 239). Null pointers, a released section
and a section that is not a map are undefined. -/
def St.insertValue (st : St) (v : Str) : Option St :=
  match st.key, st.deref with
  | some k, some (i, .map t) =>
    some { st with heap := st.heap.set i (.map (t.insert (strip k) v).1), key := none }
  | _, _ => none

/-- `section->data = bc_slist_append(section->data, v)`,
src/common/config-parser.c:264 and 290. -/
def St.appendItem (st : St) (v : Str) : Option St :=
  match st.deref with
  | some (i, .list l) => some { st with heap := st.heap.set i (.list (l ++ [v])) }
  | _ => none

/-- `bc_string_append_c(value, c)`; a null string is treated as undefined (the C
function returns NULL, src/common/utils.c:463-464). -/
def St.push (st : St) (c : Byte) : Option St :=
  st.value.map fun v => { st with value := some (v ++ [c]) }

/-- `break` out of the switch without error: `current++`,
src/common/config-parser.c:309. -/
def adv (st : St) : Step St Result := .next { st with current := st.current + 1 }

/-- `adv` after an update that may be undefined. -/
def advO : Option St → Step St Result
  | some st => adv st
  | none => .ub

def isBlank (c : Byte) : Bool := c == c!" " || c == c!"\t" || c == 12 || c == 11

def isNl (c : Byte) : Bool := c == c!"\r" || c == c!"\n"

/-- The inner loop of src/common/config-parser.c:99-103. -/
def skipComment (src : Str) (current : Nat) : Nat :=
  current + ((src.drop current).takeWhile (fun c => !isNl c)).length

/-- src/common/config-parser.c:136-160: end of a section name. -/
def endSection (src : Str) (lists : List Str) (st : St) : St :=
  let name := cstr (slice src st.start st.current)
  let i := st.heap.length
  let r := st.root.insert name i
  { st with
    heap := st.heap ++ [if name ∈ lists then .list [] else .map .nil]
    root := r.1
    freed := st.freed ++ r.2
    sect := some i
    state := .start }

/-- `bc_string_append_c(value, c)` on the last character of a value
(src/common/config-parser.c:237-238 and 288-289). -/
def lastPush (st : St) (c : Byte) : Option St := if isNl c then some st else st.push c

/-- src/common/config-parser.c:236-247, and 287-297 for lists: end of an
unquoted value. -/
def endValue (st : St) (c : Byte) : Option St := do
  let st ← lastPush st c
  let v ← st.value
  let st ← st.insertValue (rstrip (cstr v))
  return { st with value := none, state := .start }

def endItem (st : St) (c : Byte) : Option St := do
  let st ← lastPush st c
  let v ← st.value
  let st ← st.appendItem (strip (cstr v))
  return { st with value := none, state := .start }

/-- The `switch (state)` of `bc_config_parse`, src/common/config-parser.c:95-301,
on the character `c` at `current`. -/
def dispatch (src : Str) (lists : List Str) (st : St) (c : Byte) : Step St Result :=
  let isLast := st.current + 1 == src.length
  match st.state with
  | .start =>
    if c == c!"#" || c == c!";" then adv { st with current := skipComment src st.current }
    else if c == c!" " || c == c!"\t" || isNl c then adv st
    else if c == c!"[" then adv { st with state := .sectionStart }
    else match st.sect with
    | none => .done (.error (.mustStartWithSection, st.current))
    | some _ =>
      match st.deref with
      | none => .ub
      | some (_, .map _) => .next { st with start := st.current, state := .key }
      | some (_, .list _) =>
        .next { st with start := st.current, state := .listStart,
                        value := some (st.value.getD []) }
  | .sectionStart => adv { st with start := st.current, state := .section }
  | .section =>
    if c == c!"]" then adv (endSection src lists st)
    else if !isNl c then adv st
    else .done (.error (.sectionNewline, st.current))
  | .key =>
    if c == c!"=" then
      let st := { st with key := some (cstr (slice src st.start st.current)), state := .valueStart }
      if isLast then advO (st.insertValue [])
      else adv { st with value := some (st.value.getD []) }
    else if !isNl c && !isLast then adv st
    else
      let stop := if isLast && !isNl c then src.length else st.current
      .done (.error (.keyWithoutValue (cstr (slice src st.start stop)), st.current))
  | .valueStart =>
    if isBlank c then adv st
    else if c == c!"\"" then adv { st with state := .valueQuote }
    else if isNl c || isLast then .next { st with state := .value }
    else advO ((st.push c).map fun s => { s with state := .value })
  | .valueQuote =>
    if c == c!"\"" then
      match st.value with
      | none => .ub
      | some v => advO ((st.insertValue (cstr v)).map fun s =>
          { s with value := none, state := .valuePostQuoted })
    else advO (st.push c)
  | .valuePostQuoted =>
    if isBlank c then adv st
    else if isNl c || isLast then adv { st with state := .start }
    else .done (.error (.afterQuotedValue, st.current))
  | .value =>
    if isNl c || isLast then advO (endValue st c)
    else advO (st.push c)
  | .listStart =>
    if isBlank c then adv st
    else if c == c!"\"" then adv { st with state := .listQuote }
    else advO ((st.push c).map fun s => { s with state := .list })
  | .listQuote =>
    if c == c!"\"" then
      match st.value with
      | none => .ub
      | some v => advO ((st.appendItem (cstr v)).map fun s =>
          { s with value := none, state := .listPostQuoted })
    else advO (st.push c)
  | .listPostQuoted =>
    if isBlank c then adv st
    else if isNl c || isLast then adv { st with state := .start }
    else .done (.error (.afterQuotedItem, st.current))
  | .list =>
    if isNl c || isLast then advO (endItem st c)
    else advO (st.push c)

/-- One iteration of the loop of `bc_config_parse`,
src/common/config-parser.c:78-310, for the source `src` of `src_len` bytes and
the names `lists` of the list sections (empty for NULL). -/
def step (src : Str) (lists : List Str) (st : St) : Step St Result :=
  match src[st.current]? with
  | none => .done (.ok { heap := st.heap, root := st.root })
  | some c =>
    if st.escaped then advO ((st.push c).map fun s => { s with escaped := false })
    else if st.value.isSome && c == c!"\\" then adv { st with escaped := true }
    else dispatch src lists st c

/-- `bc_config_parse`, src/common/config-parser.c:56-317. The fuel is enough:
`C15.parse_total`. -/
def parse (src : Str) (lists : List Str) : Option (Res Result) :=
  runM (step src lists) (2 * src.length + 2) St.init

/-- `bc_config_get`, src/common/config-parser.c:378-392. -/
def Config.get (c : Config) (sec key : Str) : Option Str :=
  match c.root.lookup sec with
  | none => none
  | some i =>
    match c.heap[i]? with
    | some (.map t) => t.lookup key
    | _ => none

/-- `bc_config_get_with_default`, src/common/config-parser.c:395-403. -/
def Config.getD (c : Config) (sec key dflt : Str) : Str := (c.get sec key).getD dflt

/-- `bc_config_get_list`, src/common/config-parser.c:406-427. -/
def Config.getList (c : Config) (sec : Str) : Option (List Str) :=
  match c.root.lookup sec with
  | none => none
  | some i =>
    match c.heap[i]? with
    | some (.list l) => some l
    | _ => none

/-- `bc_config_list_sections`, src/common/config-parser.c:327-346. -/
def Config.sections (c : Config) : List Str := (c.root.foreach []).map (·.1)

/-- `bc_config_list_keys`, src/common/config-parser.c:349-375. -/
def Config.keys (c : Config) (sec : Str) : Option (List Str) :=
  match c.root.lookup sec with
  | none => none
  | some i =>
    match c.heap[i]? with
    | some (.map t) => some ((t.foreach []).map (·.1))
    | _ => none

end Blogc.Config
