import Verif.Model.Content
import Verif.Model.Trie

/-!
# Model of `src/blogc/source-parser.c`
-/

namespace Blogc.Source

open Blogc

/-- `blogc_source_parser_state_t`, src/blogc/source-parser.c:14-22. -/
inductive State where
  | start | key | valueStart | value | separator | contentStart | content
  deriving DecidableEq, Repr

/-- The errors, with what their messages mention. -/
inductive Err where
  | noKeyOrSeparator                -- lines 60-62
  | forbidden (key : Str)           -- lines 93-95
  | invalidKey                      -- lines 101-102
  | invalidSeparator                -- lines 135-137
  | invalidMaxdepth (value : Str)   -- lines 188-191
  | empty                           -- lines 225-226
  | missingColon                    -- lines 229-231
  | missingValue (key : Option Str) -- lines 234-236
  | missingNewline (key : Option Str) -- lines 239-241
  deriving DecidableEq, Repr

/-- Locals of `blogc_source_parse`, lines 32-41; `current` is kept by the loop. -/
structure St where
  start : Nat
  key : Option Str
  rv : Trie Str
  state : State
  deriving Repr

def St.init : St := { start := 0, key := none, rv := .nil, state := .start }

def isNl (c : Byte) : Bool := c == c!"\n" || c == c!"\r"

def isUpper (c : Byte) : Bool := c!"A" ≤ c && c ≤ c!"Z"

def isKeyChar (c : Byte) : Bool := isUpper c || (c!"0" ≤ c && c ≤ c!"9") || c == c!"_"

/-- The names compared in lines 70-91. -/
def forbiddenNames : List Str :=
  [b!"FILENAME", b!"CONTENT", b!"DATE_FORMATTED", b!"DATE_FIRST_FORMATTED",
   b!"DATE_LAST_FORMATTED", b!"PAGE_FIRST", b!"PAGE_PREVIOUS", b!"PAGE_CURRENT", b!"PAGE_NEXT",
   b!"PAGE_LAST", b!"BLOGC_VERSION"]

/-- `bc_trie_insert(rv, ...)` with a key that may be `NULL` (which the trie dereferences). -/
def St.insert (st : St) (v : Str) : Run St :=
  match st.key with
  | none => .ub
  | some k => .ok { st with rv := (st.rv.insert k v).1, key := none, state := .start }

/-- Conversion of a `long` to `int`. -/
def toInt (x : Int) : Int := (x + 2 ^ 31) % 2 ^ 32 - 2 ^ 31

/-- Insertion unless the name is present, lines 158-179. -/
def insertNew (t : Trie Str) (name : Str) : Option Str → Trie Str
  | none => t
  | some v => if t.lookup name = none then (t.insert name v).1 else t

/-- Lines 198-202. -/
def insertToc (t : Trie Str) : Res (Option Str) → Run (Except Err (Trie Str))
  | .ok none => .ok (.ok t)
  | .ok (some x) => .ok (.ok (t.insert b!"TOCTREE" x).1)
  | .ub => .ub

/-- Lines 180-203: the table of contents. -/
def tableOfContents (maxdepth : Int) (t : Trie Str) (r : Content.BSt) : Run (Except Err (Trie Str)) :=
  if r.headers = [] then .ok (.ok t)
  else
    match t.lookup b!"TOCTREE_MAXDEPTH" with
    | some m =>
      if m ≠ [] ∧ (strtol m).2 ≠ [] then .ok (.error (.invalidMaxdepth m))
      else insertToc t (Toctree.render r.headers (toInt (strtol m).1) (some r.lineEnding))
    | none => insertToc t (Toctree.render r.headers maxdepth (some r.lineEnding))

/-- Lines 205-207: the content and the excerpt. -/
def addContent (t : Trie Str) (r : Content.BSt) : Trie Str :=
  ((t.insert b!"CONTENT" r.rv).1.insert b!"EXCERPT"
    (if r.endExcerpt = 0 then r.rv else cstr (r.rv.take r.endExcerpt))).1

/-- Lines 158-207: what is done with the results `r` of the content parser. -/
def addResults (maxdepth : Int) (t : Trie Str) (r : Content.BSt) : Run (Except Err (Trie Str)) :=
  match tableOfContents maxdepth
      (insertNew (insertNew t b!"FIRST_HEADER" r.firstHeader) b!"DESCRIPTION" r.description) r with
  | .ok (.ok t) => .ok (.ok (addContent t r))
  | .ok (.error e) => .ok (.error e)
  | .ub => .ub
  | .out => .out

/-- Lines 147-208; `cp` is `blogc_content_parse` with its flag for headers. -/
def finishContent (cp : Str → Bool → Run Content.BSt) (maxdepth : Int) (t : Trie Str) (text : Str) :
    Run (Except Err (Trie Str)) := do
  let t := (t.insert b!"RAW_CONTENT" text).1
  let r ← cp text (t.lookup b!"TOCTREE" = none)
  addResults maxdepth t r

/-- The `switch`, lines 46-210, for the character `c` at `current`. -/
def step (cp : Str → Bool → Run Content.BSt) (maxdepth : Int) (src : Str) (current : Nat) (st : St)
    (c : Byte) : Run (Except Err St) :=
  match st.state with
  | .start =>
    if c == c!" " || c == c!"\t" || isNl c then .ok (.ok st)
    else if isUpper c then .ok (.ok { st with state := .key, start := current })
    else if c = c!"-" then .ok (.ok { st with state := .separator })
    else .ok (.error .noKeyOrSeparator)
  | .key =>
    if isKeyChar c then .ok (.ok st)
    else if c = c!":" then
      let k := cstr (slice src st.start current)
      if k ∈ forbiddenNames then .ok (.error (.forbidden k))
      else .ok (.ok { st with key := some k, state := .valueStart })
    else .ok (.error .invalidKey)
  | .valueStart =>
    if isNl c = false then .ok (.ok { st with state := .value, start := current })
    else do
      let st ← st.insert []
      pure (.ok st)
  | .value =>
    if isNl c then do
      let st ← st.insert (strip (cstr (slice src st.start current)))
      pure (.ok st)
    else .ok (.ok st)
  | .separator =>
    if c = c!"-" then .ok (.ok st)
    else if isNl c then .ok (.ok { st with state := .contentStart })
    else .ok (.error .invalidSeparator)
  | .contentStart =>
    if isNl c then .ok (.ok st) else .ok (.ok { st with start := current, state := .content })
  | .content =>
    if current + 1 = src.length then
      match finishContent cp maxdepth st.rv (cstr (src.drop st.start)) with
      | .ok (.error e) => .ok (.error e)
      | .ok (.ok t) => .ok (.ok { st with rv := t })
      | .ub => .ub
      | .out => .out
    else .ok (.ok st)

/-- Lines 218-256: after the loop. -/
def finish (current : Nat) (st : St) : Except (Err × Nat) (Trie Str) :=
  if st.rv.size = 0 then
    match st.state with
    | .start => .error (.empty, current)
    | .key => .error (.missingColon, current)
    | .valueStart => .error (.missingValue st.key, current)
    | .value => .error (.missingNewline st.key, current)
    | _ => .ok st.rv
  else .ok st.rv

/-- The loop of lines 43-216; the list is the text from `current` on. -/
def loop (cp : Str → Bool → Run Content.BSt) (maxdepth : Int) (src : Str) :
    Str → (current : Nat) → St → Run (Except (Err × Nat) (Trie Str))
  | [], current, st => .ok (finish current st)
  | c :: rest, current, st =>
    match step cp maxdepth src current st c with
    | .ok (.ok st) => loop cp maxdepth src rest (current + 1) st
    | .ok (.error e) => .ok (.error (e, current))
    | .ub => .ub
    | .out => .out

/-- `blogc_source_parse`, src/blogc/source-parser.c:25-257: `src` are the `src_len`
bytes. -/
def parse (cp : Str → Bool → Run Content.BSt) (src : Str) (maxdepth : Int) :
    Run (Except (Err × Nat) (Trie Str)) :=
  loop cp maxdepth src src 0 St.init

end Blogc.Source
