import Verif.Run
import Verif.Model.Strings

/-!
# Model of `src/blogc/content-parser.c`, lines 16-643: slugs, escaping, inline markup

A C string is given by its bytes before the terminator; it is assumed that
there is no NUL among them.
-/

namespace Blogc.Content

open Blogc

/-- `blogc_slugify`, src/blogc/content-parser.c:16-34. -/
def slugByte (c : Byte) : Byte :=
  if c!"a" ≤ c ∧ c ≤ c!"z" then c
  else if c!"0" ≤ c ∧ c ≤ c!"9" then c
  else if c!"A" ≤ c ∧ c ≤ c!"Z" then c + 32
  else c!"-"

def slugify (s : Str) : Str := s.map slugByte

/-- `htmlentities` and `htmlentities_append`, src/blogc/content-parser.c:37-66: what
is appended for one character. -/
def entity (c : Byte) : Str :=
  if c = c!"&" then b!"&amp;"
  else if c = c!"<" then b!"&lt;"
  else if c = c!">" then b!"&gt;"
  else if c = c!"\"" then b!"&quot;"
  else if c = c!"'" then b!"&#x27;"
  else if c = c!"/" then b!"&#x2F;"
  else [c]

/-- `blogc_htmlentities`, src/blogc/content-parser.c:69-78. -/
def htmlentities (s : Str) : Str := s.flatMap entity

/-- Loop of `blogc_fix_description`, src/blogc/content-parser.c:92-115; `cur` is
the text from `start` to `current`. -/
def fixLoop : (rest cur : Str) → (newline : Bool) → (rv : Str) → Str
  | [], cur, newline, rv => if newline then rv else rv ++ strip cur
  | c :: rest, cur, newline, rv =>
    if c = c!"\r" ∨ c = c!"\n" then
      if newline then fixLoop rest (cur ++ [c]) true rv
      else fixLoop rest [] true (rv ++ strip cur ++ b!" ")
    else fixLoop rest (cur ++ [c]) false rv

/-- `blogc_fix_description`, src/blogc/content-parser.c:81-119. -/
def fixDescription (s : Str) : Str := htmlentities (strip (fixLoop s [] false []))

/-- `blogc_content_parser_inline_state_t`, src/blogc/content-parser.c:151-172. -/
inductive IState where
  | start | asterisk | asteriskDouble | underscore | underscoreDouble | backticks
  | backticksDouble | linkStart | linkAuto | linkContent | linkUrlStart | linkUrl | imageStart
  | imageAlt | imageUrlStart | imageUrl | endash | emdash | lineBreakStart | lineBreak
  deriving DecidableEq, Repr

/-- Locals of `blogc_content_parse_inline_internal`, lines 178-191. -/
structure ISt where
  current : Nat
  start : Nat
  count : Nat
  startLink : Nat
  link1 : Str
  state : IState
  rv : Str
  deriving DecidableEq, Repr

def ISt.init : ISt := ⟨0, 0, 0, 0, [], .start, []⟩

/-- The `do`/`while` loops of lines 260-267, 306-313, 356-363 and 395-402, from
`tmp = src + pos`. `none`: not found. When `bc_str_find` returns `NULL` the code
computes with the null pointer; the model takes the result of flat memory, where
the difference with `src` is larger than `src_len`. -/
def findDouble (mem : Str) (len : Nat) (c : Byte) : (fuel : Nat) → (pos : Nat) → Run (Option Nat)
  | 0, _ => .out
  | n + 1, pos => do
    match ← Run.ofRes (find (mem.drop pos) c) with
    | none => pure none
    | some off =>
      let k := pos + off
      if k < len ∧ mem.getD (k + 1) 0 = c then pure (some k)
      else if k + 1 < len then findDouble mem len c n (k + 1)
      else pure none

/-- Lines 243-248 and the like: a single delimiter. -/
def findSingle (mem : Str) (len : Nat) (c : Byte) (pos : Nat) : Run (Option Nat) := do
  match ← Run.ofRes (find (mem.drop pos) c) with
  | none => pure none
  | some off => if pos + off ≥ len then pure none else pure (some (pos + off))

/-- `break` out of the switch: `current++`, line 592. -/
def ISt.brk (st : ISt) : Run (ISt ⊕ Str) := .ok (.inl { st with current := st.current + 1 })

/-- `continue`. -/
def ISt.cont (st : ISt) : Run (ISt ⊕ Str) := .ok (.inl st)

def ISt.add (st : ISt) (s : Str) : ISt := { st with rv := st.rv ++ s }

def ISt.goto (st : ISt) (s : IState) : ISt := { st with state := s }

/-- Line 440 and 498. -/
def isBlankNl (c : Byte) : Bool := c == c!" " || c == c!"\t" || c == c!"\n" || c == c!"\r"

/-- `case CONTENT_INLINE_START`, lines 198-236. -/
def inlineStart (mem : Str) (st : ISt) (c : Byte) (isLast : Bool) : Run (ISt ⊕ Str) :=
  if isLast then (st.add (entity c)).brk
  else if c = c!"\\" then
    match mem[st.current + 1]? with
    | none => .ub
    | some c' => ({ st with current := st.current + 1 }.add (entity c')).brk
  else if c = c!"*" then (st.goto .asterisk).brk
  else if c = c!"_" then (st.goto .underscore).brk
  else if c = c!"`" then (st.goto .backticks).brk
  else if c = c!"[" then (st.goto .linkStart).brk
  else if c = c!"!" then (st.goto .imageStart).brk
  else if c = c!"-" then (st.goto .endash).brk
  else if c = c!" " then (st.goto .lineBreakStart).brk
  else (st.add (entity c)).brk

/-- Lines 238-257 and 284-303: emphasis; `rec` is the function itself. -/
def inlineEm (rec : Str → Nat → Run Str) (mem : Str) (len : Nat) (st : ISt) (c delim : Byte)
    (double : IState) : Run (ISt ⊕ Str) :=
  if c = delim then (st.goto double).brk
  else do
    match ← findSingle mem len delim st.current with
    | none => ((st.add [delim]).goto .start).cont
    | some k =>
      let inner ← rec (mem.drop st.current) (k - st.current)
      ({ st with current := k, state := .start }.add (b!"<em>" ++ inner ++ b!"</em>")).brk

/-- Lines 259-282 and 305-328. -/
def inlineStrong (rec : Str → Nat → Run Str) (mem : Str) (len : Nat) (st : ISt) (delim : Byte) :
    Run (ISt ⊕ Str) := do
  match ← findDouble mem len delim (mem.length + 1) st.current with
  | none => ((st.add [delim, delim]).goto .start).cont
  | some k =>
    let inner ← rec (mem.drop st.current) (k - st.current)
    ({ st with current := k + 1, state := .start }.add
      (b!"<strong>" ++ inner ++ b!"</strong>")).brk

/-- Lines 330-353. -/
def inlineCode (mem : Str) (len : Nat) (st : ISt) (c : Byte) : Run (ISt ⊕ Str) :=
  if c = c!"`" then (st.goto .backticksDouble).brk
  else do
    match ← findSingle mem len c!"`" st.current with
    | none => ((st.add b!"`").goto .start).cont
    | some k =>
      ({ st with current := k, state := .start }.add
        (b!"<code>" ++ htmlentities (slice mem st.current k) ++ b!"</code>")).brk

/-- Lines 355-382. -/
def inlineCodeDouble (mem : Str) (len : Nat) (st : ISt) : Run (ISt ⊕ Str) := do
  match ← findDouble mem len c!"`" (mem.length + 1) st.current with
  | none => ((st.add b!"``").goto .start).cont
  | some k =>
    ({ st with current := k + 1, state := .start }.add
      (b!"<code>" ++ htmlentities (slice mem st.current k) ++ b!"</code>")).brk

/-- Lines 394-420. -/
def inlineLinkAuto (mem : Str) (len : Nat) (st : ISt) : Run (ISt ⊕ Str) := do
  match ← findDouble mem len c!"]" (mem.length + 1) st.current with
  | none => ((st.add b!"[[").goto .start).cont
  | some k =>
    let url := appendEscapedLoop false (slice mem st.current k)
    ({ st with current := k + 1, state := .start }.add
      (b!"<a href=\"" ++ url ++ b!"\">" ++ url ++ b!"</a>")).brk

/-- Lines 384-392 and 422-473: links. -/
def inlineLink (rec : Str → Nat → Run Str) (mem : Str) (st : ISt) (c : Byte) : Run (ISt ⊕ Str) :=
  match st.state with
  | .linkStart =>
    if c = c!"[" then (st.goto .linkAuto).brk
    else { st with startLink := st.current, count := 1, state := .linkContent }.brk
  | .linkContent =>
    if c = c!"\\" then { st with current := st.current + 1 }.brk
    else if c = c!"[" then { st with count := st.count + 1 }.brk
    else if c = c!"]" then
      if st.count - 1 = 0 then
        { st with count := 0, link1 := slice mem st.startLink st.current, state := .linkUrlStart }.brk
      else { st with count := st.count - 1 }.brk
    else st.brk
  | .linkUrlStart =>
    if isBlankNl c then st.brk
    else if c = c!"(" then { st with state := .linkUrl, start := st.current + 1 }.brk
    else ({ st with state := .start, current := st.startLink, startLink := 0 }.add b!"[").cont
  | _ => -- `linkUrl`
    if c = c!"\\" then { st with current := st.current + 1 }.brk
    else if c = c!")" then do
      let text ← rec st.link1 st.link1.length
      ({ st with link1 := [], state := .start }.add
        (b!"<a href=\"" ++ appendEscapedLoop false (slice mem st.start st.current) ++ b!"\">" ++
          text ++ b!"</a>")).brk
    else st.brk

/-- Lines 475-531: images. -/
def inlineImage (mem : Str) (st : ISt) (c : Byte) : Run (ISt ⊕ Str) :=
  match st.state with
  | .imageStart =>
    if c = c!"[" then { st with state := .imageAlt, startLink := st.current + 1 }.brk
    else ((st.add b!"!").goto .start).cont
  | .imageAlt =>
    if c = c!"\\" then { st with current := st.current + 1 }.brk
    else if c = c!"]" then
      { st with link1 := slice mem st.startLink st.current, state := .imageUrlStart }.brk
    else st.brk
  | .imageUrlStart =>
    if isBlankNl c then st.brk
    else if c = c!"(" then { st with state := .imageUrl, start := st.current + 1 }.brk
    else ({ st with state := .start, current := st.startLink, startLink := 0 }.add b!"![").cont
  | _ => -- `imageUrl`
    if c = c!"\\" then { st with current := st.current + 1 }.brk
    else if c = c!")" then
      ({ st with link1 := [], state := .start }.add
        (b!"<img src=\"" ++ appendEscapedLoop false (slice mem st.start st.current) ++
          b!"\" alt=\"" ++ appendEscapedLoop false st.link1 ++ b!"\">")).brk
    else st.brk

/-- Lines 533-590: dashes and line breaks. -/
def inlineDash (st : ISt) (c : Byte) (isLast : Bool) : Run (ISt ⊕ Str) :=
  match st.state with
  | .endash =>
    if c = c!"-" then
      if isLast then ((st.add b!"&ndash;").goto .start).brk else (st.goto .emdash).brk
    else ((st.add b!"-").goto .start).cont
  | .emdash =>
    if c = c!"-" then ((st.add b!"&mdash;").goto .start).brk
    else ((st.add b!"&ndash;").goto .start).cont
  | .lineBreakStart =>
    if c = c!" " then
      if isLast then ((st.add b!"<br />").goto .start).brk
      else { st with count := 2, state := .lineBreak }.brk
    else ((st.add b!" ").goto .start).cont
  | _ => -- `lineBreak`
    if c = c!" " then
      if isLast then ((st.add b!"<br />").goto .start).brk
      else { st with count := st.count + 1 }.brk
    else if c = c!"\n" ∨ c = c!"\r" then ((st.add (b!"<br />" ++ [c])).goto .start).brk
    else ((st.add (List.replicate st.count c!" ")).goto .start).cont

/-- Lines 595-635: after the loop. -/
def inlineEnd (rec : Str → Nat → Run Str) (mem : Str) (st : ISt) : Run Str :=
  match st.state with
  | .imageStart | .imageAlt | .imageUrlStart | .imageUrl =>
    if st.startLink > mem.length then .ub
    else do
      let s ← rec (mem.drop st.startLink) (mem.length - st.startLink)
      pure (st.rv ++ b!"![" ++ appendEscapedLoop false s)
  | .linkContent | .linkUrlStart | .linkUrl =>
    if st.startLink > mem.length then .ub
    else do
      let s ← rec (mem.drop st.startLink) (mem.length - st.startLink)
      pure (st.rv ++ b!"[" ++ appendEscapedLoop false s)
  | _ => pure st.rv

/-- One iteration of the loop of lines 193-593, or the end. -/
def inlineStep (rec : Str → Nat → Run Str) (mem : Str) (len : Nat) (st : ISt) : Run (ISt ⊕ Str) :=
  if st.current < len then
    match mem[st.current]? with
    | none => .ub
    | some c =>
      let isLast := st.current == len - 1
      match st.state with
      | .start => inlineStart mem st c isLast
      | .asterisk => inlineEm rec mem len st c c!"*" .asteriskDouble
      | .asteriskDouble => inlineStrong rec mem len st c!"*"
      | .underscore => inlineEm rec mem len st c c!"_" .underscoreDouble
      | .underscoreDouble => inlineStrong rec mem len st c!"_"
      | .backticks => inlineCode mem len st c
      | .backticksDouble => inlineCodeDouble mem len st
      | .linkAuto => inlineLinkAuto mem len st
      | .linkStart | .linkContent | .linkUrlStart | .linkUrl => inlineLink rec mem st c
      | .imageStart | .imageAlt | .imageUrlStart | .imageUrl => inlineImage mem st c
      | .endash | .emdash | .lineBreakStart | .lineBreak => inlineDash st c isLast
  else do
    let s ← inlineEnd rec mem st
    pure (.inr s)

/-- Enough iterations for a text of `len` bytes (see C38). -/
def inlineFuel (len : Nat) : Nat := (4 * (len + 3) + 1) * (len + 3)

/-- `blogc_content_parse_inline_internal`, lines 175-636, on the C string `mem`
restricted to its first `len` bytes; at most `depth` nested calls. -/
def inlineInternal : (depth : Nat) → (mem : Str) → (len : Nat) → Run Str
  | 0, _, _ => .out
  | d + 1, mem, len => runL (inlineStep (inlineInternal d) mem len) (inlineFuel len) .init

/-- `blogc_content_parse_inline`, lines 639-643. -/
def parseInline (s : Str) : Run Str := inlineInternal (s.length + 1) s s.length

end Blogc.Content
