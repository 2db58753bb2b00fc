import Verif.Model.Inline
import Verif.Model.Toctree
import Verif.Model.Numbers

/-!
# Model of `src/blogc/content-parser.c`, lines 646-1303: block structure
-/

namespace Blogc.Content

open Blogc

def isDig (c : Byte) : Bool := c!"0" ≤ c && c ≤ c!"9"

def isNl (c : Byte) : Bool := c == c!"\n" || c == c!"\r"

def isSp (c : Byte) : Bool := c == c!" " || c == c!"\t"

/-- Loop of line 664 from index `i`; the argument is the text from there. -/
def skipBlanks (prefixLen : Nat) : Str → Nat → Nat
  | [], i => i
  | c :: r, i => if i < prefixLen ∧ isSp c = true then skipBlanks prefixLen r (i + 1) else i

/-- `blogc_is_ordered_list_item`, src/blogc/content-parser.c:646-670. -/
def isOrderedItem (s : Str) (prefixLen : Nat) : Bool :=
  if s.length < 2 then false
  else
    let i := (s.takeWhile isDig).length
    if i = 0 then false
    else if s.getD i 0 ≠ c!"." then false
    else
      let j := skipBlanks prefixLen (s.drop (i + 1)) (i + 1)
      if s.getD j 0 = 0 then false else j == prefixLen

/-- `blogc_content_parser_state_t`, src/blogc/content-parser.c:122-148. -/
inductive BState where
  | startLine | excerpt | excerptEnd | header | headerTitleStart | headerTitle | html | htmlEnd
  | blockquote | blockquoteStart | blockquoteEnd | code | codeStart | codeEnd
  | ulOrHrOrEm | hrOrEm | hr | ulStart | ulEnd | ol | olSpace | olStart | olEnd
  | paragraph | paragraphEnd
  deriving DecidableEq, Repr

/-- The pointer `lines2`: a list, or a released list (`freed`: lines 1101 and
1212 release it and keep the pointer). An empty list is `NULL`, also after
`bc_slist_free_full(NULL)`. -/
inductive Lines2 where
  | live (l : List Str)
  | freed
  deriving DecidableEq, Repr

/-- Reading `lines2` as a list. -/
def Lines2.get : Lines2 → Run (List Str)
  | .live l => .ok l
  | .freed => .ub

/-- The state after `bc_slist_free_full(lines2, free)` without resetting it. -/
def Lines2.release : Lines2 → Run Lines2
  | .live [] => .ok (.live [])
  | .live (_ :: _) => .ok .freed
  | .freed => .ub

/-- What lines 1101 and 1212 leave in `lines2`. `fx` is `false` for the code as it is;
`true` is the code with `lines2 = NULL` added after the release (see C40). -/
def Lines2.giveUp (fx : Bool) (l : Lines2) : Run Lines2 :=
  if fx then (do let _ ← l.get; pure (.live [])) else l.release

/-- Locals and results of `blogc_content_parse`, lines 678-726. -/
structure BSt where
  current : Nat
  start : Nat
  start2 : Nat
  stop : Nat              -- `end`
  eend : Nat
  realEnd : Nat
  headerLevel : Nat
  pre : Option Str        -- `prefix`
  prefixLen : Nat
  lineEnding : Str
  lineEndingFound : Bool
  d : Byte
  lines : List Str
  lines2 : Lines2
  rv : Str
  state : BState
  endExcerpt : Nat        -- `*end_excerpt`
  firstHeader : Option Str
  description : Option Str
  headers : List Toctree.Header
  deriving DecidableEq, Repr

/-- Which of the result pointers are given (src/blogc/content-parser.c:673-675);
`*end_excerpt` starts as 0, the other results as `NULL`. -/
structure Want where
  excerpt : Bool
  firstHeader : Bool
  description : Bool
  headers : Bool
  deriving DecidableEq, Repr

/-- Lines 695-716: `endl` is the line ending given by the caller. -/
def BSt.init (endl : Option Str) : BSt :=
  { current := 0, start := 0, start2 := 0, stop := 0, eend := 0, realEnd := 0, headerLevel := 0,
    pre := none, prefixLen := 0, lineEnding := endl.getD b!"\n", lineEndingFound := endl.isSome,
    d := 0, lines := [], lines2 := .live [], rv := [], state := .startLine, endExcerpt := 0,
    firstHeader := none, description := none, headers := [] }

/-- `bc_strndup(src + start, stop - start)`: when the difference wraps around, the
copy extends to the terminator. -/
def dup (src : Str) (start stop : Nat) : Run Str :=
  if start > src.length then .ub
  else if start ≤ stop then .ok (slice src start stop)
  else .ok (src.drop start)

def BSt.brk (st : BSt) : Run (BSt ⊕ BSt) := .ok (.inl { st with current := st.current + 1 })

def BSt.cont (st : BSt) : Run (BSt ⊕ BSt) := .ok (.inl st)

def BSt.goto (st : BSt) (s : BState) : BSt := { st with state := s }

/-- Lines 849, 878, 906, ...: the end of the current line. -/
def lineStop (src : Str) (st : BSt) (c : Byte) (isLast : Bool) : Nat :=
  if isLast ∧ isNl c = false then src.length
  else if st.realEnd ≠ 0 then st.realEnd else st.current

/-- Line 848 and others. -/
def ends (c : Byte) (isLast : Bool) : Bool := isNl c || isLast

/-- `case CONTENT_START_LINE`, lines 757-799. -/
def startLine (w : Want) (st : BSt) (c : Byte) (isLast : Bool) : Run (BSt ⊕ BSt) :=
  if ends c isLast then st.brk
  else
    let st := { st with start := st.current }
    if c = c!"." ∧ w.excerpt = true then { st with eend := st.rv.length, state := .excerpt }.brk
    else if c = c!"#" then { st with headerLevel := 1, state := .header }.brk
    else if c = c!"*" ∨ c = c!"+" ∨ c = c!"-" then
      { st with start2 := st.current, state := .ulOrHrOrEm, d := c }.brk
    else if isDig c then { st with start2 := st.current, state := .ol }.brk
    else if isSp c then { st with start2 := st.current, state := .code }.brk
    else if c = c!"<" then (st.goto .html).brk
    else if c = c!">" then { st with state := .blockquote, start2 := st.current }.brk
    else (st.goto .paragraph).brk

/-- Lines 801-812. -/
def excerpt (w : Want) (st : BSt) (c : Byte) : Run (BSt ⊕ BSt) :=
  if w.excerpt = true ∧ c = c!"." then st.brk
  else if w.excerpt = true ∧ isNl c = true then (st.goto .excerptEnd).brk
  else { st with eend := 0, state := .paragraph }.brk

/-- Lines 814-824. -/
def excerptEnd (w : Want) (st : BSt) (c : Byte) : Run (BSt ⊕ BSt) :=
  if w.excerpt = true ∧ isNl c = true then
    { st with endExcerpt := st.eend, state := .startLine }.brk
  else { st with eend := 0, state := .paragraphEnd }.brk

/-- Lines 826-836. -/
def header (st : BSt) (c : Byte) : Run (BSt ⊕ BSt) :=
  if c = c!"#" then { st with headerLevel := st.headerLevel + 1 }.brk
  else if isSp c then (st.goto .headerTitleStart).brk
  else (st.goto .paragraph).brk

/-- Lines 847-873. The slug of a string is never `NULL`. (`%d` is used with a
`size_t` level; the model takes the intended value.) -/
def headerTitle (src : Str) (w : Want) (st : BSt) (c : Byte) (isLast : Bool) : Run (BSt ⊕ BSt) :=
  if ends c isLast then do
    let stop := lineStop src st c isLast
    let tmp ← dup src st.start stop
    let parsed ← parseInline tmp
    let slug := slugify tmp
    { st with
      stop := stop
      firstHeader := if w.firstHeader = true ∧ st.firstHeader = none then some (htmlentities tmp)
        else st.firstHeader
      headers := if w.headers then Toctree.append st.headers st.headerLevel (some slug) (some parsed)
        else st.headers
      rv := st.rv ++ b!"<h" ++ decNat st.headerLevel ++ b!" id=\"" ++ slug ++ b!"\">" ++ parsed ++
        b!"</h" ++ decNat st.headerLevel ++ b!">" ++ st.lineEnding
      state := .startLine
      start := st.current }.brk
  else st.brk

/-- Lines 838-845. -/
def headerTitleStart (src : Str) (w : Want) (st : BSt) (c : Byte) (isLast : Bool) :
    Run (BSt ⊕ BSt) :=
  if isSp c then st.brk
  else if isNl c = false then { st with start := st.current, state := .headerTitle }.brk
  else headerTitle src w { st with start := st.current } c isLast

/-- Lines 884-895. -/
def htmlEnd (src : Str) (st : BSt) (c : Byte) (isLast : Bool) : Run (BSt ⊕ BSt) :=
  if ends c isLast then do
    let tmp ← dup src st.start st.stop
    { st with rv := st.rv ++ tmp ++ st.lineEnding, state := .startLine, start := st.current }.brk
  else (st.goto .html).brk

/-- Lines 875-882. -/
def html (src : Str) (st : BSt) (c : Byte) (isLast : Bool) : Run (BSt ⊕ BSt) :=
  let st := if ends c isLast then { st with state := .htmlEnd, stop := lineStop src st c isLast }
    else st
  if isLast then htmlEnd src st c isLast else st.brk

/-- Lines 931-958; `rec` is `blogc_content_parse` for a nested text. -/
def blockquoteEnd (rec : Str → Str → Run Str) (st : BSt) (c : Byte) (isLast : Bool) :
    Run (BSt ⊕ BSt) :=
  if ends c isLast then do
    let tmp ← rec (st.lines.flatMap (· ++ st.lineEnding)) st.lineEnding
    { st with
      rv := st.rv ++ b!"<blockquote>" ++ tmp ++ b!"</blockquote>" ++ st.lineEnding
      lines := [], pre := none, state := .startLine, start2 := st.current }.brk
  else { st with start2 := st.current, state := .blockquoteStart }.brk

/-- Lines 897-902 and 960-965. -/
def takePrefix (src : Str) (st : BSt) (c : Byte) (next : BState) : Run (BSt ⊕ BSt) :=
  if isSp c then st.brk
  else do
    let p ← dup src st.start st.current
    { st with pre := some p, state := next }.brk

/-- Lines 904-929. -/
def blockquoteStart (rec : Str → Str → Run Str) (src : Str) (st : BSt) (c : Byte) (isLast : Bool) :
    Run (BSt ⊕ BSt) :=
  if ends c isLast then
    match st.pre with
    | none => .ub
    | some p => do
      let stop := lineStop src st c isLast
      let tmp ← dup src st.start2 stop
      if startsWith tmp p then
        let st := { st with stop := stop, lines := st.lines ++ [tmp.drop p.length],
                            state := .blockquoteEnd }
        if isLast then blockquoteEnd rec st c isLast else st.brk
      else
        let st := { st with stop := stop, state := .paragraph, pre := none, lines := [] }
        if isLast then st.cont else st.brk
  else st.brk

/-- Lines 994-1018. -/
def codeEnd (st : BSt) (c : Byte) (isLast : Bool) : Run (BSt ⊕ BSt) :=
  if ends c isLast then
    { st with
      rv := st.rv ++ b!"<pre><code>" ++ join st.lineEnding (st.lines.map htmlentities) ++
        b!"</code></pre>" ++ st.lineEnding
      lines := [], pre := none, state := .startLine, start2 := st.current }.brk
  else { st with start2 := st.current, state := .codeStart }.brk

/-- Lines 967-992. -/
def codeStart (src : Str) (st : BSt) (c : Byte) (isLast : Bool) : Run (BSt ⊕ BSt) :=
  if ends c isLast then
    match st.pre with
    | none => .ub
    | some p => do
      let stop := lineStop src st c isLast
      let tmp ← dup src st.start2 stop
      if startsWith tmp p then
        let st := { st with stop := stop, lines := st.lines ++ [tmp.drop p.length], state := .codeEnd }
        if isLast then codeEnd st c isLast else st.brk
      else
        let st := { st with stop := stop, state := .paragraph, pre := none, lines := [] }
        if isLast then st.cont else st.brk
  else st.brk

/-- Lines 1020-1035. -/
def ulOrHrOrEm (src : Str) (st : BSt) (c : Byte) : Run (BSt ⊕ BSt) :=
  if st.current = st.start + 1 ∧ c = st.d then (st.goto .hrOrEm).brk
  else if st.current = st.start + 1 ∧ isSp c = false ∧ st.d = c!"*" then (st.goto .paragraph).brk
  else takePrefix src st c .ulStart

/-- Lines 1037-1047. -/
def hrOrEm (st : BSt) (c : Byte) (isLast : Bool) : Run (BSt ⊕ BSt) :=
  if c = st.d then
    if isLast then (st.goto .hr).cont else (st.goto .hr).brk
  else (st.goto .paragraph).brk

/-- Lines 1049-1061. -/
def hr (st : BSt) (c : Byte) (isLast : Bool) : Run (BSt ⊕ BSt) :=
  if c = st.d ∧ isLast = false then st.brk
  else if ends c isLast then
    { st with rv := st.rv ++ b!"<hr />" ++ st.lineEnding, state := .startLine, start := st.current,
              d := 0 }.brk
  else (st.goto .paragraph).brk

/-- Lines 1070-1086, 1118-1135, 1181-1197 and 1229-1246: the item collected in
`lines2`, if any, is parsed and moved to `lines`. -/
def flushItem (st : BSt) : Run BSt := do
  let l ← st.lines2.get
  if l = [] then pure st
  else
    let parsed ← parseInline (join st.lineEnding l)
    pure { st with lines2 := .live [], lines := st.lines ++ [parsed] }

/-- `lines2 = bc_slist_append(lines2, ...)`. -/
def addLine (st : BSt) (l : Str) : Run BSt := do
  let ls ← st.lines2.get
  pure { st with lines2 := .live (ls ++ [l]) }

/-- Lines 1116-1152 and 1227-1263. -/
def listEnd (tag : Str) (again : BState) (st : BSt) (c : Byte) (isLast : Bool) : Run (BSt ⊕ BSt) :=
  if ends c isLast then do
    let st ← flushItem st
    { st with
      rv := st.rv ++ b!"<" ++ tag ++ b!">" ++ st.lineEnding ++
        st.lines.flatMap (fun l => b!"<li>" ++ l ++ b!"</li>" ++ st.lineEnding) ++
        b!"</" ++ tag ++ b!">" ++ st.lineEnding
      lines := [], pre := none, state := .startLine, start2 := st.current }.brk
  else { st with start2 := st.current, state := again }.brk

/-- Lines 1092-1106 and 1203-1217: a line that does not belong to the list.
The list is dropped; `lines2` is released but not reset. -/
def listAbort (fx : Bool) (st : BSt) (keepPrefix : Bool) (isLast : Bool) : Run (BSt ⊕ BSt) := do
  let l ← st.lines2.giveUp fx
  let st := { st with state := .paragraphEnd, lines := [], lines2 := l,
                      pre := if keepPrefix then st.pre else none }
  if isLast then st.cont else st.brk

/-- Lines 1063-1114. -/
def ulStart (fx : Bool) (src : Str) (st : BSt) (c : Byte) (isLast : Bool) : Run (BSt ⊕ BSt) :=
  if ends c isLast then
    match st.pre with
    | none => .ub
    | some p => do
      let stop := lineStop src st c isLast
      let tmp ← dup src st.start2 stop
      let st := { st with stop := stop }
      if startsWith tmp p then
        let st ← flushItem st
        let st ← addLine st (tmp.drop p.length)
        let st := st.goto .ulEnd
        if isLast then listEnd b!"ul" .ulStart st c isLast else st.brk
      else if startsWith tmp (List.replicate p.length c!" ") then
        let st ← addLine st (tmp.drop p.length)
        let st := st.goto .ulEnd
        if isLast then listEnd b!"ul" .ulStart st c isLast else st.brk
      else listAbort fx st false isLast
  else st.brk

/-- Lines 1154-1164. -/
def ol (st : BSt) (c : Byte) (isLast : Bool) : Run (BSt ⊕ BSt) :=
  if isDig c then st.brk
  else if c = c!"." then (st.goto .olSpace).brk
  else if isLast then (st.goto .paragraph).cont else (st.goto .paragraph).brk

/-- Lines 1174-1225. -/
def olStart (fx : Bool) (src : Str) (st : BSt) (c : Byte) (isLast : Bool) : Run (BSt ⊕ BSt) :=
  if ends c isLast then do
    let stop := lineStop src st c isLast
    let tmp ← dup src st.start2 stop
    let st := { st with stop := stop }
    if isOrderedItem tmp st.prefixLen then
      let st ← flushItem st
      let st ← addLine st (tmp.drop st.prefixLen)
      let st := st.goto .olEnd
      if isLast then listEnd b!"ol" .olStart st c isLast else st.brk
    else if startsWith tmp (List.replicate st.prefixLen c!" ") then
      let st ← addLine st (tmp.drop st.prefixLen)
      let st := st.goto .olEnd
      if isLast then listEnd b!"ol" .olStart st c isLast else st.brk
    else listAbort fx st true isLast
  else st.brk

/-- Lines 1166-1172. -/
def olSpace (fx : Bool) (src : Str) (st : BSt) (c : Byte) (isLast : Bool) : Run (BSt ⊕ BSt) :=
  if isSp c then st.brk
  else
    let st := { st with prefixLen := st.current - st.start, state := .olStart }
    if isNl c = false ∧ isLast = false then st.brk else olStart fx src st c isLast

/-- Lines 1274-1291. -/
def paragraphEnd (src : Str) (w : Want) (st : BSt) (c : Byte) (isLast : Bool) : Run (BSt ⊕ BSt) :=
  if ends c isLast then do
    let tmp ← dup src st.start st.stop
    let parsed ← parseInline tmp
    { st with
      description := if w.description = true ∧ st.description = none then some (fixDescription tmp)
        else st.description
      rv := st.rv ++ b!"<p>" ++ parsed ++ b!"</p>" ++ st.lineEnding
      state := .startLine
      start := st.current }.brk
  else (st.goto .paragraph).brk

/-- Lines 1265-1272. -/
def paragraph (src : Str) (w : Want) (st : BSt) (c : Byte) (isLast : Bool) : Run (BSt ⊕ BSt) :=
  let st := if ends c isLast then
      { st with state := .paragraphEnd, stop := lineStop src st c isLast } else st
  if isLast then paragraphEnd src w st c isLast else st.brk

/-- The `switch` of lines 755-1293. -/
def dispatch (fx : Bool) (rec : Str → Str → Run Str) (src : Str) (w : Want) (st : BSt) (c : Byte)
    (isLast : Bool) : Run (BSt ⊕ BSt) :=
  match st.state with
  | .startLine => startLine w st c isLast
  | .excerpt => excerpt w st c
  | .excerptEnd => excerptEnd w st c
  | .header => header st c
  | .headerTitleStart => headerTitleStart src w st c isLast
  | .headerTitle => headerTitle src w st c isLast
  | .html => html src st c isLast
  | .htmlEnd => htmlEnd src st c isLast
  | .blockquote => takePrefix src st c .blockquoteStart
  | .blockquoteStart => blockquoteStart rec src st c isLast
  | .blockquoteEnd => blockquoteEnd rec st c isLast
  | .code => takePrefix src st c .codeStart
  | .codeStart => codeStart src st c isLast
  | .codeEnd => codeEnd st c isLast
  | .ulOrHrOrEm => ulOrHrOrEm src st c
  | .hrOrEm => hrOrEm st c isLast
  | .hr => hr st c isLast
  | .ulStart => ulStart fx src st c isLast
  | .ulEnd => listEnd b!"ul" .ulStart st c isLast
  | .ol => ol st c isLast
  | .olSpace => olSpace fx src st c isLast
  | .olStart => olStart fx src st c isLast
  | .olEnd => listEnd b!"ol" .olStart st c isLast
  | .paragraph => paragraph src w st c isLast
  | .paragraphEnd => paragraphEnd src w st c isLast

/-- Line 734. -/
def isPair (c c' : Byte) : Bool := (c == c!"\n" && c' == c!"\r") || (c == c!"\r" && c' == c!"\n")

/-- One iteration of the loop of lines 728-1296; lines 729-753 recognise line
endings of two characters. -/
def blockStep (fx : Bool) (rec : Str → Str → Run Str) (src : Str) (w : Want) (st : BSt) :
    Run (BSt ⊕ BSt) :=
  match src[st.current]? with
  | none => .ok (.inr st)                 -- `current >= src_len`
  | some c =>
    if isNl c then
      match src[st.current + 1]? with
      | some c' =>
        if isPair c c' then
          let st := { st with
            lineEnding := if st.lineEndingFound then st.lineEnding else [c, c']
            lineEndingFound := true
            realEnd := st.current
            current := st.current + 1 }
          dispatch fx rec src w st c' (st.current == src.length - 1)
        else
          let st := { st with
            lineEnding := if st.lineEndingFound then st.lineEnding else [c]
            lineEndingFound := true }
          dispatch fx rec src w st c false
      | none =>
        let st := { st with
          lineEnding := if st.lineEndingFound then st.lineEnding else [c]
          lineEndingFound := true }
        dispatch fx rec src w st c true
    else dispatch fx rec src w st c (st.current == src.length - 1)

/-- `blogc_content_parse`, lines 673-1303: the final values of the locals; at most
`depth` nested calls. A nested call gets the line ending (line 940). -/
def parseBlocks (fx : Bool) : (depth : Nat) → (src : Str) → Want → (endl : Option Str) → Run BSt
  | 0, _, _, _ => .out
  | d + 1, src, w, endl =>
    runL (blockStep fx (fun s e => do
        let r ← parseBlocks fx d s ⟨false, false, false, false⟩ (some e)
        pure r.rv) src w)
      (2 * src.length + 2) (BSt.init endl)

/-- The code as it is, called as in `blogc_source_parse` (src/blogc/source-parser.c:156-158):
`endl` is requested, `headers` sometimes. -/
def parse (depth : Nat) (src : Str) (headers : Bool) : Run BSt :=
  parseBlocks false depth src ⟨true, true, true, headers⟩ none

end Blogc.Content
