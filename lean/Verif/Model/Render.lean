import Verif.Model.Template
import Verif.Model.Trie
import Verif.Model.Numbers
import Verif.Model.DateTime
import Verif.Run

/-!
# Model of `src/blogc/renderer.c` and `src/blogc/funcvars.c`
-/

namespace Blogc.Render

open Blogc Blogc.Template

abbrev Table := Trie Str

/-- `blogc_get_variable`, src/blogc/renderer.c:17-29; the global table is never `NULL`
(src/blogc/main.c creates it). -/
def getVariable (name : Str) (global : Table) (loc : Option Table) : Option Str :=
  match loc with
  | none => global.lookup name
  | some l =>
    match l.lookup name with
    | some v => some v
    | none => global.lookup name

/-- What the system provides to the variables computed on demand. -/
structure Sys where
  /-- CPU time and memory, formatted, src/blogc/rusage.c:21-65 (Model/SysVars.lean). -/
  rusage : Option (Str × Str)
  hostname : Option Str
  datetime : Option Str
  username : Option Str
  insideDocker : Bool
  /-- `mktime` followed by `strftime` into 1024 bytes, src/blogc/datetime-parser.c:368-376. -/
  strftime : (format : Str) → DateTime.Tm → Option Str

/-- `blogc_rusage_inject` (src/blogc/rusage.c:68-81) and the functions
`blogc_sysinfo_inject_...` (src/blogc/sysinfo.c), chosen by name as in the table of
src/blogc/funcvars.c:14-35: what is inserted. -/
def injected (sys : Sys) (name : Str) : List (Str × Str) :=
  if name = b!"BLOGC_RUSAGE_CPU_TIME" ∨ name = b!"BLOGC_RUSAGE_MEMORY" then
    match sys.rusage with
    | some (cpu, mem) => [(b!"BLOGC_RUSAGE_CPU_TIME", cpu), (b!"BLOGC_RUSAGE_MEMORY", mem)]
    | none => []
  else if name = b!"BLOGC_SYSINFO_HOSTNAME" then sys.hostname.toList.map fun v => (name, v)
  else if name = b!"BLOGC_SYSINFO_DATETIME" then sys.datetime.toList.map fun v => (name, v)
  else if name = b!"BLOGC_SYSINFO_USERNAME" then sys.username.toList.map fun v => (name, v)
  else if name = b!"BLOGC_SYSINFO_INSIDE_DOCKER" then
    if sys.insideDocker then [(name, b!"1")] else []
  else []

/-- Insert several values. -/
def insertAll (t : Table) : List (Str × Str) → Table
  | [] => t
  | (k, v) :: rest => insertAll (t.insert k v).1 rest

/-- `blogc_funcvars_eval`, src/blogc/funcvars.c:38-57. -/
def funcvarsEval (sys : Sys) (global : Table) (name : Str) : Table :=
  match global.lookup name with
  | some _ => global
  | none => insertAll global (injected sys name)

/-- `blogc_format_date`, src/blogc/renderer.c:32-49, for a date that is not `NULL`. -/
def formatDate (sys : Sys) (date : Str) (global : Table) (loc : Option Table) : Str :=
  match getVariable b!"DATE_FORMAT" global loc with
  | none => date
  | some f =>
    match DateTime.parse date with
    | none => date
    | some tm => (sys.strftime f tm).getD date

/-- Lines 61-69 of `foreach_value_variable`. -/
def valueByte (c : Byte) : Byte :=
  if isDigit c || isUpper c then c
  else if isLower c then c - 32
  else c!"_"

/-- `foreach_value_variable`, src/blogc/renderer.c:52-73. -/
def foreachValueVariable (name item : Str) : Str := (name ++ b!"__" ++ item).map valueByte

/-- The item of the iterator, if one is running: its variable and the current item
(`foreach_name` and `foreach_var->data`). -/
structure Item where
  name : Option Str := none
  item : Option Str := none

/-- The value of `FOREACH_VALUE`, lines 93-99 and 138-145. -/
def foreachValue (global : Table) (loc : Option Table) (it : Item) : Option Str :=
  match it.name, it.item with
  | some n, some i => getVariable (foreachValueVariable n i) global loc
  | _, _ => none

/-- The loop of line 112, from index `i` down. -/
def walk (var : Str) : Nat → Nat
  | 0 => 0
  | i + 1 =>
    match var[i + 1]? with
    | some c => if isDigit c then walk var i else i + 1
    | none => i + 1

/-- Lines 106-125: the name without its size, and the size. The byte read at `last - 1` is
outside the name when the name is empty. (`strtol` reads only digits, so `endptr` is always at
the end and the warning of lines 117-121 is not given.) -/
def splitSize (var : Str) : Res (Str × Int) :=
  if var.length = 0 then .ub
  else
    let i := walk var (var.length - 1)
    if var[i]? = some c!"_" ∧ i + 1 < var.length then .ok (var.take i, (strtol (var.drop (i + 1))).1)
    else .ok (var, -1)

/-- Lines 127-132: the name without `_FORMATTED`, and whether it was there. -/
def splitFormatted (var : Str) : Str × Bool :=
  if endsWith var b!"_FORMATTED" then (var.take (var.length - 10), true) else (var, false)

/-- Lines 134-149: the value of the name, which may be computed on demand. -/
def baseValue (sys : Sys) (global : Table) (loc : Option Table) (it : Item) (var : Str) :
    Table × Option Str :=
  match it.item with
  | some i =>
    if var = b!"FOREACH_ITEM" then (global, some i)
    else if var = b!"FOREACH_VALUE" ∧ it.name.isSome then (global, foreachValue global loc it)
    else (funcvarsEval sys global var, getVariable var (funcvarsEval sys global var) loc)
  | none => (funcvarsEval sys global var, getVariable var (funcvarsEval sys global var) loc)

/-- Lines 156-178: format and shorten a value. -/
def dress (sys : Sys) (global : Table) (loc : Option Table) (name value : Str) (fmt : Bool)
    (len : Int) : Str :=
  let rv := if fmt && startsWith name b!"DATE_" then formatDate sys value global loc else value
  if len > 0 then rv.take len.toNat else rv

/-- Lines 104-180, for a variable that is not in the tables. -/
def derived (sys : Sys) (global : Table) (loc : Option Table) (it : Item) (name : Str) :
    Res (Table × Option Str) :=
  (splitSize name).bind fun (var, len) =>
    let (var, fmt) := splitFormatted var
    let (g, value) := baseValue sys global loc it var
    .ok (g, value.map fun v => dress sys g loc name v fmt len)

/-- `blogc_format_variable`, src/blogc/renderer.c:76-181: the global table, in which computed
variables are kept, and the value. -/
def formatVariable (sys : Sys) (global : Table) (loc : Option Table) (it : Item) (name : Str) :
    Res (Table × Option Str) :=
  match getVariable name global loc with
  | some v => .ok (global, some v)
  | none =>
    if name = b!"FOREACH_ITEM" then .ok (global, it.item)
    else if name = b!"FOREACH_VALUE" then .ok (global, foreachValue global loc it)
    else derived sys global loc it name

/-- `blogc_split_list_variable`, src/blogc/renderer.c:184-203. -/
def splitListVariable (name : Str) (global : Table) (loc : Option Table) : List Str :=
  match getVariable name global loc with
  | none => []
  | some v => (split v c!" " 0).filter fun w => w ≠ []

/-- `strcmp`: the bytes are compared as `unsigned char`. -/
def strcmp : Str → Str → Ordering
  | [], [] => .eq
  | [], _ :: _ => .lt
  | _ :: _, [] => .gt
  | a :: as, b :: bs => if a < b then .lt else if b < a then .gt else strcmp as bs

/-- Lines 387-394: whether a comparison holds. -/
def Op.holds (op : Op) : Ordering → Bool
  | .lt => op.neq || op.lt
  | .gt => op.neq || op.gt
  | .eq => op.eq

/-- How variables are evaluated. `G` is the global table, `L` the table of a source file. The
renderer uses variables only through this interface, which is instantiated by `evaluator`. -/
structure Evaluator (G L : Type) where
  value : G → Option L → Item → Str → Res (G × Option Str)
  list : G → Option L → Str → List Str

/-- The evaluation of variables in blogc. -/
def evaluator (sys : Sys) : Evaluator Table Table where
  value := formatVariable sys
  list g l name := splitListVariable name g l

/-- The arguments of `blogc_render` that do not change. -/
structure Ctx (L : Type) where
  sources : List L
  listing : Bool

/-- The locals of `blogc_render`, lines 213-237. `tmp` and the pointers into the template are
the rest of the list from there on. `currentSource` and `foreachVar` are the rest of their lists.
`if_not`, `evaluate` and `cmp` are only used within one round, `if_not` being false between. -/
structure St (G L : Type) where
  tmp : List Node
  out : Str := []
  currentSource : List L := []
  listingStart : Option (List Node) := none
  tmpSource : Option L := none
  ifCount : Nat := 0
  foreachName : Option Str := none
  foreachVar : List Str := []
  foreachVarStart : List Str := []
  foreachStart : Option (List Node) := none
  insideBlock : Bool := false
  validElse : Bool := false
  entries : List (Option L)
  global : G

variable {G L : Type}

/-- `while (node->type != ...) { tmp = tmp->next; node = tmp->data; }`, lines 256-259, 274-277,
290-293, 302-305, 314-317 and 502-505, followed by line 532: what comes after the node found. At
the end of the list `tmp->data` dereferences `NULL`. -/
def skipTo (k : NodeType) : List Node → Res (List Node)
  | [] => .ub
  | n :: rest => if n.type = k then .ok rest else skipTo k rest

/-- The loops of lines 410-438 (`stopElse`) and 455-474: the list from the node where they stop,
and `if_count`. -/
def skipIf (stopElse : Bool) : List Node → (count : Nat) → Res (List Node × Nat)
  | [], _ => .ub
  | n :: rest, count =>
    if n.type = .if_ ∨ n.type = .ifdef ∨ n.type = .ifndef then skipIf stopElse rest (count + 1)
    else if stopElse = true ∧ n.type = .else_ ∧ count = 0 then .ok (n :: rest, count)
    else if n.type = .endif then
      match count with
      | 0 => .ok (n :: rest, 0)
      | c + 1 => skipIf stopElse rest c
    else skipIf stopElse rest count

/-- The table of the current source, lines 331, 363 and 491. -/
def St.local (st : St G L) : Option L := if st.insideBlock then st.tmpSource else none

/-- `foreach_name` and `foreach_var`. -/
def St.item (st : St G L) : Item := ⟨st.foreachName, st.foreachVar.head?⟩

/-- The end of a round: `tmp = tmp->next`, line 532. -/
def next (st : St G L) (rest : List Node) : Run (St G L ⊕ Str) := .ok (.inl { st with tmp := rest })

/-- Skip the block, or the iterator. -/
def skip (k : NodeType) (st : St G L) (rest : List Node) : Run (St G L ⊕ Str) :=
  match skipTo k rest with
  | .ok after => next st after
  | .ub => .ub

/-- Lines 265-282: `listing_entry`. -/
def listingEntry (ctx : Ctx L) (st : St G L) (rest : List Node) : Run (St G L ⊕ Str) :=
  match st.entries with
  | [] => skip .endblock st rest
  | e :: es =>
    match e with
    | none => skip .endblock { st with entries := es } rest
    | some l =>
      if ctx.listing = false then skip .endblock { st with entries := es } rest
      else next { st with entries := es, currentSource := [], tmpSource := some l } rest

/-- Lines 309-325: `listing`. -/
def listingBlock (ctx : Ctx L) (st : St G L) (rest : List Node) : Run (St G L ⊕ Str) :=
  match ctx.sources with
  | [] => skip .endblock st rest
  | s :: ss =>
    match st.currentSource with
    | [] => next { st with
        listingStart := some st.tmp, currentSource := s :: ss, tmpSource := some s } rest
    | c :: _ => next { st with tmpSource := some c } rest

/-- Lines 251-325, for the block type `t`. -/
def blockOf (ctx : Ctx L) (st : St G L) (rest : List Node) (t : Str) : Run (St G L ⊕ Str) :=
  if t = b!"entry" then
    if ctx.listing then skip .endblock st rest
    else next { st with currentSource := ctx.sources, tmpSource := ctx.sources.head? } rest
  else if t = b!"listing_entry" then listingEntry ctx st rest
  else if t = b!"listing" ∨ t = b!"listing_empty" ∨ t = b!"listing_once" then
    if ctx.listing = false then skip .endblock st rest
    else if t = b!"listing_empty" then
      if ctx.sources.isEmpty then next st rest else skip .endblock st rest
    else if t = b!"listing" then listingBlock ctx st rest
    else next st rest
  else next st rest

/-- `case BLOGC_TEMPLATE_NODE_BLOCK`, lines 248-326. -/
def block (ctx : Ctx L) (st : St G L) (node : Node) (rest : List Node) : Run (St G L ⊕ Str) :=
  match node.data0 with
  | none => .ub
  | some t => blockOf ctx { st with insideBlock := true, ifCount := 0 } rest t

/-- `case BLOGC_TEMPLATE_NODE_ENDBLOCK`, lines 341-352. -/
def endblock (st : St G L) (rest : List Node) : Run (St G L ⊕ Str) :=
  match st.listingStart, st.currentSource with
  | some start, _ :: s :: ss =>
    .ok (.inl { st with insideBlock := false, currentSource := s :: ss, tmp := start })
  | some _, [_] => next { st with insideBlock := false, currentSource := [], listingStart := none } rest
  | _, _ => next { st with insideBlock := false } rest

/-- The value of a variable whose name may be `NULL`, lines 329-331, 361-363 and 370-382. -/
def valueOf (E : Evaluator G L) (st : St G L) (name : Option Str) : Res (G × Option Str) :=
  match name with
  | none => .ok (st.global, none)
  | some n => E.value st.global st.local st.item n

/-- `case BLOGC_TEMPLATE_NODE_VARIABLE`, lines 328-339. -/
def variableNode (E : Evaluator G L) (st : St G L) (node : Node) (rest : List Node) :
    Run (St G L ⊕ Str) :=
  match valueOf E st node.data0 with
  | .ub => .ub
  | .ok (g, v) => next { st with global := g, out := st.out ++ v.getD [] } rest

/-- Lines 371-373: the operand is a quoted string; then what is between the quotes. -/
def quoted (d : Str) : Option Str :=
  if d.length ≥ 2 ∧ d.head? = some c!"\"" ∧ d.getLast? = some c!"\"" then
    some ((d.drop 1).take (d.length - 2))
  else none

/-- Lines 369-383: the right-hand side. -/
def operand (E : Evaluator G L) (st : St G L) (d : Option Str) : Res (G × Option Str) :=
  match d with
  | none => .ok (st.global, none)
  | some d =>
    match quoted d with
    | some s => .ok (st.global, some s)
    | none => valueOf E st (some d)

/-- Lines 385-395. -/
def compared (op : Op) (a b : Option Str) : Bool :=
  match a, b with
  | some a, some b => Op.holds op (strcmp a b)
  | _, _ => false

/-- Lines 361-404: evaluate the condition. -/
def condition (E : Evaluator G L) (st : St G L) (node : Node) : Res (G × Bool) :=
  (valueOf E st node.data0).bind fun (g, a) =>
    if node.op = .none then .ok (g, if node.type = .ifndef then a.isNone else a.isSome)
    else (operand E { st with global := g } node.data1).bind fun (g, b) => .ok (g, compared node.op a b)

/-- Lines 405-442, after the condition: skip to the `else` or past the `endif`. (`else` is then
processed from the next round on, after line 532.) -/
def branch (st : St G L) (rest : List Node) (holds : Bool) : Run (St G L ⊕ Str) :=
  if holds then next { st with validElse := false } rest
  else
    match skipIf true rest 0 with
    | .ok (n :: after, count) =>
      if n.type = .else_ then next { st with validElse := true, ifCount := count } after
      else next { st with ifCount := count } after
    | _ => .ub

/-- `case BLOGC_TEMPLATE_NODE_IFNDEF`, `_IF` and `_IFDEF`, lines 354-446. -/
def ifNode (E : Evaluator G L) (st : St G L) (node : Node) (rest : List Node) : Run (St G L ⊕ Str) :=
  match condition E st node with
  | .ub => .ub
  | .ok (g, b) => branch { st with global := g, ifCount := 0 } rest b

/-- `case BLOGC_TEMPLATE_NODE_ELSE`, lines 448-477. -/
def elseNode (st : St G L) (rest : List Node) : Run (St G L ⊕ Str) :=
  if st.validElse then next { st with ifCount := 0, validElse := false } rest
  else
    match skipIf false rest 0 with
    | .ok (_ :: after, count) => next { st with ifCount := count, validElse := false } after
    | _ => .ub

/-- `case BLOGC_TEMPLATE_NODE_ENDIF`, lines 479-485. -/
def endifNode (st : St G L) (rest : List Node) : Run (St G L ⊕ Str) :=
  next { st with validElse := false, ifCount := st.ifCount - 1 } rest

/-- Lines 489-491. -/
def listOf (E : Evaluator G L) (st : St G L) (name : Option Str) : List Str :=
  match name with
  | none => []
  | some n => E.list st.global st.local n

/-- `case BLOGC_TEMPLATE_NODE_FOREACH`, lines 487-515. -/
def foreachNode (E : Evaluator G L) (st : St G L) (node : Node) (rest : List Node) :
    Run (St G L ⊕ Str) :=
  match st.foreachVarStart with
  | [] =>
    match listOf E st node.data0 with
    | [] => skip .endforeach st rest
    | i :: is => next { st with
        foreachVarStart := i :: is, foreachName := node.data0, foreachVar := i :: is
        foreachStart := some st.tmp } rest
  | i :: is =>
    match st.foreachVar with
    | [] => next { st with
        foreachStart := some st.tmp, foreachName := node.data0, foreachVar := i :: is } rest
    | _ :: _ => next st rest

/-- Lines 525-529: the list is released. It is undefined if `foreach_var` still points into it
(in C, only when it is used afterwards). -/
def endForeach (st : St G L) (rest : List Node) : Run (St G L ⊕ Str) :=
  match st.foreachVar with
  | [] => next { st with foreachStart := none, foreachVarStart := [], foreachName := none } rest
  | _ :: _ =>
    match st.foreachVarStart with
    | [] => next { st with foreachStart := none, foreachName := none } rest
    | _ :: _ => .ub

/-- `case BLOGC_TEMPLATE_NODE_ENDFOREACH`, lines 517-530. -/
def endforeachNode (st : St G L) (rest : List Node) : Run (St G L ⊕ Str) :=
  match st.foreachStart, st.foreachVar with
  | some start, _ :: i :: is => .ok (.inl { st with foreachVar := i :: is, tmp := start })
  | some _, [_] => endForeach { st with foreachVar := [] } rest
  | _, _ => endForeach st rest

/-- `case BLOGC_TEMPLATE_NODE_CONTENT`, lines 243-246. -/
def contentNode (st : St G L) (node : Node) (rest : List Node) : Run (St G L ⊕ Str) :=
  next { st with out := st.out ++ node.data0.getD [] } rest

/-- One round of the loop, lines 238-533. -/
def step (E : Evaluator G L) (ctx : Ctx L) (st : St G L) : Run (St G L ⊕ Str) :=
  match st.tmp with
  | [] => .ok (.inr st.out)
  | node :: rest =>
    match node.type with
    | .content => contentNode st node rest
    | .block => block ctx st node rest
    | .variable => variableNode E st node rest
    | .endblock => endblock st rest
    | .ifdef | .ifndef | .if_ => ifNode E st node rest
    | .else_ => elseNode st rest
    | .endif => endifNode st rest
    | .foreach => foreachNode E st node rest
    | .endforeach => endforeachNode st rest

/-- `blogc_render`, src/blogc/renderer.c:206-539, for a template that is not `NULL`; for `NULL`
nothing is output (src/blogc/main.c:366-367), which is the same as an empty text. -/
def render (E : Evaluator G L) (fuel : Nat) (tmpl : List Node) (ctx : Ctx L)
    (entries : List (Option L)) (global : G) : Run Str :=
  runL (step E ctx) fuel { tmp := tmpl, entries := entries, global := global }

end Blogc.Render
