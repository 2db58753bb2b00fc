import Verif.Model.Render

/-!
# What reading a template and rendering a page allocate

The allocations of src/blogc/template-parser.c, of src/blogc/renderer.c, and of lines 340-375 of src/blogc/main.c, as
sequences of events. Model/Template.lean and Model/Render.lean say what is computed; here each round of their loops says what
it takes from the heap, looks at, and gives back. Left out: what is inside one allocation of the library functions (the
temporaries of `bc_error_parser`, the buffer of a `bc_string_t` apart from its header, the entries of tables), the tables of
variables, which belong to the caller, and the variables computed on demand (src/blogc/funcvars.c), which are kept in such a
table.
-/

namespace Blogc.TmplMem

open Blogc Blogc.Template

/-- What is allocated. Nodes are numbered as they stand in the template, words as they stand in the list. -/
inductive Thing where
  | node (k : Nat)            -- `node`, template-parser.c:92, 123 and 613
  | first (k : Nat)           -- `node->data[0]`, template-parser.c:96, 102, 127, 133 and 619
  | second (k : Nat)          -- `node->data[1]`, template-parser.c:621
  | link (k : Nat)            -- the element of the list, template-parser.c:106, 137 and 627
  | copy                      -- `tmp`, template-parser.c:95 and 126
  | error                     -- `*err`
  | text                      -- `str`, renderer.c:216
  | page                      -- what `blogc_render` returns, renderer.c:538
  | pieces                    -- `tmp`, renderer.c:193
  | word (k : Nat)            -- the words of `tmp` that are not empty
  | blank (k : Nat)           -- the empty words of `tmp`
  | wordLink (k : Nat)        -- the elements of `foreach_var_start`, renderer.c:196
  | name                      -- `foreach_name`, renderer.c:494 and 512
  | value                     -- `config_value`, renderer.c:330
  | defined                   -- `defined`, renderer.c:362
  | defined2                  -- `defined2`, renderer.c:375 and 379
  | var                       -- `var`, renderer.c:104
  | valueVar                  -- `value_var`, renderer.c:94 and 140
  | formatted                 -- `rv`, renderer.c:160, 165 and 169, when it is shortened
  | dateError                 -- `err`, renderer.c:41-42
  deriving DecidableEq, Repr

/-- What happens to it. -/
inductive Event where
  | acquire (x : Thing)
  | use (x : Thing)
  | release (x : Thing)
  deriving DecidableEq, Repr

open Event Thing

/-- `bc_slist_append`, src/common/utils.c:43-58, to a list of `k` elements. -/
def appendEvents (k : Nat) : List Event := acquire (link k) :: (List.range k).map fun i => use (link i)

/-- Lines 92-108 and 123-139. -/
def contentEvents (st : Template.St) : List Event :=
  [acquire (node st.ast.length)] ++
    (if st.lstripNext then [acquire copy, acquire (first st.ast.length), release copy]
      else [acquire (first st.ast.length)]) ++
    appendEvents st.ast.length

/-- Lines 148-152. -/
def trimEvents (st : Template.St) : List Event :=
  match st.ast with
  | [] => []
  | n :: ns =>
    use (node ns.length) :: if n.type = .content then (if n.data0.isSome then [use (first ns.length)] else []) else []

/-- Lines 613-629. -/
def nodeEvents (st : Template.St) : List Event :=
  [acquire (node st.ast.length)] ++
    (if st.stop > st.start then [acquire (first st.ast.length)] else []) ++
    (if st.end2 > st.start2 then [acquire (second st.ast.length)] else []) ++
    appendEvents st.ast.length

/-- The cases of the `switch` of lines 88-640, when no error is found. -/
def readEvents (src : Str) (cur : Nat) (st : Template.St) (c : Byte) : List Event :=
  match st.state with
  | .start => if cur + 1 = src.length then contentEvents st else []
  | .openBracket => if (c = c!"%" ∨ c = c!"{") ∧ st.start < st.stop then contentEvents st else []
  | .blockStartCleaner => if c = c!"-" then trimEvents st else []
  | .closeBracket => nodeEvents st
  | _ => []

/-- The number of the last `block` node and whether it has data: `block_type`, line 626, which is a reference into the
node. The last node is the first of the list. -/
def blockNode : List Node → Option Nat
  | [] => none
  | n :: ns => if n.type = .block then (if n.data0.isSome then some ns.length else none) else blockNode ns

/-- The messages of lines 202-205 and 209-211 name the block; then `*err` is made. -/
def errorEvents (st : Template.St) : Err → List Event
  | .ifsNotClosedInBlock | .foreachNotClosedInBlock =>
    ((blockNode st.ast).toList.map fun k => use (first k)) ++ [acquire error]
  | _ => [acquire error]

/-- The loop of `blogc_template_free_ast`, lines 680-687, from node `k` on. -/
def freeNodes (k : Nat) : List Node → List Event
  | [] => []
  | n :: ns =>
    [use (link k), use (node k)] ++ (if n.data0.isSome then [release (first k)] else []) ++
      (if n.data1.isSome then [release (second k)] else []) ++ [release (node k)] ++ freeNodes (k + 1) ns

/-- `blogc_template_free_ast`, lines 677-689, with `bc_slist_free`, src/common/utils.c:88-105. -/
def freeAst (ns : List Node) : List Event :=
  freeNodes 0 ns ++ (List.range ns.length).flatMap fun k => [use (link k), release (link k)]

/-- Lines 84-673, from `current` on. (`node` is `NULL` whenever an error is found, so lines 665-668 do nothing.) -/
def loopEvents (src : Str) : Str → (current : Nat) → Template.St → List Event
  | [], _, st =>
    match finish st with
    | .error e => errorEvents st e ++ freeAst st.ast.reverse
    | .ok _ => []
  | c :: rest, cur, st =>
    match step src cur st c with
    | .ok (.ok st') => readEvents src cur st c ++ loopEvents src rest (cur + 1) st'
    | .ok (.error e) => errorEvents st e ++ freeAst st.ast.reverse
    | .ub => []

/-- `blogc_template_parse`, src/blogc/template-parser.c:39-674. -/
def parseEvents (src : Str) : List Event := loopEvents src src 0 {}

open Blogc.Render

/-- The value of `FOREACH_VALUE`, renderer.c:93-97 and 139-143; `p` is the number of the current word. -/
def foreachValueEvents (it : Item) (p : Nat) : List Event :=
  match it.name, it.item with
  | some _, some _ => [use (wordLink p), use name, use (word p), acquire valueVar, use valueVar, release valueVar]
  | _, _ => []

/-- The current word, renderer.c:87-88 and 135-136. -/
def foreachItemEvents (it : Item) (p : Nat) : List Event :=
  match it.item with
  | some _ => [use (wordLink p), use (word p)]
  | none => []

/-- `blogc_format_date`, renderer.c:32-49: the result is `formatted`. -/
def dateEvents (sys : Sys) (date : Str) (global : Table) (loc : Option Table) : List Event :=
  match getVariable b!"DATE_FORMAT" global loc with
  | none => [acquire formatted]
  | some f =>
    match (DateTime.parse date).bind (sys.strftime f) with
    | none => [acquire dateError, use dateError, release dateError, acquire formatted]
    | some _ => [acquire formatted]

/-- Lines 134-149. -/
def baseEvents (it : Item) (p : Nat) (v : Str) : List Event :=
  if v = b!"FOREACH_ITEM" then foreachItemEvents it p
  else if v = b!"FOREACH_VALUE" then foreachValueEvents it p
  else []

/-- Lines 156-180: the result is `x`. -/
def dressEvents (sys : Sys) (global : Table) (loc : Option Table) (n v : Str) (fmt : Bool) (len : Int) (x : Thing) :
    List Event :=
  (if fmt && startsWith n b!"DATE_" then dateEvents sys v global loc
    else if fmt then [use var, acquire formatted] else [acquire formatted]) ++
  [release var] ++
  (if len > 0 then [use formatted, acquire x, release formatted] else [release formatted, acquire x])

/-- Lines 104-180: the result is `x`. When it is not shortened, `rv` is returned itself: it is listed as released and acquired
under its new name. -/
def derivedEvents (sys : Sys) (global : Table) (loc : Option Table) (it : Item) (p : Nat) (n : Str) (x : Thing) :
    List Event :=
  match splitSize n with
  | .ub => []
  | .ok (v, len) =>
    [acquire var, use var] ++ baseEvents it p (splitFormatted v).1 ++
      match (baseValue sys global loc it (splitFormatted v).1).2 with
      | none => [release var]
      | some w =>
        dressEvents sys (baseValue sys global loc it (splitFormatted v).1).1 loc n w (splitFormatted v).2 len x

/-- `blogc_format_variable`, renderer.c:76-181: the result is `x`. -/
def formatEvents (sys : Sys) (global : Table) (loc : Option Table) (it : Item) (p : Nat) (n : Str) (x : Thing) :
    List Event :=
  match getVariable n global loc with
  | some _ => [acquire x]
  | none =>
    if n = b!"FOREACH_ITEM" then foreachItemEvents it p ++ (if it.item.isSome then [acquire x] else [])
    else if n = b!"FOREACH_VALUE" then
      foreachValueEvents it p ++ (if (foreachValue global loc it).isSome then [acquire x] else [])
    else derivedEvents sys global loc it p n x

/-- `bc_str_split`, renderer.c:193: all words, `i` not empty ones and `j` empty ones being there already. -/
def wordsMade : (i j : Nat) → List Str → List Event
  | _, _, [] => []
  | i, j, w :: ws => if w ≠ [] then acquire (word i) :: wordsMade (i + 1) j ws
    else acquire (blank j) :: wordsMade i (j + 1) ws

/-- The loop of lines 194-199. -/
def wordsKept : (i j : Nat) → List Str → List Event
  | _, _, [] => []
  | i, j, w :: ws =>
    if w ≠ [] then [use pieces, use (word i), acquire (wordLink i)] ++ wordsKept (i + 1) j ws
    else [use pieces, use (blank j), release (blank j)] ++ wordsKept i (j + 1) ws

/-- `blogc_split_list_variable`, renderer.c:184-203. -/
def splitEvents (n : Str) (global : Table) (loc : Option Table) : List Event :=
  match getVariable n global loc with
  | none => []
  | some v =>
    [acquire pieces] ++ wordsMade 0 0 (split v c!" " 0) ++ wordsKept 0 0 (split v c!" " 0) ++ [release pieces]

/-- `bc_slist_free_full(foreach_var_start, free)`, renderer.c:526. -/
def freeWords (n : Nat) : List Event :=
  (List.range n).flatMap fun k => [use (wordLink k), release (word k), release (wordLink k)]

/-- The number of the current word. -/
def wordNumber (st : Render.St Table Table) : Nat := st.foreachVarStart.length - st.foreachVar.length

/-- The value of a variable whose name may be `NULL`. -/
def valueEvents (sys : Sys) (st : Render.St Table Table) (n : Option Str) (x : Thing) : List Event :=
  match n with
  | none => []
  | some n => formatEvents sys st.global st.local st.item (wordNumber st) n x

/-- The value `x` is released if there is one. -/
def freeIf (v : Option Str) (x : Thing) : List Event := if v.isSome then [release x] else []

/-- What is looked at of node `i`: `node->data[0]`, if it is there. -/
def firstEvents (node : Node) (i : Nat) : List Event := if node.data0.isSome then [use (first i)] else []

/-- `case BLOGC_TEMPLATE_NODE_VARIABLE`, lines 328-339. -/
def variableEvents (sys : Sys) (st : Render.St Table Table) (node : Node) (i : Nat) : List Event :=
  firstEvents node i ++ valueEvents sys st node.data0 value ++
    match valueOf (evaluator sys) st node.data0 with
    | .ok (_, some _) => [use text, use value, release value]
    | _ => []

/-- Lines 369-383: the right-hand side. -/
def operandEvents (sys : Sys) (st : Render.St Table Table) (d : Option Str) (i : Nat) : List Event :=
  match d with
  | none => []
  | some d =>
    use (second i) :: match quoted d with
      | some _ => [acquire defined2]
      | none => valueEvents sys st (some d) defined2

/-- Lines 385-397: the two values are compared and the second is released. -/
def compareEvents (a b : Option Str) : List Event :=
  (if a.isSome && b.isSome then [use defined, use defined2] else []) ++ freeIf b defined2

/-- Lines 365-398. -/
def rightEvents (sys : Sys) (st : Render.St Table Table) (node : Node) (i : Nat) (a : Option Str) : List Event :=
  if node.op = .none then []
  else operandEvents sys st node.data1 i ++
    match operand (evaluator sys) st node.data1 with
    | .ok (_, b) => compareEvents a b
    | .ub => []

/-- `case BLOGC_TEMPLATE_NODE_IFNDEF`, `_IF` and `_IFDEF`, lines 354-446. -/
def ifEvents (sys : Sys) (st : Render.St Table Table) (node : Node) (i : Nat) : List Event :=
  firstEvents node i ++ valueEvents sys st node.data0 defined ++
    match valueOf (evaluator sys) st node.data0 with
    | .ok (g, a) => rightEvents sys { st with global := g } node i a ++ freeIf a defined
    | .ub => []

/-- `case BLOGC_TEMPLATE_NODE_FOREACH`, lines 487-515. -/
def foreachEvents (sys : Sys) (st : Render.St Table Table) (node : Node) (i : Nat) : List Event :=
  match st.foreachVarStart, node.data0 with
  | [], none => []
  | [], some n =>
    [use (first i)] ++ splitEvents n st.global st.local ++
      (if listOf (evaluator sys) st (some n) = [] then [] else [use (first i), acquire name])
  | _ :: _, d =>
    if st.foreachVar = [] then (if d.isSome then [use (first i), acquire name] else []) else []

/-- Lines 525-529. -/
def endedEvents (st : Render.St Table Table) : List Event :=
  freeWords st.foreachVarStart.length ++ freeIf st.foreachName name

/-- `case BLOGC_TEMPLATE_NODE_ENDFOREACH`, lines 517-530. -/
def endforeachEvents (st : Render.St Table Table) : List Event :=
  match st.foreachStart, st.foreachVar with
  | some _, _ :: _ :: _ => [use (wordLink (wordNumber st))]
  | some _, [_] => use (wordLink (wordNumber st)) :: endedEvents st
  | _, _ => endedEvents st

/-- The nodes that are passed, from number `i` to before number `j`, and at least number `i`. -/
def visited (i j : Nat) : List Event :=
  (List.range (max 1 (j - i))).flatMap fun k => [use (link (i + k)), use (node (i + k))]

/-- The cases of the `switch` of lines 241-531, for node `i`. -/
def caseEvents (sys : Sys) (st : Render.St Table Table) (node : Node) (i : Nat) : List Event :=
  match node.type with
  | .content => if node.data0.isSome then [use (first i), use text] else []
  | .block => firstEvents node i
  | .variable => variableEvents sys st node i
  | .endblock => []
  | .ifdef | .ifndef | .if_ => ifEvents sys st node i
  | .else_ => []
  | .endif => []
  | .foreach => foreachEvents sys st node i
  | .endforeach => endforeachEvents st

/-- The loop of lines 238-533 and line 538, for a template of `n` nodes. The rounds are those of `Render.step`. -/
def roundsEvents (sys : Sys) (ctx : Ctx Table) (n : Nat) : Nat → Render.St Table Table → List Event
  | 0, _ => []
  | fuel + 1, st =>
    match st.tmp with
    | [] => [use text, release text, acquire page]
    | nd :: _ =>
      match Render.step (evaluator sys) ctx st with
      | .ok (.inl st') =>
        visited (n - st.tmp.length) (n - st'.tmp.length) ++ caseEvents sys st nd (n - st.tmp.length) ++
          roundsEvents sys ctx n fuel st'
      | _ => []

/-- `blogc_render`, renderer.c:206-539. -/
def renderEvents (sys : Sys) (fuel : Nat) (tmpl : List Node) (ctx : Ctx Table) (entries : List (Option Table))
    (global : Table) : List Event :=
  if tmpl = [] then []
  else acquire text :: roundsEvents sys ctx tmpl.length fuel { tmp := tmpl, entries := entries, global := global }

/-- What becomes of the template and the page: src/blogc/main.c:340-375 and line 378. The text of the template is `src`; the
page is written in lines 366-367. -/
def runEvents (sys : Sys) (fuel : Nat) (src : Str) (ctx : Ctx Table) (entries : List (Option Table)) (global : Table) :
    List Event :=
  parseEvents src ++
    match parse src with
    | .ok (.ok ns) =>
      renderEvents sys fuel ns ctx entries global ++ (if ns = [] then [] else [use page, release page]) ++ freeAst ns
    | .ok (.error _) => [use error, release error]
    | .ub => []

end Blogc.TmplMem
