import Verif.Model.Numbers

/-!
# Model of `src/blogc/template-parser.c`
-/

namespace Blogc.Template

open Blogc

/-- `blogc_template_node_type_t`, src/blogc/template-parser.h:17-29. -/
inductive NodeType where
  | ifdef | ifndef | if_ | else_ | endif | foreach | endforeach | block | endblock | variable
  | content
  deriving DecidableEq, Repr

/-- `blogc_template_operator_t`, src/blogc/template-parser.h:31-36: the set of the four bits. -/
structure Op where
  neq : Bool := false
  eq : Bool := false
  lt : Bool := false
  gt : Bool := false
  deriving DecidableEq, Repr

/-- `op == 0`: no operator. -/
def Op.none : Op := {}

/-- `blogc_template_node_t`, src/blogc/template-parser.h:38-46 (`childs` is not used). -/
structure Node where
  type : NodeType
  op : Op := .none
  data0 : Option Str := none
  data1 : Option Str := none
  deriving DecidableEq, Repr

/-- `blogc_template_parser_state_t`, src/blogc/template-parser.c:13-36. -/
inductive State where
  | start | openBracket | blockStart | blockStartCleaner | blockType | blockBlockTypeStart
  | blockBlockType | ifStart | ifVariable | ifOperatorStart | ifOperator | ifOperandStart
  | ifStringOperand | ifVariableOperand | foreachStart | foreachVariable | blockEndCleaner
  | blockEnd | variableStart | variable | variableEnd | closeBracket
  deriving DecidableEq, Repr

/-- The errors. -/
inductive Err where
  | duplicatedCleanerBefore     -- lines 166-172
  | statementStart              -- lines 173-176
  | nestedBlocks                -- lines 193-195
  | ifsNotClosedInBlock         -- lines 201-207
  | foreachNotClosedInBlock     -- lines 208-213
  | endblockWithoutBlock        -- lines 219-222
  | moreThanOneElse             -- lines 266-270
  | elseWithoutIf               -- lines 272-276
  | endifWithoutIf              -- lines 290-294
  | nestedForeach               -- lines 306-309
  | endforeachWithoutForeach    -- lines 322-326
  | statementType               -- lines 329-334
  | blockSyntax                 -- lines 344-347
  | blockType                   -- lines 394-398
  | variableStart               -- lines 408-411 and 545-548
  | variableName                -- lines 424-428 and 563-567
  | operand                     -- lines 457-463
  | foreachStart                -- lines 489-493
  | foreachName                 -- lines 503-507
  | duplicatedCleanerAfter      -- lines 524-530
  | statementEnd                -- lines 531-534
  | variableEnd                 -- lines 576-579
  | operator                    -- lines 601-609
  | closeBracket                -- lines 635-638
  | openString                  -- lines 649-651
  | ifsNotClosed                -- lines 652-655
  | blockNotClosed              -- lines 656-658
  | foreachNotClosed            -- lines 659-661
  deriving DecidableEq, Repr

/-- The locals that count open statements, lines 55-59 and 82. -/
structure Br where
  ifCount : Nat := 0
  blockIfCount : Nat := 0
  elseOpen : Bool := false
  foreachOpen : Bool := false
  blockForeachOpen : Bool := false
  blockOpen : Bool := false
  deriving DecidableEq, Repr

/-- The other locals, lines 45-82; `current` is kept by the loop. `ast` has the last node
first. `previous` is always the last node of `ast`. `tmp_op` is only used within one step. -/
structure St where
  start : Nat := 0
  stop : Nat := 0            -- `end`
  opStart : Nat := 0
  opEnd : Nat := 0
  start2 : Nat := 0
  end2 : Nat := 0
  br : Br := {}
  ast : List Node := []
  lstripNext : Bool := false
  state : State := .start
  type : NodeType := .content
  deriving DecidableEq, Repr

/-- `bc_strndup(src + a, b - a)` within the text. -/
def dup (src : Str) (a b : Nat) : Res Str :=
  if a ≤ b ∧ b ≤ src.length then .ok (cstr (slice src a b)) else .ub

deriving instance DecidableEq for Except

/-- The outcome of one round of the loop: an error stops it (lines 642-643). -/
abbrev Step := Res (Except Err St)

/-- The loop goes on. -/
def go (st : St) : Step := .ok (.ok st)

/-- `*err` is set. -/
def fail (e : Err) : Step := .ok (.error e)

/-- `c >= 'a' && c <= 'z'`. -/
def isLower (c : Byte) : Bool := c!"a" ≤ c && c ≤ c!"z"

/-- `c >= 'A' && c <= 'Z'`. -/
def isUpper (c : Byte) : Bool := c!"A" ≤ c && c ≤ c!"Z"

/-- The characters of variable names, lines 414, 475, 496 and 551. -/
def isName (c : Byte) : Bool := isUpper c || (c!"0" ≤ c && c ≤ c!"9") || c == c!"_"

/-- Lines 92-108 and 123-139: a content node with the text from `start` to `stop`. -/
def addContent (src : Str) (st : St) (stop : Nat) : Res St :=
  (dup src st.start stop).bind fun text => .ok { st with
    ast := { type := st.type, data0 := some (if st.lstripNext then lstrip text else text) } :: st.ast
    lstripNext := false }

/-- `addContent` if `b`. -/
def addContentIf (b : Bool) (src : Str) (st : St) (stop : Nat) : Res St :=
  if b then addContent src st stop else .ok st

/-- Lines 110-113. -/
def startNext (cur : Nat) (c : Byte) (st : St) : Step :=
  if c = c!"{" then go { st with stop := cur, state := .openBracket } else go st

/-- `case TEMPLATE_START`, lines 90-114; `last` is `current == src_len - 1`. -/
def start (src : Str) (cur : Nat) (st : St) (c : Byte) (last : Bool) : Step :=
  (addContentIf last src st src.length).bind (startNext cur c)

/-- `case TEMPLATE_OPEN_BRACKET`, lines 116-144. -/
def openBracket (src : Str) (st : St) (c : Byte) : Step :=
  if c = c!"%" then
    (addContentIf (st.start < st.stop) src { st with state := .blockStartCleaner } st.stop).bind go
  else if c = c!"{" then
    (addContentIf (st.start < st.stop) src { st with state := .variableStart } st.stop).bind go
  else go { st with state := .start }

/-- `case TEMPLATE_BLOCK_START`, lines 158-176. -/
def blockStart (cur : Nat) (st : St) (c : Byte) : Step :=
  if isSpace c then go st
  else if isLower c then go { st with state := .blockType, start := cur }
  else if c = c!"-" then fail .duplicatedCleanerBefore
  else fail .statementStart

/-- Lines 148-152: the text before the statement, if it directly precedes it, is trimmed. -/
def trimPrevious : List Node → List Node
  | [] => []
  | n :: ns => if n.type = .content then { n with data0 := n.data0.map rstrip } :: ns else n :: ns

/-- `case TEMPLATE_BLOCK_START_WHITESPACE_CLEANER`, lines 146-156, which goes on into the next case. -/
def blockStartCleaner (cur : Nat) (st : St) (c : Byte) : Step :=
  if c = c!"-" then go { st with ast := trimPrevious st.ast, state := .blockStart }
  else blockStart cur { st with state := .blockStart } c

/-- The statements, lines 182-183, 197-198, 224-225, 234-235, 244-245, 254-255, 278-279, 296-297
and 311-312. (The comparisons with `strncmp` and the length are equality of the word read.) -/
def keyword (word : Str) : Option NodeType :=
  if word = b!"block" then some .block
  else if word = b!"endblock" then some .endblock
  else if word = b!"ifdef" then some .ifdef
  else if word = b!"ifndef" then some .ifndef
  else if word = b!"if" then some .if_
  else if word = b!"else" then some .else_
  else if word = b!"endif" then some .endif
  else if word = b!"foreach" then some .foreach
  else if word = b!"endforeach" then some .endforeach
  else none

/-- Lines 227-232, 237-242 and 247-252: a conditional begins. -/
def openIf (cur : Nat) (st : St) (k : NodeType) : Step :=
  go { st with
    state := .ifStart, type := k, start := cur
    br := { st.br with ifCount := st.br.ifCount + 1, elseOpen := false } }

/-- Lines 257-258 and 281-282: a conditional is open in the current block. -/
def Br.ifOpen (br : Br) : Prop :=
  (br.blockOpen = true ∧ br.ifCount > br.blockIfCount) ∨ (br.blockOpen = false ∧ br.ifCount > 0)

instance (br : Br) : Decidable br.ifOpen := inferInstanceAs (Decidable (_ ∨ _))

/-- Lines 314-315: an iterator is open in the current block. -/
def Br.foreachIn (br : Br) : Prop :=
  (br.blockOpen = true ∧ br.blockForeachOpen = false ∧ br.foreachOpen = true) ∨
    (br.blockOpen = false ∧ br.foreachOpen = true)

instance (br : Br) : Decidable br.foreachIn := inferInstanceAs (Decidable (_ ∨ _))

/-- Lines 185-195, 200-222, 227-232, 237-242, 247-252, 257-276, 281-294, 299-309 and 314-326: what
each statement does. -/
def statementOf (cur : Nat) (st : St) : NodeType → Step
  | .block =>
    if st.br.blockOpen = false then
      go { st with
        state := .blockBlockTypeStart, type := .block, start := cur
        br := { st.br with blockIfCount := st.br.ifCount, blockForeachOpen := st.br.foreachOpen } }
    else fail .nestedBlocks
  | .endblock =>
    if st.br.blockOpen = true then
      if st.br.ifCount ≠ st.br.blockIfCount then fail .ifsNotClosedInBlock
      else if st.br.blockForeachOpen = false ∧ st.br.foreachOpen = true then
        fail .foreachNotClosedInBlock
      else go { st with
        state := .blockEndCleaner, type := .endblock
        br := { st.br with blockOpen := false } }
    else fail .endblockWithoutBlock
  | .ifdef => openIf cur st .ifdef
  | .ifndef => openIf cur st .ifndef
  | .if_ => openIf cur st .if_
  | .else_ =>
    if st.br.ifOpen then
      if st.br.elseOpen = false then
        go { st with
          state := .blockEndCleaner, type := .else_
          br := { st.br with elseOpen := true } }
      else fail .moreThanOneElse
    else fail .elseWithoutIf
  | .endif =>
    if st.br.ifOpen then
      go { st with
        state := .blockEndCleaner, type := .endif
        br := { st.br with ifCount := st.br.ifCount - 1, elseOpen := false } }
    else fail .endifWithoutIf
  | .foreach =>
    if st.br.foreachOpen = false then
      go { st with
        state := .foreachStart, type := .foreach, start := cur
        br := { st.br with foreachOpen := true } }
    else fail .nestedForeach
  | .endforeach =>
    if st.br.foreachIn then
      go { st with
        state := .blockEndCleaner, type := .endforeach
        br := { st.br with foreachOpen := false } }
    else fail .endforeachWithoutForeach
  | .variable | .content => fail .statementType

/-- Lines 182-334: the statement `word` has been read. -/
def statement (cur : Nat) (st : St) (word : Str) : Step :=
  match keyword word with
  | some k => statementOf cur st k
  | none => fail .statementType

/-- `case TEMPLATE_BLOCK_TYPE`, lines 178-334. (The word read has only lowercase letters.) -/
def blockType (src : Str) (cur : Nat) (st : St) (c : Byte) : Step :=
  if isLower c then go st
  else if isSpace c then (dup src st.start cur).bind (statement cur st)
  else fail .statementType

/-- `case TEMPLATE_BLOCK_BLOCK_TYPE_START`, lines 336-347. -/
def blockBlockTypeStart (cur : Nat) (st : St) (c : Byte) : Step :=
  if isSpace c then go st
  else if isLower c then go { st with state := .blockBlockType, start := cur }
  else fail .blockSyntax

/-- The block types, lines 353-392. -/
def blockTypes : List Str :=
  [b!"entry", b!"listing", b!"listing_once", b!"listing_empty", b!"listing_entry"]

/-- Lines 353-398: the block type `word` has been read. -/
def blockOf (cur : Nat) (st : St) (word : Str) : Step :=
  if word ∈ blockTypes then
    go { st with stop := cur, state := .blockEndCleaner, br := { st.br with blockOpen := true } }
  else fail .blockType

/-- `case TEMPLATE_BLOCK_BLOCK_TYPE`, lines 349-398. -/
def blockBlockType (src : Str) (cur : Nat) (st : St) (c : Byte) : Step :=
  if isLower c || c == c!"_" then go st
  else if isSpace c then (dup src st.start cur).bind (blockOf cur st)
  else fail .blockType

/-- `case TEMPLATE_BLOCK_IF_START`, lines 400-411. -/
def ifStart (cur : Nat) (st : St) (c : Byte) : Step :=
  if isSpace c then go st
  else if isUpper c then go { st with state := .ifVariable, start := cur }
  else fail .variableStart

/-- `case TEMPLATE_BLOCK_IF_VARIABLE`, lines 413-428. -/
def ifVariable (cur : Nat) (st : St) (c : Byte) : Step :=
  if isName c then go st
  else if isSpace c then
    go { st with stop := cur, state := if st.type = .if_ then .ifOperatorStart else .blockEndCleaner }
  else fail .variableName

/-- `case TEMPLATE_BLOCK_IF_OPERATOR_START`, lines 430-435. -/
def ifOperatorStart (cur : Nat) (st : St) (c : Byte) : Step :=
  if isSpace c then go st else go { st with state := .ifOperator, opStart := cur }

/-- `case TEMPLATE_BLOCK_IF_OPERATOR`, lines 437-442. -/
def ifOperator (cur : Nat) (st : St) (c : Byte) : Step :=
  if isSpace c = false then go st else go { st with state := .ifOperandStart, opEnd := cur }

/-- `case TEMPLATE_BLOCK_IF_OPERAND_START`, lines 444-463. -/
def ifOperandStart (cur : Nat) (st : St) (c : Byte) : Step :=
  if isSpace c then go st
  else if isUpper c then go { st with state := .ifVariableOperand, start2 := cur }
  else if c = c!"\"" then go { st with state := .ifStringOperand, start2 := cur }
  else fail .operand

/-- `case TEMPLATE_BLOCK_IF_STRING_OPERAND`, lines 465-472. -/
def ifStringOperand (src : Str) (cur : Nat) (st : St) (c : Byte) : Step :=
  if c ≠ c!"\"" then go st
  else if cur = 0 then .ub
  else if src[cur - 1]? = some c!"\\" then go st
  else go { st with state := .blockEndCleaner, end2 := cur + 1 }

/-- `case TEMPLATE_BLOCK_IF_VARIABLE_OPERAND`, lines 474-479. -/
def ifVariableOperand (cur : Nat) (st : St) (c : Byte) : Step :=
  if isName c then go st else go { st with state := .blockEndCleaner, end2 := cur }

/-- `case TEMPLATE_BLOCK_FOREACH_START`, lines 481-493. -/
def foreachStart (cur : Nat) (st : St) (c : Byte) : Step :=
  if isSpace c then go st
  else if isUpper c then go { st with state := .foreachVariable, start := cur }
  else fail .foreachStart

/-- `case TEMPLATE_BLOCK_FOREACH_VARIABLE`, lines 495-507. -/
def foreachVariable (cur : Nat) (st : St) (c : Byte) : Step :=
  if isName c then go st
  else if isSpace c then go { st with stop := cur, state := .blockEndCleaner }
  else fail .foreachName

/-- `case TEMPLATE_BLOCK_END`, lines 519-534. -/
def blockEnd (st : St) (c : Byte) : Step :=
  if c = c!"%" then go { st with state := .closeBracket }
  else if c = c!"-" then fail .duplicatedCleanerAfter
  else fail .statementEnd

/-- `case TEMPLATE_BLOCK_END_WHITESPACE_CLEANER`, lines 509-517, which goes on into the next case. -/
def blockEndCleaner (st : St) (c : Byte) : Step :=
  if isSpace c then go st
  else if c = c!"-" then go { st with lstripNext := true, state := .blockEnd }
  else blockEnd { st with state := .blockEnd } c

/-- `case TEMPLATE_VARIABLE_START`, lines 536-548. -/
def variableStart (cur : Nat) (st : St) (c : Byte) : Step :=
  if isSpace c then go st
  else if isUpper c then go { st with state := .variable, type := .variable, start := cur }
  else fail .variableStart

/-- `case TEMPLATE_VARIABLE`, lines 550-567. -/
def variable_ (cur : Nat) (st : St) (c : Byte) : Step :=
  if isName c then go st
  else if isSpace c then go { st with stop := cur, state := .variableEnd }
  else if c = c!"}" then go { st with stop := cur, state := .closeBracket }
  else fail .variableName

/-- `case TEMPLATE_VARIABLE_END`, lines 569-579. -/
def variableEnd (st : St) (c : Byte) : Step :=
  if isSpace c then go st
  else if c = c!"}" then go { st with state := .closeBracket }
  else fail .variableEnd

/-- Lines 585-600: the operator spelled `word`. -/
def operator (word : Str) : Op :=
  if word = b!"<" then { lt := true }
  else if word = b!">" then { gt := true }
  else if word = b!"<=" then { lt := true, eq := true }
  else if word = b!">=" then { gt := true, eq := true }
  else if word = b!"==" then { eq := true }
  else if word = b!"!=" then { neq := true }
  else .none

/-- `NULL` unless the range is not empty, lines 616-624. -/
def dupIf (src : Str) (a b : Nat) : Res (Option Str) :=
  if b > a then (dup src a b).map some else .ok none

/-- Lines 613-632: the node of a statement or variable. -/
def addNode (src : Str) (cur : Nat) (st : St) (op : Op) : Step :=
  (dupIf src st.start st.stop).bind fun d0 =>
  (dupIf src st.start2 st.end2).bind fun d1 =>
  go { st with
    ast := { type := st.type, op := op, data0 := d0, data1 := d1 } :: st.ast
    start2 := if st.end2 > st.start2 then 0 else st.start2
    end2 := if st.end2 > st.start2 then 0 else st.end2
    state := .start, type := .content, start := cur + 1 }

/-- `case TEMPLATE_CLOSE_BRACKET`, lines 581-638. The operator text is compared with `strncmp`
for its length, so a NUL in it does not match. -/
def closeBracket (src : Str) (cur : Nat) (st : St) (c : Byte) : Step :=
  if c = c!"}" then
    if st.opEnd > st.opStart then
      if st.opEnd ≤ src.length then
        if operator (slice src st.opStart st.opEnd) = .none then fail .operator
        else addNode src cur { st with opStart := 0, opEnd := 0 }
          (operator (slice src st.opStart st.opEnd))
      else .ub
    else addNode src cur st .none
  else fail .closeBracket

/-- The `switch`, lines 88-640. -/
def step (src : Str) (cur : Nat) (st : St) (c : Byte) : Step :=
  match st.state with
  | .start => start src cur st c (cur + 1 == src.length)
  | .openBracket => openBracket src st c
  | .blockStartCleaner => blockStartCleaner cur st c
  | .blockStart => blockStart cur st c
  | .blockType => blockType src cur st c
  | .blockBlockTypeStart => blockBlockTypeStart cur st c
  | .blockBlockType => blockBlockType src cur st c
  | .ifStart => ifStart cur st c
  | .ifVariable => ifVariable cur st c
  | .ifOperatorStart => ifOperatorStart cur st c
  | .ifOperator => ifOperator cur st c
  | .ifOperandStart => ifOperandStart cur st c
  | .ifStringOperand => ifStringOperand src cur st c
  | .ifVariableOperand => ifVariableOperand cur st c
  | .foreachStart => foreachStart cur st c
  | .foreachVariable => foreachVariable cur st c
  | .blockEndCleaner => blockEndCleaner st c
  | .blockEnd => blockEnd st c
  | .variableStart => variableStart cur st c
  | .variable => variable_ cur st c
  | .variableEnd => variableEnd st c
  | .closeBracket => closeBracket src cur st c

/-- Lines 648-673: after the loop. -/
def finish (st : St) : Except Err (List Node) :=
  if st.state = .ifStringOperand then .error .openString
  else if st.br.ifCount ≠ 0 then .error .ifsNotClosed
  else if st.br.blockOpen = true then .error .blockNotClosed
  else if st.br.foreachOpen = true then .error .foreachNotClosed
  else .ok st.ast.reverse

/-- What `*err` says: which error it is, the message, and the position that is given to `bc_error_parser` (`none` if the
message has no position). -/
structure Report where
  err : Err
  message : Str
  place : Option Nat
  deriving DecidableEq, Repr

/-- The name of the block that is open (`block_type`, set in lines 353-392): the one of the last `block` node. -/
def blockName (ast : List Node) : Str :=
  (((ast.find? fun n => n.type = .block).bind fun n => n.data0)).getD []

/-- The messages, lines 166-172, 173-176, 193-195, 201-207, 208-213, 219-222, 266-270, 272-276, 290-294, 306-309, 322-326,
329-334, 344-347, 394-398, 408-411, 424-428, 457-463, 489-493, 503-507, 524-530, 531-534, 576-579, 601-609, 635-638
and 649-661. -/
def message (st : St) : Err → Str
  | .duplicatedCleanerBefore => b!"Invalid statement syntax. Duplicated whitespace cleaner before statement."
  | .statementStart => b!"Invalid statement syntax. Must begin with lowercase letter."
  | .nestedBlocks => b!"Blocks can't be nested."
  | .ifsNotClosedInBlock =>
    decNat (st.br.ifCount - st.br.blockIfCount) ++
      b!" open 'if', 'ifdef' and/or 'ifndef' statements were not closed inside a '" ++ blockName st.ast ++ b!"' block!"
  | .foreachNotClosedInBlock =>
    b!"An open 'foreach' statement was not closed inside a '" ++ blockName st.ast ++ b!"' block!"
  | .endblockWithoutBlock => b!"'endblock' statement without an open 'block' statement."
  | .moreThanOneElse => b!"More than one 'else' statement for an open 'if', 'ifdef' or 'ifndef' statement."
  | .elseWithoutIf => b!"'else' statement without an open 'if', 'ifdef' or 'ifndef' statement."
  | .endifWithoutIf => b!"'endif' statement without an open 'if', 'ifdef' or 'ifndef' statement."
  | .nestedForeach => b!"'foreach' statements can't be nested."
  | .endforeachWithoutForeach => b!"'endforeach' statement without an open 'foreach' statement."
  | .statementType =>
    b!"Invalid statement type: Allowed types are: 'block', 'endblock', 'if', 'ifdef', 'ifndef', 'else', 'endif', 'foreach' and 'endforeach'."
  | .blockSyntax => b!"Invalid block syntax. Must begin with lowercase letter."
  | .blockType =>
    b!"Invalid block type. Allowed types are: 'entry', 'listing', 'listing_once', 'listing_empty' and 'listing_entry'."
  | .variableStart => b!"Invalid variable name. Must begin with uppercase letter."
  | .variableName => b!"Invalid variable name. Must be uppercase letter, number or '_'."
  | .operand => b!"Invalid 'if' operand. Must be double-quoted static string or variable."
  | .foreachStart => b!"Invalid foreach variable name. Must begin with uppercase letter."
  | .foreachName => b!"Invalid foreach variable name. Must be uppercase letter, number or '_'."
  | .duplicatedCleanerAfter => b!"Invalid statement syntax. Duplicated whitespace cleaner after statement."
  | .statementEnd => b!"Invalid statement syntax. Must end with '%}'."
  | .variableEnd => b!"Invalid statement syntax. Must end with '}}'."
  | .operator => b!"Invalid 'if' operator. Must be '<', '>', '<=', '>=', '==' or '!='."
  | .closeBracket => b!"Invalid statement syntax. Must end with '}'."
  | .openString => b!"Found an open double-quoted string."
  | .ifsNotClosed => decNat st.br.ifCount ++ b!" open 'if', 'ifdef' and/or 'ifndef' statements were not closed!"
  | .blockNotClosed => b!"An open block was not closed!"
  | .foreachNotClosed => b!"An open 'foreach' statement was not closed!"

/-- The positions: `op_start` in line 603, `start2` in line 651, none in lines 202-211 and 653-661, `current` elsewhere. -/
def place (st : St) (current : Nat) : Err → Option Nat
  | .operator => some st.opStart
  | .openString => some st.start2
  | .ifsNotClosedInBlock | .foreachNotClosedInBlock | .ifsNotClosed | .blockNotClosed | .foreachNotClosed => none
  | _ => some current

def report (st : St) (current : Nat) (e : Err) : Report := ⟨e, message st e, place st current e⟩

/-- The loop of lines 84-646; the list is the text from `current` on. -/
def loop (src : Str) : Str → (current : Nat) → St → Res (Except Report (List Node))
  | [], cur, st => .ok ((finish st).mapError (report st cur))
  | c :: rest, cur, st =>
    match step src cur st c with
    | .ok (.ok st) => loop src rest (cur + 1) st
    | .ok (.error e) => .ok (.error (report st cur e))
    | .ub => .ub

/-- `blogc_template_parse`, src/blogc/template-parser.c:39-674, with the message of an error. -/
def diagnose (src : Str) : Res (Except Report (List Node)) := loop src src 0 {}

/-- `blogc_template_parse`, src/blogc/template-parser.c:39-674. -/
def parse (src : Str) : Res (Except Err (List Node)) := (diagnose src).map fun r => r.mapError Report.err

end Blogc.Template
