import Verif.Spec.Tokens

/-!
# Mistakes in templates

What can be wrong in a template, and where: a template is fine up to some point, and what follows cannot stand there.
-/

namespace Blogc.Spec.Mistakes

open Blogc Blogc.Template Blogc.Doc Blogc.Tokens

def Lower (c : Byte) : Prop := c!"a" ≤ c ∧ c ≤ c!"z"
def Upper (c : Byte) : Prop := c!"A" ≤ c ∧ c ≤ c!"Z"
def InName (c : Byte) : Prop := Upper c ∨ (c!"0" ≤ c ∧ c ≤ c!"9") ∨ c = c!"_"
def Space (c : Byte) : Prop := c ∈ b!" \t\n\x0b\x0c\r"

instance (c : Byte) : Decidable (Lower c) := inferInstanceAs (Decidable (_ ∧ _))
instance (c : Byte) : Decidable (Upper c) := inferInstanceAs (Decidable (_ ∧ _))
instance (c : Byte) : Decidable (Space c) := inferInstanceAs (Decidable (_ ∈ _))

/-- A word of lowercase letters. -/
def Word (w : Str) : Prop := w ≠ [] ∧ ∀ c ∈ w, Lower c

/-- A word like the name of a block type. -/
def KindWord (w : Str) : Prop := (∃ c r, w = c :: r ∧ Lower c) ∧ ∀ c ∈ w, Lower c ∨ c = c!"_"

/-- Statements that are open. -/
inductive Opened where
  | block (kind : Str)
  | cond (hasElse : Bool)
  | loop
  deriving DecidableEq

def Opened.isBlock : Opened → Bool
  | .block _ => true
  | _ => false

def Opened.isCond : Opened → Bool
  | .cond _ => true
  | _ => false

def Opened.isLoop : Opened → Bool
  | .loop => true
  | _ => false

/-- Where the author is: the open statements, the innermost first, and whether the last `if`, `else` or `endif` is an
`else`. -/
structure Place where
  opened : List Opened := []
  elseLast : Bool := false

/-- What is open in the current block. -/
def Place.inner (p : Place) : List Opened := p.opened.takeWhile fun o => !o.isBlock

def Place.inBlock (p : Place) : Bool := p.opened.any Opened.isBlock

/-- The kind of the current block. -/
def Place.block (p : Place) : Option Str :=
  p.opened.findSome? fun o => match o with
    | .block k => some k
    | _ => none

/-- A statement that can stand at a place, and the place after it. -/
def follow (p : Place) : Stmt → Option Place
  | .block _ k _ => if p.inBlock then none else some ⟨.block k :: p.opened, p.elseLast⟩
  | .endblock _ =>
    match p.opened with
    | .block _ :: o => some ⟨o, p.elseLast⟩
    | _ => none
  | .ifdef .. | .ifndef .. | .if_ .. => some ⟨.cond false :: p.opened, false⟩
  | .else_ _ =>
    match p.opened with
    | .cond false :: o => some ⟨.cond true :: o, true⟩
    | _ => none
  | .endif _ =>
    match p.opened with
    | .cond _ :: o => some ⟨o, false⟩
    | _ => none
  | .foreach .. => if p.opened.any Opened.isLoop then none else some ⟨.loop :: p.opened, p.elseLast⟩
  | .endforeach _ =>
    match p.opened with
    | .loop :: o => some ⟨o, p.elseLast⟩
    | _ => none

/-- The place after the items. -/
def after (p : Place) : List Tok → Option Place
  | [] => some p
  | .stmt _ _ s _ :: ts => (follow p s).bind (after · ts)
  | _ :: ts => after p ts

/-- Items that are fine and after which another one can begin. -/
def Fine : List Tok → Prop
  | [] => True
  | .text s :: ts => TextOk s ∧ s.getLast? ≠ some c!"{" ∧ (∀ s', ts.head? ≠ some (.text s')) ∧ Fine ts
  | .var a n b :: ts => Blank a ∧ IsName n ∧ Blank b ∧ Fine ts
  | .stmt _ a s _ :: ts => Blank a ∧ s.Ok ∧ Fine ts

/-- The beginning of a statement, up to its first word. -/
def opening (l : Bool) (a : Str) : Str := b!"{%" ++ dash l ++ a

def keywords : List Str :=
  [b!"block", b!"endblock", b!"ifdef", b!"ifndef", b!"if", b!"else", b!"endif", b!"foreach", b!"endforeach"]

def conditionals : List Str := [b!"ifdef", b!"ifndef", b!"if"]

/-- Statements that cannot stand at a place. -/
inductive Misplaced (p : Place) : (kw : Str) → Err → Prop where
  | nestedBlock : p.inBlock = true → Misplaced p b!"block" .nestedBlocks
  | endblock : p.inBlock = false → Misplaced p b!"endblock" .endblockWithoutBlock
  | openIf : p.inBlock = true → p.inner.any Opened.isCond = true → Misplaced p b!"endblock" .ifsNotClosedInBlock
  | openForeach : p.inBlock = true → p.inner.any Opened.isCond = false → p.inner.any Opened.isLoop = true →
      Misplaced p b!"endblock" .foreachNotClosedInBlock
  | else_ : p.inner.any Opened.isCond = false → Misplaced p b!"else" .elseWithoutIf
  | secondElse : p.inner.any Opened.isCond = true → p.elseLast = true → Misplaced p b!"else" .moreThanOneElse
  | endif : p.inner.any Opened.isCond = false → Misplaced p b!"endif" .endifWithoutIf
  | nestedForeach : p.opened.any Opened.isLoop = true → Misplaced p b!"foreach" .nestedForeach
  | endforeach : p.inner.any Opened.isLoop = false → Misplaced p b!"endforeach" .endforeachWithoutForeach

/-- What remains open at the end of the template. -/
inductive Unfinished (p : Place) : Err → Prop where
  | conds : p.opened.any Opened.isCond = true → Unfinished p .ifsNotClosed
  | block : p.opened.any Opened.isCond = false → p.inBlock = true → Unfinished p .blockNotClosed
  | loop : p.opened.any Opened.isCond = false → p.inBlock = false → p.opened.any Opened.isLoop = true →
      Unfinished p .foreachNotClosed

/-- Errors that are reported without a position. -/
def unplaced : List Err :=
  [.ifsNotClosedInBlock, .foreachNotClosedInBlock, .ifsNotClosed, .blockNotClosed, .foreachNotClosed]

/-- `bad` cannot stand at a place: its last byte is wrong. The number is the position of the mistake in `bad`. -/
inductive Mistake (p : Place) : (bad : Str) → (position : Nat) → Err → Prop where
  /- statements -/
  | cleanerBefore {l a} : Blank a → (l = true ∨ a ≠ []) →
      Mistake p (opening l a ++ b!"-") (opening l a).length .duplicatedCleanerBefore
  | start {l a c} : Blank a → ¬ Space c → ¬ Lower c → c ≠ c!"-" →
      Mistake p (opening l a ++ [c]) (opening l a).length .statementStart
  | type {l a w c} : Blank a → Word w → ¬ Lower c → ¬ Space c →
      Mistake p (opening l a ++ w ++ [c]) (opening l a ++ w).length .statementType
  | unknown {l a w c} : Blank a → Word w → w ∉ keywords → Space c →
      Mistake p (opening l a ++ w ++ [c]) (opening l a ++ w).length .statementType
  | misplaced {l a w c e} : Blank a → Misplaced p w e → Space c →
      Mistake p (opening l a ++ w ++ [c]) (opening l a ++ w).length e
  /- blocks -/
  | blockStart {l a g c} : Blank a → p.inBlock = false → Gap g → ¬ Space c → ¬ Lower c →
      Mistake p (opening l a ++ b!"block" ++ g ++ [c]) (opening l a ++ b!"block" ++ g).length .blockSyntax
  | blockByte {l a g w c} : Blank a → p.inBlock = false → Gap g → KindWord w → ¬ Space c → ¬ Lower c → c ≠ c!"_" →
      Mistake p (opening l a ++ b!"block" ++ g ++ w ++ [c]) (opening l a ++ b!"block" ++ g ++ w).length .blockType
  | blockKind {l a g w c} : Blank a → p.inBlock = false → Gap g → KindWord w →
      w ∉ [b!"entry", b!"listing", b!"listing_once", b!"listing_empty", b!"listing_entry"] → Space c →
      Mistake p (opening l a ++ b!"block" ++ g ++ w ++ [c]) (opening l a ++ b!"block" ++ g ++ w).length .blockType
  /- conditionals -/
  | condStart {l a kw g c} : Blank a → kw ∈ conditionals → Gap g → ¬ Space c → ¬ Upper c →
      Mistake p (opening l a ++ kw ++ g ++ [c]) (opening l a ++ kw ++ g).length .variableStart
  | condName {l a kw g n c} : Blank a → kw ∈ conditionals → Gap g → IsName n → ¬ Space c → ¬ InName c →
      Mistake p (opening l a ++ kw ++ g ++ n ++ [c]) (opening l a ++ kw ++ g ++ n).length .variableName
  | operand {l a g n b op d c} : Blank a → Gap g → IsName n → Gap b → op ≠ [] → (∀ x ∈ op, ¬ Space x) → Gap d →
      ¬ Space c → ¬ Upper c → c ≠ c!"\"" →
      Mistake p (opening l a ++ b!"if" ++ g ++ n ++ b ++ op ++ d ++ [c])
        (opening l a ++ b!"if" ++ g ++ n ++ b ++ op ++ d).length .operand
  | operator {l a g n b op d rhs d' r} : Blank a → Gap g → IsName n → Gap b → op ≠ [] → (∀ x ∈ op, ¬ Space x) →
      op ∉ operators → Gap d → OperandOk rhs d' →
      Mistake p (opening l a ++ b!"if" ++ g ++ n ++ b ++ op ++ d ++ rhs.data ++ d' ++ dash r ++ b!"%}")
        (opening l a ++ b!"if" ++ g ++ n ++ b).length .operator
  /- iterators -/
  | foreachStart {l a g c} : Blank a → p.opened.any Opened.isLoop = false → Gap g → ¬ Space c → ¬ Upper c →
      Mistake p (opening l a ++ b!"foreach" ++ g ++ [c]) (opening l a ++ b!"foreach" ++ g).length .foreachStart
  | foreachName {l a g n c} : Blank a → p.opened.any Opened.isLoop = false → Gap g → IsName n → ¬ Space c → ¬ InName c →
      Mistake p (opening l a ++ b!"foreach" ++ g ++ n ++ [c]) (opening l a ++ b!"foreach" ++ g ++ n).length .foreachName
  /- the end of a statement -/
  | cleanerAfter {l a s p'} : Blank a → s.Ok → follow p s = some p' →
      Mistake p (opening l a ++ s.print ++ b!"--") (opening l a ++ s.print ++ b!"-").length .duplicatedCleanerAfter
  | stmtEnd {l a s p' r c} : Blank a → s.Ok → follow p s = some p' → (r = false → ¬ Space c) →
      c ≠ c!"%" → c ≠ c!"-" →
      Mistake p (opening l a ++ s.print ++ dash r ++ [c]) (opening l a ++ s.print ++ dash r).length .statementEnd
  | stmtClose {l a s p' r c} : Blank a → s.Ok → follow p s = some p' → c ≠ c!"}" →
      Mistake p (opening l a ++ s.print ++ dash r ++ b!"%" ++ [c]) (opening l a ++ s.print ++ dash r ++ b!"%").length
        .closeBracket
  /- variables -/
  | varStart {a c} : Blank a → ¬ Space c → ¬ Upper c →
      Mistake p (b!"{{" ++ a ++ [c]) (b!"{{" ++ a).length .variableStart
  | varName {a n c} : Blank a → IsName n → ¬ Space c → ¬ InName c → c ≠ c!"}" →
      Mistake p (b!"{{" ++ a ++ n ++ [c]) (b!"{{" ++ a ++ n).length .variableName
  | varEnd {a n b c} : Blank a → IsName n → Gap b → ¬ Space c → c ≠ c!"}" →
      Mistake p (b!"{{" ++ a ++ n ++ b ++ [c]) (b!"{{" ++ a ++ n ++ b).length .variableEnd
  | varClose {a n b c} : Blank a → IsName n → Blank b → c ≠ c!"}" →
      Mistake p (b!"{{" ++ a ++ n ++ b ++ b!"}" ++ [c]) (b!"{{" ++ a ++ n ++ b ++ b!"}").length .closeBracket

/-- The message about a mistake. -/
def wording (p : Place) : Err → Str
  | .duplicatedCleanerBefore => b!"Invalid statement syntax. Duplicated whitespace cleaner before statement."
  | .statementStart => b!"Invalid statement syntax. Must begin with lowercase letter."
  | .nestedBlocks => b!"Blocks can't be nested."
  | .ifsNotClosedInBlock =>
    decNat (p.inner.countP Opened.isCond) ++
      b!" open 'if', 'ifdef' and/or 'ifndef' statements were not closed inside a '" ++ p.block.getD [] ++ b!"' block!"
  | .foreachNotClosedInBlock =>
    b!"An open 'foreach' statement was not closed inside a '" ++ p.block.getD [] ++ b!"' block!"
  | .endblockWithoutBlock => b!"'endblock' statement without an open 'block' statement."
  | .moreThanOneElse => b!"More than one 'else' statement for an open 'if', 'ifdef' or 'ifndef' statement."
  | .elseWithoutIf => b!"'else' statement without an open 'if', 'ifdef' or 'ifndef' statement."
  | .endifWithoutIf => b!"'endif' statement without an open 'if', 'ifdef' or 'ifndef' statement."
  | .nestedForeach => b!"'foreach' statements can't be nested."
  | .endforeachWithoutForeach => b!"'endforeach' statement without an open 'foreach' statement."
  | .statementType =>
    b!"Invalid statement type: Allowed types are: 'block', 'endblock', 'if', 'ifdef', 'ifndef', 'else', 'endif', 'foreach' and 'endforeach'."
  | .blockSyntax => b!"Invalid block syntax. Must begin with lowercase letter."
  | .blockType =>
    b!"Invalid block type. Allowed types are: 'entry', 'listing', 'listing_once', 'listing_empty' and 'listing_entry'."
  | .variableStart => b!"Invalid variable name. Must begin with uppercase letter."
  | .variableName => b!"Invalid variable name. Must be uppercase letter, number or '_'."
  | .operand => b!"Invalid 'if' operand. Must be double-quoted static string or variable."
  | .foreachStart => b!"Invalid foreach variable name. Must begin with uppercase letter."
  | .foreachName => b!"Invalid foreach variable name. Must be uppercase letter, number or '_'."
  | .duplicatedCleanerAfter => b!"Invalid statement syntax. Duplicated whitespace cleaner after statement."
  | .statementEnd => b!"Invalid statement syntax. Must end with '%}'."
  | .variableEnd => b!"Invalid statement syntax. Must end with '}}'."
  | .operator => b!"Invalid 'if' operator. Must be '<', '>', '<=', '>=', '==' or '!='."
  | .closeBracket => b!"Invalid statement syntax. Must end with '}'."
  | .openString => b!"Found an open double-quoted string."
  | .ifsNotClosed =>
    decNat (p.opened.countP Opened.isCond) ++ b!" open 'if', 'ifdef' and/or 'ifndef' statements were not closed!"
  | .blockNotClosed => b!"An open block was not closed!"
  | .foreachNotClosed => b!"An open 'foreach' statement was not closed!"

/-- The report about a mistake at a position of a template. -/
def reportOf (p : Place) (position : Nat) (e : Err) : Report :=
  ⟨e, wording p e, if e ∈ unplaced then none else some position⟩

end Blogc.Spec.Mistakes
