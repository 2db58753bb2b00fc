import Verif.Basic

/-!
# POSIX shell word splitting (XCU 2.2, 2.3)

`lex` splits a simple command into words as a POSIX shell does, after quote
removal. It answers `none` whenever the text is not just a list of literal
words: an unquoted operator, expansion, glob, comment, assignment-like history
or brace character, a newline, a NUL byte, or an unterminated quote. So
`lex s = some ws` means the shell sees exactly the words `ws` and performs no
expansion.
-/

namespace Blogc.Shell

open Blogc

/-- Quoting context. -/
inductive Mode where
  | plain | escape | squote | dquote | dquoteEscape
  deriving DecidableEq, Repr

/-- Unquoted blanks that separate words. -/
def isBlank (c : Byte) : Bool := c == 0x20 || c == 0x09

/-- Unquoted characters with a special meaning somewhere in the shell grammar
(`=` and `%` are literal inside the arguments of a command). -/
def isSpecial (c : Byte) : Bool :=
  b!"|&;<>()$`*?[]#~!{}^\n\x00".contains c

/-- The lexer: quoting mode, word in progress, rest of the text. -/
def lex : Mode → Option Str → Str → Option (List Str)
  | .plain, cur, [] => some cur.toList
  | .escape, _, [] => none
  | .squote, _, [] => none
  | .dquote, _, [] => none
  | .dquoteEscape, _, [] => none
  | .plain, cur, c :: r =>
    if isBlank c then (lex .plain none r).map (cur.toList ++ ·)
    else if c = c!"'" then lex .squote (some (cur.getD [])) r
    else if c = c!"\"" then lex .dquote (some (cur.getD [])) r
    else if c = c!"\\" then lex .escape cur r
    else if isSpecial c then none
    else lex .plain (some (cur.getD [] ++ [c])) r
  | .escape, cur, c :: r =>
    if c = 0 then none
    else if c = c!"\n" then lex .plain cur r
    else lex .plain (some (cur.getD [] ++ [c])) r
  | .squote, cur, c :: r =>
    if c = 0 then none
    else if c = c!"'" then lex .plain cur r
    else lex .squote (some (cur.getD [] ++ [c])) r
  | .dquote, cur, c :: r =>
    if c = 0 then none
    else if c = c!"\"" then lex .plain cur r
    else if c = c!"\\" then lex .dquoteEscape cur r
    else if c = c!"$" ∨ c = c!"`" then none
    else lex .dquote (some (cur.getD [] ++ [c])) r
  | .dquoteEscape, cur, c :: r =>
    if c = 0 then none
    else if c = c!"\n" then lex .dquote cur r
    else if c = c!"$" ∨ c = c!"`" ∨ c = c!"\"" ∨ c = c!"\\" then
      lex .dquote (some (cur.getD [] ++ [c])) r
    else lex .dquote (some (cur.getD [] ++ [c!"\\", c])) r

/-- The words of a command line. -/
def words (s : Str) : Option (List Str) := lex .plain none s

example : words b!"ls -l 'a b'\\!'c' \"x\\$y\"" = some [b!"ls", b!"-l", b!"a b!c", b!"x$y"] := by
  decide
example : words b!"a; b" = none := by decide
example : words b!"a $x" = none := by decide

end Blogc.Shell
