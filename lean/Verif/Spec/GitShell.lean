import Verif.Basic

/-!
# Commands sent by a git client

A client asks for `<command> <quoted path>`. Git quotes the path for a shell
(`sq_quote_buf` in git): the whole path is put in single quotes, and each `'`
and `!` is replaced by `'\''` and `'\!'`.
-/

namespace Blogc.GitShell

open Blogc

/-- The commands of the git protocol. -/
def commands : List Str := [b!"git-receive-pack", b!"git-upload-pack", b!"git-upload-archive"]

/-- One byte of a path as git quotes it. -/
def gitQuoteByte (b : Byte) : Str :=
  if b = c!"'" ∨ b = c!"!" then [c!"'", c!"\\", b, c!"'"] else [b]

/-- A path as git quotes it. -/
def gitQuote (p : Str) : Str := c!"'" :: p.flatMap gitQuoteByte ++ [c!"'"]

/-- A piece of shell-quoted text. -/
inductive Seg where
  | quoted (s : Str)     -- 's'
  | escaped (c : Byte)   -- \c
  deriving DecidableEq, Repr

/-- The piece is one that git writes. -/
def Seg.Ok : Seg → Prop
  | .quoted s => c!"'" ∉ s
  | .escaped c => c = c!"!" ∨ c = c!"'"

/-- The text of a piece. -/
def Seg.text : Seg → Str
  | .quoted s => c!"'" :: s ++ [c!"'"]
  | .escaped c => [c!"\\", c]

/-- What a piece stands for. -/
def Seg.value : Seg → Str
  | .quoted s => s
  | .escaped c => [c]

/-- A quoted path: pieces one after the other. -/
def IsQuoted (t p : Str) : Prop :=
  ∃ segs : List Seg, (∀ s ∈ segs, s.Ok) ∧ segs ≠ [] ∧ t = segs.flatMap Seg.text ∧
    p = segs.flatMap Seg.value

/-- A path without one leading slash. -/
def dropSlash : Str → Str
  | [] => []
  | c :: r => if c = c!"/" then r else c :: r

end Blogc.GitShell
