import Verif.Spec.Strings
import Verif.Spec.Map

/-!
# Source files as a user writes them

Header lines `KEY: value`, a separator line of dashes, and the content.
-/

namespace Blogc.Spec.Source

open Blogc Blogc.Spec

/-- A line ends with a newline or a carriage return (a two-character ending is an ending
followed by an empty line). -/
def Newline (c : Byte) : Prop := c = 0x0a ∨ c = 0x0d

/-- What may stand between two header lines. -/
def Blank (c : Byte) : Prop := c = 0x20 ∨ c = 0x09 ∨ Newline c

/-- `[A-Z][A-Z0-9_]*`. -/
def ValidKey (k : Str) : Prop :=
  ∃ c r, k = c :: r ∧ (0x41 ≤ c ∧ c ≤ 0x5a) ∧
    ∀ d ∈ r, (0x41 ≤ d ∧ d ≤ 0x5a) ∨ (0x30 ≤ d ∧ d ≤ 0x39) ∨ d = 0x5f

/-- The variables only the compiler sets. -/
def reserved : List Str :=
  [b!"FILENAME", b!"CONTENT", b!"DATE_FORMATTED", b!"DATE_FIRST_FORMATTED",
   b!"DATE_LAST_FORMATTED", b!"PAGE_FIRST", b!"PAGE_PREVIOUS", b!"PAGE_CURRENT", b!"PAGE_NEXT",
   b!"PAGE_LAST", b!"BLOGC_VERSION"]

/-- A header line, with the blank space and blank lines before it and the white space
around its value. -/
structure Header where
  blanks : Str
  key : Str
  lead : Str
  value : Str
  trail : Str
  nl : Byte

def Header.text (h : Header) : Str :=
  h.blanks ++ h.key ++ b!":" ++ h.lead ++ h.value ++ h.trail ++ [h.nl]

structure Header.Ok (h : Header) : Prop where
  blanks : ∀ c ∈ h.blanks, Blank c
  key : ValidKey h.key
  allowed : h.key ∉ reserved
  lead : ∀ c ∈ h.lead, White c ∧ ¬ Newline c
  trail : ∀ c ∈ h.trail, White c ∧ ¬ Newline c
  value : ∀ c ∈ h.value, ¬ Newline c ∧ c ≠ 0
  value_first : ∀ c, h.value.head? = some c → ¬ White c
  value_last : ∀ c, h.value.getLast? = some c → ¬ White c
  nl : Newline h.nl

/-- The names and values of header lines. -/
def pairs (hs : List Header) : List (Str × Str) := hs.map fun h => (h.key, h.value)

def headersText (hs : List Header) : Str := hs.flatMap Header.text

/-- A source file: headers, the separator (after blank space), blank lines, the content. -/
structure Doc where
  headers : List Header
  blanks : Str
  dashes : Nat
  nls : Str
  content : Str

def Doc.text (d : Doc) : Str :=
  headersText d.headers ++ d.blanks ++ List.replicate d.dashes 0x2d ++ d.nls ++ d.content

structure Doc.Ok (d : Doc) : Prop where
  headers : ∀ h ∈ d.headers, h.Ok
  blanks : ∀ c ∈ d.blanks, Blank c
  dashes : 0 < d.dashes
  nls : ∀ c ∈ d.nls, Newline c
  nls_ne : d.nls ≠ []
  content : ∀ c ∈ d.content, c ≠ 0
  content_first : ∀ c, d.content.head? = some c → ¬ Newline c

/-- The names a content gives values to. -/
def contentNames : List Str :=
  [b!"RAW_CONTENT", b!"CONTENT", b!"EXCERPT", b!"FIRST_HEADER", b!"DESCRIPTION", b!"TOCTREE"]

/-- Complete header lines, whatever their values. -/
inductive Lines : Str → Prop where
  | nil : Lines []
  | cons {bl k v s : Str} {nl : Byte} : (∀ c ∈ bl, Blank c) → ValidKey k → k ∉ reserved →
      (∀ c ∈ v, ¬ Newline c) → Newline nl → Lines s → Lines (bl ++ k ++ b!":" ++ v ++ [nl] ++ s)

/-- Why a source is not accepted. -/
inductive Reason where
  | noKeyOrSeparator | invalidKey | reservedKey (k : Str) | invalidSeparator
  | nothing | noColon | noValue (k : Str) | noNewline (k : Str)

/-- A character a key can go on with. -/
def KeyChar (d : Byte) : Prop := (0x41 ≤ d ∧ d ≤ 0x5a) ∨ (0x30 ≤ d ∧ d ≤ 0x39) ∨ d = 0x5f

/-- `Bad p r n`: after complete header lines, the text `p` is not acceptable for the reason `r`, as can be
told at the offset `n`. -/
inductive Bad : Str → Reason → Nat → Prop where
  | junk {bl s : Str} {c : Byte} : (∀ c ∈ bl, Blank c) → ¬ Blank c → ¬ (0x41 ≤ c ∧ c ≤ 0x5a) → c ≠ c!"-" →
      Bad (bl ++ c :: s) .noKeyOrSeparator bl.length
  | key {bl k s : Str} {c : Byte} : (∀ c ∈ bl, Blank c) → ValidKey k → ¬ KeyChar c → c ≠ c!":" →
      Bad (bl ++ k ++ c :: s) .invalidKey (bl ++ k).length
  | reserved {bl k s : Str} : (∀ c ∈ bl, Blank c) → k ∈ reserved →
      Bad (bl ++ k ++ c!":" :: s) (.reservedKey k) (bl ++ k).length
  | separator {bl s : Str} {d : Nat} {c : Byte} : (∀ c ∈ bl, Blank c) → c ≠ c!"-" → ¬ Newline c →
      Bad (bl ++ List.replicate (d + 1) c!"-" ++ c :: s) .invalidSeparator (bl.length + (d + 1))

/-- Texts without any complete header line, and without a separator: the end is where they fail. -/
inductive Short : Str → Reason → Prop where
  | nothing {bl : Str} : (∀ c ∈ bl, Blank c) → Short bl .nothing
  | key {bl k : Str} : (∀ c ∈ bl, Blank c) → ValidKey k → Short (bl ++ k) .noColon
  | colon {bl k : Str} : (∀ c ∈ bl, Blank c) → ValidKey k → k ∉ reserved →
      Short (bl ++ k ++ b!":") (.noValue k)
  | value {bl k v : Str} : (∀ c ∈ bl, Blank c) → ValidKey k → k ∉ reserved → v ≠ [] → (∀ c ∈ v, ¬ Newline c) →
      Short (bl ++ k ++ b!":" ++ v) (.noNewline k)

/-- `Malformed s r n`: the source `s` is rejected for the reason `r`, as can be told at the offset `n`. -/
inductive Malformed : Str → Reason → Nat → Prop where
  | bad {s p : Str} {r : Reason} {n : Nat} : Lines s → Bad p r n → Malformed (s ++ p) r (s.length + n)
  | short {s : Str} {r : Reason} : Short s r → Malformed s r s.length

/-- The words for a reason. -/
def wording : Reason → Str
  | .noKeyOrSeparator => b!"Can't find a configuration key or the content separator."
  | .invalidKey => b!"Invalid configuration key."
  | .reservedKey k => b!"'" ++ k ++ b!"' variable is forbidden in source files. It will be set for you by the compiler."
  | .invalidSeparator => b!"Invalid content separator. Must be more than one '-' characters."
  | .nothing => b!"Your source file is empty."
  | .noColon => b!"Your last configuration key is missing ':' and the value"
  | .noValue k => b!"Configuration value not provided for '" ++ k ++ b!"'."
  | .noNewline k => b!"No line ending after the configuration value for '" ++ k ++ b!"'."

end Blogc.Spec.Source
