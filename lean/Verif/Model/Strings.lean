import Verif.Basic

/-!
# Model of `src/common/utils.c`: byte strings
-/

namespace Blogc

/-! ## `bc_string_t` -/

/-- `BC_STRING_CHUNK_SIZE`, src/common/utils.c:4. -/
def chunkSize : Nat := 128

/-- `bc_string_t` (src/common/utils.h): `str` points to a heap block of
`allocated_len` bytes. The block is `mem`, so `allocated_len = mem.length`;
bytes never written are `none` (indeterminate). `NULL` is the empty block. -/
structure BcString where
  mem : List (Option Byte)
  len : Nat
  deriving DecidableEq, Repr

namespace BcString

/-- Store one byte at `str->str[i]`; a store outside the block is undefined. -/
def store (mem : List (Option Byte)) (i : Nat) (b : Byte) : Res (List (Option Byte)) :=
  if i < mem.length then .ok (mem.set i (some b)) else .ub

/-- `memcpy(str->str + i, src, len)` where `src` holds the bytes `bs`. -/
def memcpy (mem : List (Option Byte)) (i : Nat) : Str → Res (List (Option Byte))
  | [] => .ok mem
  | b :: bs => do
    let mem' ← store mem i b
    memcpy mem' (i + 1) bs

/-- `bc_realloc(ptr, n)`: the common prefix is kept, the rest is indeterminate
(src/common/utils.c:29-40; the process aborts when memory is exhausted). -/
def realloc (mem : List (Option Byte)) (n : Nat) : List (Option Byte) :=
  mem.take n ++ List.replicate (n - mem.length) none

/-- The growth step shared by src/common/utils.c:440-443 and 467-470, for the
new length `newLen`. -/
def grow (mem : List (Option Byte)) (newLen : Nat) : List (Option Byte) :=
  if newLen + 1 > mem.length then
    realloc mem (((newLen + 1) / chunkSize + 1) * chunkSize)
  else mem

/-- `bc_string_append_len`, src/common/utils.c:431-447, on a non-NULL string;
`suffix` is the list of the `len` bytes pointed to (the caller must own them).
`size_t` overflow of the length is not modelled. -/
def appendLen (s : BcString) (suffix : Str) : Res BcString := do
  let newLen := s.len + suffix.length
  let mem := grow s.mem newLen
  let mem ← memcpy mem s.len suffix
  let mem ← store mem newLen 0
  return { mem := mem, len := newLen }

/-- `bc_string_append`, src/common/utils.c:450-457: `suffix` is a C string. -/
def append (s : BcString) (suffix : Str) : Res BcString :=
  appendLen s (cstr suffix)

/-- `bc_string_append_c`, src/common/utils.c:460-474. -/
def appendC (s : BcString) (c : Byte) : Res BcString := do
  let newLen := s.len + 1
  let mem := grow s.mem newLen
  let mem ← store mem s.len c
  let mem ← store mem newLen 0
  return { mem := mem, len := newLen }

/-- `bc_string_new`, src/common/utils.c:391-403. -/
def new : Res BcString :=
  append { mem := [], len := 0 } []

end BcString

/-- One call on a dynamic string. -/
inductive StrOp where
  | append (s : Str)
  | appendLen (s : Str)
  | appendC (c : Byte)
  deriving Repr

/-- Effect of one call. -/
def StrOp.run (s : BcString) : StrOp → Res BcString
  | .append t => s.append t
  | .appendLen t => s.appendLen t
  | .appendC c => s.appendC c

/-- `bc_string_new()` followed by the calls in order. -/
def runStrOps (ops : List StrOp) : Res BcString := do
  let s ← BcString.new
  ops.foldlM StrOp.run s

/-- `bc_string_append_escaped`, src/common/utils.c:494-511, as the bytes it
appends one by one (the builder itself is `BcString`). -/
def appendEscapedLoop (escaped : Bool) : Str → Str
  | [] => []
  | c :: rest =>
    if c = c!"\\" ∧ escaped = false then appendEscapedLoop true rest
    else c :: appendEscapedLoop false rest

def appendEscaped (acc suffix : Str) : Str := acc ++ appendEscapedLoop false suffix

/-! ## White space -/

/-- `bc_isspace`, src/common/utils.c:186-190, and the identical test in the
strip loops (lines 223-225 and 247-249). -/
def isSpace (c : Byte) : Bool :=
  c == c!" " || c == 12 || c == c!"\n" || c == c!"\r" || c == c!"\t" || c == 11

/-- Loop of `bc_str_lstrip`, src/common/utils.c:222-234. The argument is the
string from index `i` on. (`int i` is compared with a `size_t` length: the model
holds for strings shorter than 2^31 bytes.) -/
def lstrip : Str → Str
  | [] => []                        -- loop not entered / ran off: `str` unchanged
  | c :: rest =>
    if !isSpace c then c :: rest     -- `str += i; break;`
    else if rest.isEmpty then []     -- `i == str_len - 1`: `str += str_len`
    else lstrip rest

/-- Loop of `bc_str_rstrip`, src/common/utils.c:246-258, at index `i = n - 1`;
`n = 0` is loop exit. -/
def rstripLoop (s : Str) : Nat → Str
  | 0 => s
  | n + 1 =>
    if !isSpace (s.getD n 0) then s.take (n + 1)   -- `str[i + 1] = '\0'`
    else if n = 0 then []                          -- `str[0] = '\0'`
    else rstripLoop s n

/-- `bc_str_rstrip`, src/common/utils.c:239-260. -/
def rstrip (s : Str) : Str := rstripLoop s s.length

/-- `bc_str_strip`, src/common/utils.c:263-267. -/
def strip (s : Str) : Str := lstrip (rstrip s)

/-! ## Prefix and suffix tests -/

/-- `bc_str_starts_with`, src/common/utils.c:193-201. -/
def startsWith (s pre : Str) : Bool :=
  if pre.length > s.length then false else s.take pre.length == pre

/-- `bc_str_ends_with`, src/common/utils.c:204-212. -/
def endsWith (s suf : Str) : Bool :=
  if suf.length > s.length then false else s.drop (s.length - suf.length) == suf

/-! ## Split, join, replace -/

/-- Loop of `bc_str_split`, src/common/utils.c:277-287. `rest` is `str + i`
without the terminator; `[]` is the terminator itself. -/
def splitLoop (str : Str) (c : Byte) (maxPieces : Nat) :
    (rest : Str) → (i start count : Nat) → List Str
  | [], i, start, _ => [slice str start i]
  | b :: rest, i, start, count =>
    if b = c ∧ (maxPieces = 0 ∨ count + 1 < maxPieces) then
      slice str start i :: splitLoop str c maxPieces rest (i + 1) (i + 1) (count + 1)
    else
      splitLoop str c maxPieces rest (i + 1) start count

/-- `bc_str_split`, src/common/utils.c:270-291, for a non-NULL string. An empty
string gives an empty vector (lines 278-279). -/
def split (str : Str) (c : Byte) (maxPieces : Nat) : List Str :=
  match str with
  | [] => []
  | _ :: _ => splitLoop str c maxPieces str 0 0 0

/-- `bc_strv_join`, src/common/utils.c:365-377. -/
def join (sep : Str) : List Str → Str
  | [] => []
  | [p] => p
  | p :: q :: rest => p ++ sep ++ join sep (q :: rest)

/-- `bc_str_replace`, src/common/utils.c:294-305. -/
def replace (str : Str) (search : Byte) (repl : Str) : Str :=
  join repl (split str search 0)

/-! ## Escaped search -/

/-- Loop of `bc_str_find`, src/common/utils.c:316-324. The argument is the
memory from `str + i` to the end of the object, including the terminator;
reading past the end is undefined. Returns the index found. -/
def findLoop (c : Byte) : (mem : Str) → (i : Nat) → Res (Option Nat)
  | [], _ => .ub
  | b :: rest, i =>
    if b = 0 then .ok none
    else if b = c!"\\" then
      match rest with
      | [] => .ub
      | _ :: rest' => findLoop c rest' (i + 2)
    else if b = c then .ok (some i)
    else findLoop c rest (i + 1)

/-- `bc_str_find`, src/common/utils.c:308-326, on a C string stored in a block
of exactly `strlen + 1` bytes. -/
def find (str : Str) (c : Byte) : Res (Option Nat) :=
  if c = 0 then .ok (some str.length) else findLoop c (str ++ [0]) 0

/-! ## Booleans -/

/-- ASCII lower-casing, as done by `strcasecmp` in the C locale. -/
def toLower (c : Byte) : Byte := if c!"A" ≤ c ∧ c ≤ c!"Z" then c + 32 else c

/-- `strcasecmp(a, b) == 0`. -/
def caseEq (a b : Str) : Bool := a.map toLower == b.map toLower

/-- `bc_str_to_bool`, src/common/utils.c:329-351; `none` is `NULL`. -/
def strToBool : Option Str → Bool
  | none => false
  | some s =>
    if s = b!"1" then true
    else if caseEq s b!"y" then true
    else if caseEq s b!"yes" then true
    else if caseEq s b!"true" then true
    else if caseEq s b!"on" then true
    else false

/-! ## Shell quoting -/

/-- One iteration of the loop of `bc_shell_quote`, src/common/utils.c:703-714. -/
def shellQuoteByte (b : Byte) : Str :=
  if b = c!"!" then b!"'\\!'"
  else if b = c!"'" then b!"'\\''"
  else [b]

/-- `bc_shell_quote`, src/common/utils.c:697-718; `none` is `NULL`. -/
def shellQuote : Option Str → Str
  | none => b!"''"
  | some s => [c!"'"] ++ s.flatMap shellQuoteByte ++ [c!"'"]

end Blogc
