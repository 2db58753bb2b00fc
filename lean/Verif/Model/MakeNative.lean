import Verif.Prog
import Verif.Model.File
import Verif.Model.MakeRules

/-!
# Model of src/blogc-make/exec-native.c
-/

namespace Blogc.Make

open Blogc

/-! ## Copying -/

/-- The directories created for a file, in order: src/blogc-make/exec-native.c:30-47,
where `pre` is the text before `tmp`. (The same loop is in
`blogc_mkdir_recursive`, src/blogc/main.c:91-123, with a `/` or a `\`.) -/
def parentDirs (pre : Str) : Str → List Str
  | [] => []
  | c :: rest =>
    (if (c = c!"/" ∨ c = c!"\\") ∧ pre ≠ [] then [pre] else []) ++ parentDirs (pre ++ [c]) rest

/-- The inner loop of `bm_exec_native_cp`, src/blogc-make/exec-native.c:68-79, on
the bytes not written yet. Each element of `writes` is the outcome of one `write`:
`none` is an error, `some n` a call that takes at most `n` bytes. The result is
`none` while there are no more outcomes; else what was written, the remaining
outcomes and whether all went well. -/
def copyChunk (buf : Str) : List (Option Nat) → Option (Str × List (Option Nat) × Bool)
  | [] => none
  | none :: ws => some ([], ws, false)
  | some n :: ws =>
    let rest := buf.drop n
    if rest = [] then some (buf, ws, true)
    else
      match copyChunk rest ws with
      | none => none
      | some (w, ws, ok) => some (buf.take n ++ w, ws, ok)

/-- How many bytes a `read` returns that found `avail` bytes before the end of the
file, when the system gives at most `n` at once. It is 0 only at the end. -/
def readCount (n avail : Nat) : Nat := min avail (min fileChunkSize (max n 1))

/-- The outer loop of `bm_exec_native_cp`, src/blogc-make/exec-native.c:64-85. `src`
is the rest of the source, `reads` are the outcomes of `read` (`none` is an
error), `writes` those of `write`. The result is `none` while there are no more
outcomes; else what was written and whether the copy succeeded. -/
def copyLoop (src : Str) : List (Option Nat) → List (Option Nat) → Option (Str × Bool)
  | [], _ => none
  | none :: _, _ => some ([], true)              -- -1 ends the loop like 0
  | some n :: rs, ws =>
    let nread := readCount n src.length
    if nread = 0 then some ([], true)
    else
      match copyChunk (src.take nread) ws with
      | none => none
      | some (w, _, false) => some (w, false)
      | some (w, ws, true) =>
        match copyLoop (src.drop nread) rs ws with
        | none => none
        | some (w', ok) => some (w ++ w', ok)

/-- `bm_exec_native_cp` once both files are open, src/blogc-make/exec-native.c:49-85.
The destination is emptied when it is opened (line 56): if it is the source
(`same`), nothing is left to read. -/
def copyFile (same : Bool) (src : Str) (reads writes : List (Option Nat)) : Option (Str × Bool) :=
  copyLoop (if same then [] else src) reads writes

/-! ## Removing -/

/-- `s` without the slashes at its end. -/
def stripSlashes (s : Str) : Str := (s.reverse.dropWhile (· == c!"/")).reverse

/-- `s` up to its last slash. -/
def dropName (s : Str) : Str := (s.reverse.dropWhile (· != c!"/")).reverse

/-- `dirname` of POSIX. The optional special meaning of two leading slashes is
left out. -/
def dirname (s : Str) : Str :=
  if s = [] then b!"."
  else if stripSlashes s = [] then b!"/"
  else
    let u := dropName (stripSlashes s)
    if u = [] then b!"."
    else if stripSlashes u = [] then b!"/"
    else stripSlashes u

/-- The system calls of `bm_exec_native_rm`. `readDir` fails when the directory
cannot be read, `isEmpty` succeeds when it has no entries. -/
inductive RmCall where
  | unlink (path : Str)
  | readDir (dir : Str)
  | isEmpty (dir : Str)
  | rmdir (dir : Str)
  deriving DecidableEq

/-- The loop of `bm_exec_native_rm`, src/blogc-make/exec-native.c:149-181, with
`bm_exec_native_is_empty_dir` (lines 89-122; a directory that does not exist is
read and empty, lines 94-96). `k` is what follows, with the value of `rv`; it
is `none` when the fuel is used up, which does not happen (`C61.loop_ends`). -/
def rmLoop {α : Type} (outputDir : Str) (k : Option Nat → Prog RmCall α) :
    (fuel : Nat) → (shortDir dir : Str) → Prog RmCall α
  | 0, _, _ => k none
  | fuel + 1, shortDir, dir =>
    if shortDir = b!"." ∨ shortDir = b!"/" then k (some 0)
    else .call (.readDir dir) fun ok =>
      if ok = false then k (some 1)
      else .call (.isEmpty dir) fun empty =>
        if empty = false then k (some 0)
        else .call (.rmdir dir) fun ok =>
          if ok = false then k (some 1)
          else if dir = outputDir then k (some 0)
          else rmLoop outputDir k fuel (dirname shortDir) (dirname dir)

/-- `bm_exec_native_rm`, src/blogc-make/exec-native.c:125-187. -/
def rm {α : Type} (outputDir : Str) (path shortPath : Str) (k : Option Nat → Prog RmCall α) : Prog RmCall α :=
  .call (.unlink path) fun ok =>
    if ok = false then k (some 1)
    else rmLoop outputDir k (shortPath.length + 2) (dirname shortPath) (dirname path)

/-- `clean_exec`, src/blogc-make/rules.c:721-745, without the warning of lines
740-742. -/
def clean (outputDir : Str) : List FileCtx → Prog RmCall (Option Nat)
  | [] => .ret (some 0)
  | f :: fs =>
    if f.readable then
      rm outputDir f.path f.shortPath fun rv => if rv = some 0 then clean outputDir fs else .ret rv
    else clean outputDir fs

end Blogc.Make
