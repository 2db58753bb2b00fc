import Verif.Model.Utf8

/-!
# Model of `src/common/file.c` and `src/common/stdin.c`
-/

namespace Blogc

/-- `BC_FILE_CHUNK_SIZE`, src/common/file.h:10. -/
def fileChunkSize : Nat := 1024

/-- A stream as seen through `fread`/`feof`: the answer of the `i`-th `fread` of
1024 bytes, and whether the end-of-file indicator is set after it. A read error
is an empty answer without the indicator. -/
abbrev Stream := Nat → Str × Bool

/-- Body of the read loop, src/common/file.c:38-49: the accumulated bytes after
appending one chunk, with a byte-order mark skipped if nothing was read yet. -/
def fileAppendChunk (utf8 : Bool) (acc chunk : Str) : Str :=
  let skip := if utf8 && acc.length == 0 && decide (chunk.length > 0)
    then utf8SkipBom chunk else 0
  acc ++ chunk.drop skip

/-- The loop `while (!feof(fp))`, src/common/file.c:35-50. `*len` always equals
`str->len`, the length of the accumulated bytes (both start at 0 and grow by
`read_len`, lines 48-49). `none`: fuel exhausted. -/
def fileReadLoop (utf8 : Bool) (fp : Stream) :
    (fuel : Nat) → (i : Nat) → (eof : Bool) → (acc : Str) → Option Str
  | 0, _, _, _ => none
  | fuel + 1, i, eof, acc =>
    if eof then some acc
    else
      let r := fp i
      fileReadLoop utf8 fp fuel (i + 1) r.2 (fileAppendChunk utf8 acc r.1)

/-- A regular file with the given content: `fread` fills the buffer unless the
end of the file is reached, and then sets the end-of-file indicator. -/
def regularFile (content : Str) : Stream := fun i =>
  let chunk := (content.drop (fileChunkSize * i)).take fileChunkSize
  (chunk, decide (chunk.length < fileChunkSize))

/-- A stream whose every read fails, such as a directory opened with `fopen(path,
"r")` on Linux (`EISDIR`): no data, and never end of file. -/
def failingFile : Stream := fun _ => ([], false)

/-- Result of loading a file: the bytes handed to the caller (with their
number), or the "File content is not valid UTF-8" error. -/
inductive FileResult where
  | contents (bytes : Str)
  | notUtf8
  deriving DecidableEq, Repr

/-- `bc_file_get_contents` on a stream that could be opened,
src/common/file.c:15-61. -/
def fileGetContents (utf8 : Bool) (fp : Stream) (fuel : Nat) : Option (Res FileResult) :=
  match fileReadLoop utf8 fp fuel 0 false [] with
  | none => none
  | some bytes =>
    if utf8 then
      match utf8Validate bytes with
      | .ub => some .ub
      | .ok valid => some (.ok (if valid then .contents bytes else .notUtf8))
    else some (.ok (.contents bytes))

/-- `bc_stdin_read`, src/common/stdin.c:12-24: every byte up to the end of the
input, one `fgetc` at a time (`acc` is the dynamic string). -/
def stdinRead (acc : Str) : Str → Str
  | [] => acc
  | c :: rest => stdinRead (acc ++ [c]) rest

end Blogc
