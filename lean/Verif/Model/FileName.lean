import Verif.Model.Strings

/-!
# Model of `blogc_get_filename` and of the source list parser
-/

namespace Blogc

/-- The loop of src/blogc/loader.c:35-48, from `i = strlen(tmp)` down to 0.
`rev` is the string before position `i + 1` reversed (the first iteration, at
the terminator, changes nothing); `acc` is the C string that starts at position
`i + 1`. Storing the NUL at position `i` makes the C string that starts there
empty. (`int i`: the model holds for paths shorter than 2^31 bytes.) -/
def filenameLoop : (rev : Str) → (removedDot : Bool) → (acc : Str) → Str
  | [], _, acc => acc
  | c :: rev, removedDot, acc =>
    if !removedDot && c == c!"." then filenameLoop rev true []
    else if c == c!"/" || c == c!"\\" then acc
    else filenameLoop rev removedDot (c :: acc)

/-- `blogc_get_filename`, src/blogc/loader.c:20-54. -/
def getFilename : Option Str → Option Str
  | none => none
  | some [] => none
  | some f => some (filenameLoop f.reverse false [])

namespace FileList

/-- `blogc_filelist_parser_state_t`, src/blogc/filelist-parser.c:7-10. `comment`
stands for being inside the inner loop of lines 30-34. -/
inductive State where
  | lineStart | line | comment
  deriving DecidableEq, Repr

def isEol (c : Byte) : Bool := c == c!"\r" || c == c!"\n"

/-- The loop of src/blogc/filelist-parser.c:21-56; the result is the list of the
entries still to be appended, `line` the bytes collected. `is_last` is
`rest.isEmpty`. The inner loop of lines 30-34 stops on the line ending, which
is then skipped by line 55. The `continue` of line 40 handles the same byte in
the `LINE` case. The entries are the C strings of the collected bytes. -/
def loop : State → (line : Str) → Str → List Str
  | _, _, [] => []
  | .comment, line, c :: rest =>
    if isEol c then loop .lineStart line rest else loop .comment line rest
  | .lineStart, line, c :: rest =>
    if c == c!"#" then loop .comment line rest
    else if c == c!" " || c == c!"\t" || c == c!"\r" || c == c!"\n" then loop .lineStart line rest
    else if isEol c || rest.isEmpty then
      strip (cstr (if rest.isEmpty && !isEol c then line ++ [c] else line)) ::
        loop .lineStart [] rest
    else loop .line (line ++ [c]) rest
  | .line, line, c :: rest =>
    if isEol c || rest.isEmpty then
      strip (cstr (if rest.isEmpty && !isEol c then line ++ [c] else line)) ::
        loop .lineStart [] rest
    else loop .line (line ++ [c]) rest

/-- `blogc_filelist_parse`, src/blogc/filelist-parser.c:13-61. -/
def parse (src : Str) : List Str := loop .lineStart [] src

end FileList

end Blogc
