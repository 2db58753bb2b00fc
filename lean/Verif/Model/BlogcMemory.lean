import Verif.Model.Program

/-!
# Model of what a run of blogc allocates and releases

src/blogc/main.c, src/blogc/loader.c, src/blogc/source-parser.c and src/blogc/filelist-parser.c: the
control flow is that of the other models, here with the calls of `malloc` and `free`.

A table (`bc_trie_t`) is one block with all values that were given to it, a list of texts one block with
its texts, an error one block with its message (for tables and lists see Model/Heap.lean). What a function
allocates and releases before it returns is left out for the parsers of contents and of templates and for
the renderer. Memory does not run out (`bc_malloc`, src/common/utils.c:15-25).
-/

namespace Blogc.BlogcMem

open Blogc

/-- Memory and open files, by the names of the variables that hold them. -/
inductive Thing where
  -- main.c
  | config | sources | entries | entrySources
  | template (i : Nat) | output (i : Nat) | print (i : Nat)  -- made for the `i`-th argument
  | pieces | input | err | value | ast | out | outFile | dirName
  -- loader.c
  | table (n : Nat)  -- of the `n`-th file read
  | loaded           -- `sources`
  | reversed         -- `tmp_sources`
  | kept             -- `rv`
  | tmpErr | timestamp | tags | nameCopy | filename
  | file | text      -- `fp` and `s` of `bc_file_get_contents`
  -- source-parser.c
  | key (n : Nat)    -- of the `n`-th file read
  | tmp | content | firstHeader | description | endl | headers | toctree
  /-- a new text on its way into a list or a table -/
  | str
  deriving DecidableEq, Repr

inductive Event where
  | acquire (x : Thing)
  | release (x : Thing)
  | use (x : Thing)
  /-- `x` becomes a part of `y`. -/
  | give (x y : Thing)
  /-- `free` of an address that `malloc` did not return. -/
  | wrongFree
  deriving DecidableEq, Repr

/-- `bc_slist_append`, src/common/utils.c:43-58: the empty list is NULL. -/
def appendTo (l : Thing) (empty : Bool) : Event := if empty then .acquire l else .use l

/-- A text is copied and put into a table, or a list. -/
def putNew (y : Thing) : List Event := [.acquire .str, .give .str y]

/-! ## Source files -/

/-- src/blogc/source-parser.c:158-168, and 169-179 -/
def putOrFree (n : Nat) (x : Thing) (t : Trie Str) (name : Str) : Option Str → List Event
  | none => []
  | some _ => .use (.table n) :: if t.lookup name = none then [.give x (.table n)] else [.release x]

/-- Lines 180-203; the flag tells that an error was found. -/
def tocEvents (e : Thing) (n : Nat) (maxdepth : Int) (t : Trie Str) (r : Content.BSt) : List Event :=
  if r.headers = [] then []
  else
    .use (.table n) ::
    match Source.tableOfContents maxdepth t r with
    | .ok (.error _) => [.acquire e, .use (.table n), .release .headers, .release .endl, .release .content]
    | .ok (.ok t') =>
      [.use .headers, .use .endl] ++
        if t'.lookup b!"TOCTREE" = none then [.release .headers]
        else [.acquire .toctree, .release .headers, .give .toctree (.table n)]
    | _ => []

/-- Lines 147-208, with the results `r` of the content parser. `endl` is always allocated
(src/blogc/content-parser.c:702). -/
def contentEvents (e : Thing) (n : Nat) (maxdepth : Int) (t : Trie Str) (r : Content.BSt) : List Event :=
  let t2 := Source.insertNew t b!"FIRST_HEADER" r.firstHeader
  let t3 := Source.insertNew t2 b!"DESCRIPTION" r.description
  [.acquire .tmp, .give .tmp (.table n), .use (.table n), .acquire .endl, .acquire .content] ++
  (if r.firstHeader.isSome then [.acquire .firstHeader] else []) ++
  (if r.description.isSome then [.acquire .description] else []) ++
  (if r.headers = [] then [] else [.acquire .headers]) ++
  putOrFree n .firstHeader t b!"FIRST_HEADER" r.firstHeader ++
  putOrFree n .description t2 b!"DESCRIPTION" r.description ++
  tocEvents e n maxdepth t3 r ++
  match Source.tableOfContents maxdepth t3 r with
  | .ok (.ok _) => [.release .endl, .give .content (.table n), .use (.table n)] ++ putNew (.table n)
  | _ => []

/-- The `switch`, lines 46-210, where the next state is `next`. -/
def stepEvents (cp : Str → Bool → Run Content.BSt) (e : Thing) (n : Nat) (maxdepth : Int) (src : Str)
    (current : Nat) (st : Source.St) (next : Run (Except Source.Err Source.St)) : List Event :=
  match st.state with
  | .start | .separator | .contentStart =>
    match next with
    | .ok (.error _) => [.acquire e]
    | _ => []
  | .key =>
    match next with
    | .ok (.error (.forbidden _)) => [.acquire (.key n), .acquire e, .use (.key n)]
    | .ok (.error _) => [.acquire e]
    | .ok (.ok st') => if st'.state = .valueStart then [.acquire (.key n)] else []
    | _ => []
  | .valueStart =>
    match next with
    | .ok (.ok st') =>
      if st'.state = .start then [.acquire .str, .use (.key n), .give .str (.table n), .release (.key n)] else []
    | _ => []
  | .value =>
    match next with
    | .ok (.ok st') =>
      if st'.state = .start then
        [.acquire .tmp, .use .tmp, .acquire .str, .use (.key n), .give .str (.table n), .release .tmp, .release (.key n)]
      else []
    | _ => []
  | .content =>
    if current + 1 = src.length then
      let text := cstr (src.drop st.start)
      let t := (st.rv.insert b!"RAW_CONTENT" text).1
      match cp text (t.lookup b!"TOCTREE" = none) with
      | .ok r => contentEvents e n maxdepth t r
      | _ => []
    else []

/-- Lines 250-254; the flag tells if `key` is not NULL. -/
def giveUp (n : Nat) (key : Bool) : List Event :=
  (if key then [.release (.key n)] else []) ++ [.release (.table n)]

/-- Whether `key` is not NULL after an error. -/
def keyAfter (st : Source.St) : Source.Err → Bool
  | .forbidden _ => true
  | _ => st.key.isSome

/-- Lines 218-256. -/
def finishEvents (e : Thing) (n current : Nat) (st : Source.St) : List Event :=
  match Source.finish current st with
  | .ok _ => []
  | .error _ => [.acquire e] ++ (if st.key.isSome then [.use (.key n)] else []) ++ giveUp n st.key.isSome

/-- The loop of lines 43-216, and the rest. -/
def loopEvents (cp : Str → Bool → Run Content.BSt) (e : Thing) (n : Nat) (maxdepth : Int) (src : Str) :
    Str → (current : Nat) → Source.St → List Event
  | [], current, st => finishEvents e n current st
  | c :: rest, current, st =>
    let next := Source.step cp maxdepth src current st c
    stepEvents cp e n maxdepth src current st next ++
    match next with
    | .ok (.ok st') => loopEvents cp e n maxdepth src rest (current + 1) st'
    | .ok (.error er) => giveUp n (keyAfter st er)
    | _ => []

/-- `blogc_source_parse`, src/blogc/source-parser.c:25-257. -/
def parseEvents (cp : Str → Bool → Run Content.BSt) (e : Thing) (n : Nat) (src : Str) (maxdepth : Int) : List Event :=
  .acquire (.table n) :: loopEvents cp e n maxdepth src src 0 Source.St.init

/-- The files a run reads, and the bounds of the model. -/
structure World where
  files : Program.Files
  depth : Nat
  fuel : Nat

/-- `bc_file_get_contents`, src/common/file.c:15-61. -/
def readEvents (w : World) (e : Thing) (f : Str) : List Event :=
  match w.files f with
  | none => [.acquire e]
  | some _ =>
    [.acquire .file, .acquire .text, .use .file, .use .text, .release .file] ++
    match Program.readText w.files w.fuel f with
    | .ok none => [.acquire e, .release .text]
    | _ => []

/-- `blogc_get_filename` and line 101 of src/blogc/loader.c; lines 20-54 there. -/
def filenameEvents (n : Nat) (f : Str) : List Event :=
  match getFilename (some f) with
  | none => []
  | some _ => [.acquire .nameCopy, .use .nameCopy, .acquire .filename, .release .nameCopy, .give .filename (.table n)]

/-- `blogc_source_parse_from_file`, src/blogc/loader.c:73-106; an error is left in `e`. -/
def sourceEvents (w : World) (e : Thing) (n : Nat) (maxdepth : Option Str) (f : Str) : List Event :=
  readEvents w e f ++
  match Program.readText w.files w.fuel f with
  | .ok (some s) =>
    [.use .config] ++ parseEvents (Content.parse w.depth) e n s (Program.maxdepthOf maxdepth) ++
    (match Source.parse (Content.parse w.depth) s (Program.maxdepthOf maxdepth) with
      | .ok (.ok _) => filenameEvents n f
      | _ => []) ++ [.release .text]
  | _ => []

/-- Its outcome. -/
def source (w : World) (maxdepth : Option Str) (f : Str) : Option (Trie Str) :=
  Program.value (Program.readSource w.files w.depth w.fuel maxdepth f)

/-! ## The loader -/

/-- `bc_slist_free_full(l, bc_trie_free)`, src/common/utils.c:88-98. -/
def freeTables (l : Thing) (ts : List Nat) : List Event :=
  ts.map (fun n => .release (.table n)) ++ if ts = [] then [] else [.release l]

abbrev Tables := List (Nat × Trie Str)

/-- The loop of src/blogc/loader.c:144-186: `n` is the number of the next file, `acc` are the sources
already loaded. The outcome is `none` for an error; otherwise the sources and `with_date`. -/
def load (w : World) (stamp : Str → Option Str) (maxdepth : Option Str) (sort : Bool) :
    (n : Nat) → (acc : Tables) → (dates : Nat) → List Str → Option (Tables × Nat) × List Event
  | _, acc, dates, [] => (some (acc, dates), [])
  | n, acc, dates, f :: l =>
    let pre := sourceEvents w .tmpErr n maxdepth f
    match source w maxdepth f with
    | none => (none, pre ++ [.acquire .err, .use .tmpErr, .release .tmpErr] ++ freeTables .loaded (acc.map (·.1)))
    | some s =>
      let date := s.lookup b!"DATE"
      let pre := pre ++ [.use (.table n)]
      let dates := (if date.isSome then 1 else 0) + dates
      if sort then
        match date with
        | none => (none, pre ++ [.acquire .err, .release (.table n)] ++ freeTables .loaded (acc.map (·.1)))
        | some d =>
          match stamp d with
          | none =>
            (none, pre ++ [.use (.table n), .acquire .tmpErr, .acquire .err, .use .tmpErr, .release .tmpErr,
              .release (.table n)] ++ freeTables .loaded (acc.map (·.1)))
          | some ts =>
            let r := load w stamp maxdepth sort (n + 1) (acc ++ [(n, Loader.set s b!"c" ts)]) dates l
            (r.1, pre ++ [.use (.table n), .acquire .timestamp, .give .timestamp (.table n),
              appendTo .loaded acc.isEmpty] ++ r.2)
      else
        let r := load w stamp maxdepth sort (n + 1) (acc ++ [(n, s)]) dates l
        (r.1, pre ++ [appendTo .loaded acc.isEmpty] ++ r.2)

/-- Lines 196-210: the order of the sources; `none` if the model of sorting gives none (C10). -/
def order (sort reverse : Bool) (l : Tables) : Option Tables :=
  if sort then
    match slistSort (fun _ a b => if reverse then Loader.sortSourceReverse a.2 b.2 else Loader.sortSource a.2 b.2)
        (l.length + 1) l with
    | some (.ok r) => some r
    | _ => none
  else if reverse then some l.reverse
  else some l

/-- Which list the sources are in afterwards, and what is done for it: lines 198-210. -/
def orderEvents (sort reverse : Bool) (l : Tables) : Thing × List Event :=
  if sort then (.loaded, if l = [] then [] else .use .loaded :: l.map fun t => .use (.table t.1))
  else if reverse then
    (.reversed, if l = [] then [] else [.use .loaded, .acquire .reversed, .release .loaded])
  else (.loaded, [])

/-- Looking for the tag, lines 243-259. -/
def tagEvents (filterTag : Option Str) (n : Nat) (s : Trie Str) : List Event :=
  match filterTag with
  | none => []
  | some _ =>
    .use (.table n) ::
    match s.lookup b!"TAGS" with
    | none => []
    | some _ => [.use .config, .acquire .tags, .use .tags, .release .tags]

/-- The loop of lines 241-273; `empty` tells if `rv` is NULL. -/
def pageEvents (filterTag : Option Str) (paged : Bool) (start stop : Nat) :
    Tables → (counter : Nat) → (empty : Bool) → Tables × List Event
  | [], _, _ => ([], [])
  | (n, s) :: l, counter, empty =>
    let tag := tagEvents filterTag n s
    if !Loader.tagOk filterTag s then
      let r := pageEvents filterTag paged start stop l counter empty
      (r.1, tag ++ [.release (.table n)] ++ r.2)
    else if paged && (counter < start || counter ≥ stop) then
      let r := pageEvents filterTag paged start stop l (counter + 1) empty
      (r.1, tag ++ [.release (.table n)] ++ r.2)
    else
      let r := pageEvents filterTag paged start stop l (if paged then counter + 1 else counter) false
      ((n, s) :: r.1, tag ++ [appendTo .kept empty] ++ r.2)

/-- Copies of a variable, lines 281-286 and 290-295. -/
def copyEvents (n : Nat) (s : Trie Str) : List Event :=
  [.use (.table n)] ++ (if (s.lookup b!"DATE").isSome then putNew .config else []) ++
  [.use (.table n)] ++ (if (s.lookup b!"FILENAME").isSome then putNew .config else [])

/-- The loop of lines 277-297. -/
def firstLastEvents : (first : Bool) → Tables → List Event
  | _, [] => []
  | first, (n, s) :: l =>
    (if first then copyEvents n s else []) ++ (if l.isEmpty then copyEvents n s else []) ++ firstLastEvents false l

/-- The page variables, lines 299-310: at most five texts. -/
def pageVarEvents (page last : Nat) (rvEmpty : Bool) : List Event :=
  putNew .config ++ (if page > 1 then putNew .config else []) ++ (if page < last then putNew .config else []) ++
  (if rvEmpty then [] else putNew .config) ++ (if last > 0 then putNew .config else [])

/-- Lines 212-312, for the ordered sources in the list `list`. -/
def selectEvents (conf : Trie Str) (list : Thing) (l : Tables) : Tables × List Event :=
  let filterPage := conf.lookup b!"FILTER_PAGE"
  let page := Loader.pageOf filterPage
  let perPage := Loader.perPageOf (conf.lookup b!"FILTER_PER_PAGE")
  let start := (page - 1) * perPage
  let r := pageEvents (conf.lookup b!"FILTER_TAG") filterPage.isSome start (start + perPage) l 0 true
  let counter := (Loader.pageLoop (conf.lookup b!"FILTER_TAG") filterPage.isSome start (start + perPage)
    (l.map (·.2)) 0).2
  (r.1, [.use .config] ++ r.2 ++ (if l = [] then [] else [.release list]) ++ firstLastEvents true r.1 ++
    if filterPage.isSome then
      match Loader.lastPage counter perPage with
      | .ok last => pageVarEvents page last r.1.isEmpty
      | .ub => []
    else [])

/-- `blogc_source_parse_from_files`, src/blogc/loader.c:133-313: `none` is an error. -/
def filesEvents (w : World) (stamp : Str → Option Str) (conf : Trie Str) (l : List Str) :
    Option Tables × List Event :=
  let sort := strToBool (conf.lookup b!"FILTER_SORT")
  let reverse := strToBool (conf.lookup b!"FILTER_REVERSE")
  let r := load w stamp (conf.lookup b!"TOCTREE_MAXDEPTH") sort 0 [] 0 l
  match r.1 with
  | none => (none, [.use .config] ++ r.2)
  | some (ts, dates) =>
    if dates > 0 ∧ dates < l.length then
      (none, [.use .config] ++ r.2 ++ [.acquire .err] ++ freeTables .loaded (ts.map (·.1)))
    else
      match order sort reverse ts with
      | none => (none, [])
      | some ts' =>
        let o := orderEvents sort reverse ts
        let s := selectEvents conf o.1 ts'
        (some s.1, [.use .config] ++ r.2 ++ [.use .config] ++ o.2 ++ s.2)

/-! ## The list of sources -/

/-- The lines that `blogc_filelist_parse` takes, before `bc_str_strip` (line 45 of
src/blogc/filelist-parser.c); otherwise as `FileList.loop`. -/
def rawLines : FileList.State → (line : Str) → Str → List Str
  | _, _, [] => []
  | .comment, line, c :: rest =>
    if FileList.isEol c then rawLines .lineStart line rest else rawLines .comment line rest
  | .lineStart, line, c :: rest =>
    if c == c!"#" then rawLines .comment line rest
    else if c == c!" " || c == c!"\t" || c == c!"\r" || c == c!"\n" then rawLines .lineStart line rest
    else if FileList.isEol c || rest.isEmpty then
      cstr (if rest.isEmpty && !FileList.isEol c then line ++ [c] else line) :: rawLines .lineStart [] rest
    else rawLines .line (line ++ [c]) rest
  | .line, line, c :: rest =>
    if FileList.isEol c || rest.isEmpty then
      cstr (if rest.isEmpty && !FileList.isEol c then line ++ [c] else line) :: rawLines .lineStart [] rest
    else rawLines .line (line ++ [c]) rest

/-- `bc_str_strip` gives the address it gets: `bc_str_lstrip` (src/common/utils.c:215-236) skips
nothing. -/
def keepsAddress (line : Str) : Bool := lstrip (rstrip line) == rstrip line

/-! ## The program -/

/-- The numbers of the arguments that `template`, `output` and `print` were made for. -/
structure Slots where
  template : Option Nat := none
  output : Option Nat := none
  print : Option Nat := none

/-- `-D`, src/blogc/main.c:199-239. -/
def defineEvents (value : Str) (o : Main.Opts) : List Event :=
  match utf8Validate value with
  | .ok true =>
    [.acquire .pieces, .use .pieces] ++
    match Main.define value o with
    | .ok (.ok _) => [.acquire .str, .use .pieces, .give .str .config, .release .pieces]
    | _ => [.release .pieces]
  | _ => []

/-- An option with its value, src/blogc/main.c:170-240; `i` is the number of the argument. -/
def valueEvents (opt : Byte) (i : Nat) (value : Str) (o : Main.Opts) : List Event :=
  if opt = c!"e" then [.acquire .str, appendTo .entries o.entries.isEmpty, .give .str .entries]
  else if opt = c!"t" then [.acquire (.template i)]
  else if opt = c!"o" then [.acquire (.output i)]
  else if opt = c!"p" then [.acquire (.print i)]
  else defineEvents value o

/-- The pointers after it. -/
def slotsAfter (opt : Byte) (i : Nat) (s : Slots) : Slots :=
  if opt = c!"t" then { s with template := some i }
  else if opt = c!"o" then { s with output := some i }
  else if opt = c!"p" then { s with print := some i }
  else s

/-- The loop over the arguments, src/blogc/main.c:151-265: what was read so far, and whether the program
ends (`goto cleanup`). -/
def argEvents (make : Bool) : (pending : Option Byte) → (i : Nat) → List Str → Main.Opts → Slots →
    Bool × Main.Opts × Slots × List Event
  | _, _, [], o, s => (false, o, s, [])
  | some c, i, v :: rest, o, s =>
    let s' := slotsAfter c i s
    match Main.withValue c v o with
    | .ok (.ok o') =>
      let r := argEvents make none (i + 1) rest o' s'
      (r.1, r.2.1, r.2.2.1, valueEvents c i v o ++ r.2.2.2)
    | _ => (true, o, s', valueEvents c i v o)
  | none, i, a :: rest, o, s =>
    if a.head? = some c!"-" then
      match a.tail with
      | [] => (true, o, s, [])
      | c :: attached =>
        let takes := c = c!"e" ∨ c = c!"t" ∨ c = c!"o" ∨ c = c!"p" ∨ c = c!"D"
        let s' := if takes ∧ attached ≠ [] then slotsAfter c i s else s
        let ev := if takes ∧ attached ≠ [] then valueEvents c i attached o else []
        match Main.option make c attached o with
        | .ok (.go o') =>
          let r := argEvents make none (i + 1) rest o' s'
          (r.1, r.2.1, r.2.2.1, ev ++ r.2.2.2)
        | .ok (.wait c) =>
          let r := argEvents make (some c) (i + 1) rest o s
          (r.1, r.2.1, r.2.2.1, ev ++ r.2.2.2)
        | _ => (true, o, s', ev)
    else
      let r := argEvents make none (i + 1) rest { o with sources := o.sources ++ [a] } s
      (r.1, r.2.1, r.2.2.1, [.acquire .str, appendTo .sources o.sources.isEmpty, .give .str .sources] ++ r.2.2.2)

/-- `free` of a pointer that may be NULL. -/
def freeSlot (mk : Nat → Thing) : Option Nat → List Event
  | none => []
  | some i => [.release (mk i)]

/-- Lines 379-386: `noEntries` and `sources` tell what is in the lists of names, `es` are the tables of
`listing_entries_source`. -/
def cleanup (s : Slots) (noEntries : Bool) (es : List (Option Nat)) (noSources addressesOk : Bool) : List Event :=
  [.release .config] ++ freeSlot .template s.template ++ freeSlot .output s.output ++ freeSlot .print s.print ++
  (if noEntries then [] else [.release .entries]) ++
  (es.filterMap id).map (fun n => .release (.table n)) ++ (if es = [] then [] else [.release .entrySources]) ++
  (if noSources then [] else if addressesOk then [.release .sources] else [.wrongFree, .release .sources])

/-- Lines 376-378: after the sources. -/
def cleanup2 (kept : List Nat) (err : Bool) : List Event :=
  freeTables .kept kept ++ if err then [.release .err] else []

/-- The loop of lines 300-312: `n` is the number of the next file; the outcome are the tables and whether
there was an error. -/
def entryEvents (w : World) (maxdepth : Option Str) :
    (n : Nat) → (acc : List (Option Nat)) → List Str → List (Option Nat) × Bool × List Event
  | _, acc, [] => (acc, false, [])
  | n, acc, f :: fs =>
    if f = [] then
      let r := entryEvents w maxdepth n (acc ++ [none]) fs
      (r.1, r.2.1, [.use .entries, appendTo .entrySources acc.isEmpty] ++ r.2.2)
    else
      let pre := [.use .entries] ++ sourceEvents w .err n maxdepth f
      match source w maxdepth f with
      | none => (acc, true, pre ++ [.use .err])
      | some _ =>
        let r := entryEvents w maxdepth (n + 1) (acc ++ [some n]) fs
        (r.1, r.2.1, pre ++ [appendTo .entrySources acc.isEmpty] ++ r.2.2)

/-- What happens on the disk when the output is written: a directory cannot be made, the file cannot be
opened, or neither. -/
inductive Disk where
  | noDirectory | noFile | fine
  deriving DecidableEq, Repr

/-- Lines 352-370; the flag tells if the process ends at once (line 112). -/
def writeEvents (disk : Disk) (s : Slots) (o : Main.Opts) (hasOut : Bool) : Bool × List Event :=
  match s.output with
  | none => (false, if hasOut then [.use .out] else [])
  | some i =>
    if o.output = some b!"-" then (false, [.use (.output i)] ++ if hasOut then [.use .out] else [])
    else
      let pre := [.use (.output i), .acquire .dirName, .use .dirName, .release .dirName]
      match disk with
      | .noDirectory => (true, pre)
      | .noFile => (false, pre ++ [.use (.output i)])
      | .fine =>
        (false, pre ++ [.acquire .outFile] ++ (if hasOut then [.use .out] else []) ++ [.use .outFile, .release .outFile])

/-- Lines 341-375, and 67-69 of src/blogc/loader.c, with the outcome of `blogc_template_parse`. -/
def astEvents (disk : Disk) (s : Slots) (o : Main.Opts) (ts : List Nat) :
    Res (Except Template.Err (List Template.Node)) → Bool × Bool × List Event
  | .ok (.ok []) =>
    let r := writeEvents disk s o false
    (false, r.1, [.use .text, .release .text] ++ r.2)
  | .ok (.ok _) =>
    let r := writeEvents disk s o true
    (false, r.1, [.use .text, .acquire .ast, .release .text, .use .ast, .use .config] ++
      ts.map (fun n => .use (.table n)) ++ [.acquire .out] ++ r.2 ++ if r.1 then [] else [.release .out, .release .ast])
  | .ok (.error _) => (true, false, [.use .text, .acquire .err, .release .text, .use .err])
  | .ub => (false, true, [])

/-- Lines 340-375, with the outcome of `bc_file_get_contents`. -/
def textEvents (disk : Disk) (s : Slots) (o : Main.Opts) (ts : List Nat) : Run (Option Str) → Bool × Bool × List Event
  | .ok (some text) => astEvents disk s o ts (Template.parse text)
  | .ok none => (true, false, [.use .err])
  | _ => (false, true, [])

/-- Lines 315-375: printing a variable or writing a page, with the tables `ts` of sources and entries. The
flags tell if there is an error in `err`, and if the process ends at once. -/
def outputEvents (w : World) (disk : Disk) (s : Slots) (o : Main.Opts) (found : Bool) (ts : List Nat) :
    Bool × Bool × List Event :=
  match s.print with
  | some i =>
    (false, false, [.use (.print i), .use .config] ++ ts.map (fun n => .use (.table n)) ++
      if found then [.acquire .value, .use .value, .release .value] else [])
  | none =>
    match s.template, o.template with
    | some i, some t =>
      let r := textEvents disk s o ts (Program.readText w.files w.fuel t)
      (r.1, r.2.1, [.use (.template i)] ++ readEvents w .err t ++ r.2.2)
    | _, _ => (false, false, [])

/-- What of the surroundings matters. -/
structure Host where
  make : Bool
  version : Str
  stdin : Str
  stamp : Str → Option Str
  disk : Disk
  /-- Whether `blogc_format_variable` finds the variable to print. -/
  found : Bool

/-- The lines of standard input that are used, lines 267-270. -/
def stdinLines (h : Host) (o : Main.Opts) : List Str :=
  if o.stdin then rawLines .lineStart [] (stdinRead [] h.stdin) else []

/-- Lines 267-273. -/
def stdinEvents (h : Host) (o : Main.Opts) : List Event :=
  if o.stdin then
    [.acquire .input, .use .input] ++ (if stdinLines h o = [] then [] else [appendTo .sources o.sources.isEmpty]) ++
      [.release .input]
  else []

/-- Lines 275-388; `addressesOk` tells if the texts in `sources` are at addresses that `malloc` returned. -/
def restEvents (h : Host) (w : World) (o : Main.Opts) (s : Slots) (sources : List Str) (addressesOk : Bool) : List Event :=
  let end1 := fun es => cleanup s o.entries.isEmpty es sources.isEmpty addressesOk
  if !o.listing && sources.length != 1 then end1 []
  else
    let r := filesEvents w h.stamp o.config sources
    match r.1 with
    | none => r.2 ++ [.use .err] ++ cleanup2 [] true ++ end1 []
    | some ts =>
      let kept := ts.map (·.1)
      let e := if o.listing then
          entryEvents w (o.config.lookup b!"TOCTREE_MAXDEPTH") sources.length [] o.entries
        else ([], false, [])
      if e.2.1 then r.2 ++ e.2.2 ++ cleanup2 kept true ++ end1 e.1
      else
        let p := outputEvents w h.disk s o h.found (kept ++ e.1.filterMap id)
        r.2 ++ e.2.2 ++ p.2.2 ++ if p.2.1 then [] else cleanup2 kept p.1 ++ end1 e.1

/-- `main` after the command line, src/blogc/main.c:267-388. -/
def bodyEvents (h : Host) (w : World) (o : Main.Opts) (s : Slots) : List Event :=
  stdinEvents h o ++ restEvents h w o s (o.sources ++ (stdinLines h o).map strip) ((stdinLines h o).all keepsAddress)

/-- `main`, src/blogc/main.c:126-388. -/
def mainEvents (h : Host) (w : World) (args : List Str) : List Event :=
  let a := argEvents h.make none 1 args (Main.initial h.version) {}
  [.acquire .config] ++ putNew .config ++ a.2.2.2 ++
  if a.1 then cleanup a.2.2.1 a.2.1.entries.isEmpty [] a.2.1.sources.isEmpty true
  else bodyEvents h w a.2.1 a.2.2.1

end Blogc.BlogcMem
