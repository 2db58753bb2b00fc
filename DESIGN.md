# Formal model of blogc in Lean 4: design

This file says what is modelled, how each property of `properties.jsonl` is
stated and proved, and what is trusted.

## Conventions of the model

* A C byte is `UInt8`; a byte string is `List UInt8` (`Str`). `b!"abc"` is the
  literal list of the bytes of `abc`, `c!"a"` the byte of `a`.
* A NUL-terminated C string is a `Str` with no `0` in it; functions that copy
  out of a counted buffer with `bc_strndup` truncate at the first NUL, and the
  model does the same (`cstr`).
* Undefined behaviour (out-of-bounds access, null dereference, use after free)
  is a distinct outcome of the model (`Res.ub`), never a default value.
  Reading a source buffer of `len` bytes is modelled on the buffer *plus* its
  NUL terminator where the C code owns one.
* `malloc` never fails (`bc_malloc` aborts the process when it does).
* `size_t` is `Nat` unless a property is about wrap-around; places where the
  code relies on no overflow are mentioned beside the definition.
* Loops are structural recursions over the remaining input or carry an explicit
  measure; where termination is the property, the model is a step relation.
* System calls are parameters (an oracle for the file system, the scheduler or
  the reads of a descriptor), and theorems quantify over every oracle.

## Layout

* `Verif/Basic.lean`        bytes, literals, outcome type.
* `Verif/Model/*.lean`      the model; each definition cites file and lines.
* `Verif/Spec/*.lean`       small independent specifications.
* `Verif/Lemmas/*.lean`     helper lemmas.
* `Verif/Props/*.lean`      the property theorems, with non-vacuity examples.

When the code violates a property as stated, the violation is proved with a
concrete witness (theorem name ending in `_violated`) and the strongest true
part is proved under the suffix `_partial`.

## Plan per property

| id | model | proof |
|----|-------|-------|
| C01 | `bc_string_t` as buffer with allocated size and explicit out-of-bounds outcome | invariant over the list of append operations |
| C02 | index loop of `bc_str_split`, `bc_strv_join` | induction over the string generalising start/count |
| C03 | `bc_str_replace` on top of C02 | refinement to a `flatMap` specification |
| C04 | in-place strip loops | characterisation lemma and uniqueness |
| C05 | scan over buffer with terminator, `Res.ub` past the end | violated for trailing backslash; partial otherwise |
| C06 | `bc_shell_quote` | small POSIX shell lexer as specification; round trip by induction |
| C07-C09 | first-child/next-sibling trie | refinement to an association map over all insertion histories; ledger of released values |
| C10 | pointer-index bubble sort with `ub` outcome | loop invariant, permutation, sortedness, stability |
| C11 | the 364-entry table | automaton invariant against an RFC 3629 grammar |
| C12 | `fread` as list of chunks | independence of chunking; violation for second BOM and for read errors |
| C13 | `bc_error_parser` loop | refinement to a line-splitting specification |
| C14-C16 | the 9-state config parser | printer/parser round trip; totality; lost values as violations |
| C17-C20 | the 7-state source parser, content parser abstract where possible | round trip, invariants on the key set |
| C21-C22 | the template parser state machine | invariant: emitted nodes are bracketed; round trip |
| C23-C28 | the flat renderer with node pointers, null as `ub` | no-`ub` for accepted templates; refinement to a tree semantics; scope leak as violation |
| C29-C31, C33 | loader filters | list lemmas; int truncation of the comparison modelled with `BitVec`/modular arithmetic |
| C32 | datetime state machine | language characterisation |
| C34 | file list parser | refinement to lines/strip/filter |
| C35 | toctree renderer | balanced-tags invariant |
| C36-C40 | slug, entities, inline and block parsers | induction, termination measure; use after free as violation |
| C41-C44 | git receiver parsers and command construction | round trip, acceptance characterisation; `..` escape as violation |
| C45 | deploy as a sequence of file system steps with crash after any step | violation window, partial safety |
| C46-C51 | web server functions with file system oracle; thread-slot state machine | round trip, containment with its violations, invariant over schedules |
| C52-C62 | blogc-make decision logic, command building, executor, copy loop, reloader, clean | decision logic, shell lexer of C06, step systems with schedules |
| C63 | the cached flag | violation witness and partial |
| C64 | argument validation | characterisation; exit status violation |
| C65 | `bc_str_to_bool` | characterisation |
| C66 | the hooks of the git receiver, one after the other | composition of C44, C80 and C81 |
| C67, C88 | pages of tags and of the blog: page counts asked from blogc, output names | composition of the rules with the loader; partition as in C29 |
| C68 | inline parser | refinement to a lexer of escapes |
| C69, C60 | the watch loop with the settings file as a history of versions | invariant over histories; race as violation |
| C70, C64, C85 | `main` of blogc: argument loop, then the plan as a function of the world | refinement to an option grammar |
| C71, C72 | `main` of blogc as a program of system calls | induction over executions with failures |
| C73, C74 | inline and block parsers | grammars of documents with their HTML (`Spec/Inline`, `Spec/Blocks`), compiled and parsed; induction over the grammar |
| C75-C77 | renderer and loader | refinement to list semantics |
| C78 | source parser errors | exact place of the first error |
| C79 | recursive removal of a build, links included, as a program of system calls | invariant on a file tree over all executions |
| C80, C81 | hooks as programs of system calls | invariants over executions with failures; shell lexer of C06 |
| C82 | settings of the git receiver | refinement to a lookup over sections |
| C83 | `main` of the git receiver | case analysis |
| C84 | the answer of the web server to a path | composition of C46, C48 with `realpath`/`stat` as environment |
| C86, C87 | the rules of blogc-make, the commands they run, and blogc on the other side | rules refine a list of documented jobs; word splitting by the shell lexer; argument loop of blogc |
| C89 | rule `copy` | refinement to a mirror of trees |
| C90 | the generated feed template | rendered with the tree semantics of C24 for all settings |
| C91 | rule `clean` on a file tree | the removal loop refines a set difference; composition with the writes of a build |
| C92 | configuration layouts (blanks, comments, line endings) | the parser maps every layout of a document to its items |
| C93, C94 | `main` of blogc-runserver and of blogc-make | refinement to option grammars; composition with C57, C55 |
| C95 | the three threads of `blogc-make runserver` as a transition system | invariants over all interleavings; deadlocks and races as reachable states |
| C96 | C91's disk after a build, seen by the web server of C84 | composition |
| C97 | start of `br_httpd_run` as a program of system calls | induction over the addresses, all executions |
| C98 | the accept loop of C50 | round-robin invariant over all interleavings |
| C99 | `bm_exec_command` with a table of descriptors per process, each call may fail | case analysis; the lowest free descriptors are increasing |
| C100 | MakeBuild: rules, shell and blogc on a set of files with times | invariant over all histories: an output that is not stale shows what blogc gives now; congruence of rendering, loading and main in the files read |
| C101 | MakeBuild | invariant over the rules: only outputs stale at the beginning are written; a build without stale outputs is the identity |
| C102 | Program (Main, Loader, File, Source, Content, Toctree, Template, Render put together) | composition of C12, C17, C20, C29, C30, C31, C70, C71, C74, C77, C85, C22 and C24; written posts (`Spec/Page.lean`) and requests (`Spec/Request.lean`) |
| C103 | BuildProgram (MakeBuild, MakeFull, MakeWatchBuild with the runs of blogc as in Program) | composition of C62, C86, C87, C88, C100, C102, and for static files and watching C108 and C109: the settings come from the text of the settings file (`SettingsWritten`), every run of a build is a request in the sense of `Spec/Request.lean` (`Lemmas/SitePages.lean`), the number of pages is that of `Spec/SitePages.lean` |
| C104 | (as C103) MakeAtom | the feed files of C103 with the generated template: C90 gives the meaning of the template, C76 the dates; `Lemmas/SiteFeed.lean` shows that FILENAME is the slug and that FILTER_SORT and FILTER_REVERSE give the order of the settings (`Spec/SiteFeed.lean`) |
| C105 | SysVars, SysInfo, Render | the answers of the system are parameters (`Machine`); single and double precision and `%.3f` are modelled with natural numbers, and one lemma bounds the two roundings (`Lemmas/SysVars.lean`); caching by induction on the sequence of uses |
| C106 | Template (`diagnose`), Error, ErrorText | the mistakes are a relation on what stands where (`Spec/Mistakes`); the reading of correct items is followed up to the mistake by induction (`Lemmas/MistakesRead`), with an invariant that ties the counters of the parser to the stack of open statements; each mistake is then one run of the automaton (`Lemmas/MistakesMain`); line and column from C13 |
| C107 | Config, MakeSettings, Source, ParserErrors, ErrorText | what a file can contain before a mistake, and the mistakes, are relations on texts (`Spec/ConfigMistakes`, `Spec/Source`); the configuration parser is reduced to its control (`Lemmas/ConfigControl`), and the part of the text read so far is the invariant (`Lemmas/ConfigWrong`, both directions); C78 for sources; the quoted line also at the end of a line (`Lemmas/ErrorText`) |
| C108 | MakeFull | the rule `copy` (C89) after the rules of C100; paths of copies are apart from pages and sources, so both invariants (`Current`, `CopyCurrent`: what is there and not old is right) are kept by every step of a history |
| C109 | MakeWatchBuild | rounds of the loop of reloader.c with the times that the context remembers; invariant: what is remembered is what is there, or something newer is there; then the rules see the times of the files, and the lemmas of C100 and C108 (stated for any times seen) apply |
| C110 | Heap (blocks of memory that point to each other) | footprints: `IsList h p l s` and `IsTrie h p T s` say that the blocks `s` hold the inductive list or tree of the other models; every call keeps them and changes no other block (induction on the tree for insertion); invariant over the variables of a program: separate footprints that cover the memory; answers by C07 and C08. The specification (`Spec/Memory.lean`) does not mention memory. |
| C111 | HttpdMemory (what `handle_request` acquires, uses and releases), Threads | the control flow is proved to be that of Httpd; account of one request by cases over its ways out (induction over the index names), then any interleaving by projection to the requests; number of connections from C50; the leak of empty requests as `kept_violated` |
| C112 | Program (all of blogc on a set of files) | composition: reading (C12), headers (the parser without content shows which texts have one), contents (C40, C74), table of contents (C35), templates (C21), sorting (C10), pages (C29), rendering (C23), variables (C27), then the calls of `main`; six inputs as violations |
| C113 | Content, Inline | the HTML is described twice: by a grammar (`Spec/Markup.lean`) and by a reader of tags with a stack (`Spec/Reader.lean`). Invariant of the inline parser: the output so far is in the grammar, or open elements are kept aside to be undone (`Lemmas/InlineMarkup`); invariant of the block parser, one case per state (`Lemmas/ContentMarkup`); induction on the grammar for the reader (`Lemmas/MarkupScan`) |
| C114 | Render, Loader, Main, Source | what a template names is an inductive predicate over its statements (`Spec/Reads.lean`). Relational proof: two runs of the renderer stay in related states when their tables agree on the named variables (`Lemmas/RenderNames`), likewise two runs of the loader (`Lemmas/LoaderNames`) and of the program (`Lemmas/MainNames`); a definition or header line changes no other variable (C07, C70, `Lemmas/SourceTable`); words of statements are parts of the text of the template (`Lemmas/TemplateInfix`) |
| C115 | BlogcMemory: events (acquire, use, release) of main.c, loader.c, source-parser.c, filelist-parser.c along the control flow of Main, Loader, Source | `Spec/Account.lean` keeps account of events, one by one. Induction over the command line, the loaded files and the selected pages, with the set of what is in use as invariant (`Lemmas/BlogcMemory*`); the values read are those of the models of C27, C29, C70, C112, so that paths of errors are exactly theirs. Not in the ledger: memory within the lists and tables (C110) and within the parsers of templates and contents and the renderer |
| C116 | MakeMemory: events of main.c, ctx.c, settings.c, atom.c, rules.c, exec.c, exec-native.c and reloader.c of blogc-make, for every script of what a run meets | `Spec/MakeAccount.lean` keeps account of events. Pieces that give back all they take are neutral for every state where their own things are free (levels of nesting, `Lemmas/MakeMemory`); contexts are exact sets (`Lemmas/MakeMemoryContext`, `New`); induction over outputs, rules, built files, rounds and the command line (`Rules`, `Run`, `Main`). Not modelled: the thread of the rule `runserver` |
| C117 | TemplateMemory: events of template-parser.c and of renderer.c (nodes, their data, list elements, the page, words of iterators, values of variables) | `Spec/TemplateAccount.lean` keeps account of events. The parser: invariant over its rounds (`Lemmas/TemplateMemoryParse`); the renderer: what is in use is a function of its state, kept by every step (`Render`, `Run`); with properly nested statements a stack of what is open is carried along all steps (`Nested`). Crossing statements lose the words of an iterator. Not modelled: growth of string buffers, failing malloc |
| C118 | Debug: debug.c | `Spec/DebugListing.lean` lists a tree of statements. Every accepted node has what is printed (C21); induction over trees; lines and words are separated again for the converse, with the operators that the parser can give (`Lemmas/TemplateOps`). A text with ends of lines can imitate items |
| C119 | MakeBinary: exec.c find_binary with `access`, `dirname` and `MAKE_EMBEDDED` | `Spec/Programs.lean` says which directory a path is in (repeated and trailing slashes) and which program is meant. `dirname` finds that directory for every text; the shell reads the quoted path as one word (C06), and the rest of the command as in C57. A directory can stand where the program is looked for |
| C120 | GitMemory: shell.c, settings.c, pre-receive.c and post-receive.c with what is taken from the memory between the system calls | Erasing the memory gives the programs of GitShell and GitHooks. `Spec/GitAccount.lean` keeps account; a predicate over all answers of the system follows the programs, with an invariant for the loop over the sections |
| C121 | ConfigMemory: `bc_config_parse` and `bc_config_free` with what is taken from the memory | Without the memory it is the parser of Config. `Spec/ConfigAccount.lean` keeps account. Invariant of the loop: each section ever made is either in the table, once, or released, once; there is a key only while its value is read |
| C122 | RemoveMemory: the relation of Remove with the names and directory streams of each call | Each removal of Remove has events and each with events is one of Remove. `Spec/RemoveAccount.lean` keeps account; by induction on the removal, between two entries the streams and names of the directories on the way are in use |
| C123 | The rounds of C109; nothing new | If the remembered times are those of the files, the rules of a round are those of a build (induction on the rules), so C101 says what is written; then the list of copies. `Spec/Quiet.lean` has rounds one after the other; induction on their number |

## What the code violates

Each of these is a theorem whose name ends in `_violated`, with a witness:

* Reads past the end of a buffer, crashes and endless loops: C05, C12 (a directory
  or read error), C23, C38, C40, C48, C58 (pipes), C79, C93, C95, C99, C105 (`%d` for a `long`), C106 (`%d` for a `size_t`), C112
  (whole runs of blogc that crash or hang).
* Data silently lost or changed: C16, C17, C19, C22, C59, C72, C73, C74, C85, C94.
* Pages that are not rebuilt: C100 (same tick, moved files, killed builds, `-D`); pages rebuilt for ever: C101 (time in the future); static files: C108 (moved, removed, a directory copied into itself); while watching: C109 (removed files, new files in a copied directory).
* Malformed input accepted: C21, C32, C41, C62, C64, C92, C106, C107.
* Malformed output: C113 (targets of links, levels of headers), C118 (texts with ends of
  lines in the listing of a template).
* Wrong scope or arithmetic: C24, C25, C27, C29 (2^24 entries), C31 and C54 (dates
  68 years apart), C63, C88, C90, C104 (links of nested slugs),
  C105 (times of many hours, host names, a value of the user replaced).
* Files outside of their directory: C42, C47, C53, C61, C79, C86, C89.
* Failures not reported, or reported after success: C45, C55, C60, C64, C80, C91, C99.
* Words of a setting split or interpreted by the shell: C57, C80, C81.
* Wrong program run: C119 (a directory beside blogc-make).
* Memory that is not released: C111 (empty requests), C115 (options given twice, a
  file that ends within a header, a directory that cannot be made), C116 (arguments of
  rules, `-f` given twice, the temporary file after an interrupt), C117 (the words of
  an iterator that crosses a conditional), C120 (a command that is too big). Memory released by
  a wrong address: C115 (`\v` or `\f` before a name on standard input).
* Concurrency and crashes: C45, C49, C58, C69, C95, C98.
* Addresses of the web server: C46 (`+`), C84 (redirection not encoded), C96 (500
  instead of 404).

## Trusted base

* Lean 4.33.0's kernel. Axioms used by the theorems: at most `propext`,
  `Classical.choice`, `Quot.sound` (checked with `#print axioms`).
* The reading of the C code: the model is a hand translation, each definition
  cites its lines. Nothing was compiled or run.
* C library functions are modelled by their documented behaviour.

### Modelled

All of `src/common` except the Windows parts; all of `src/blogc` except the texts of
messages other than those about templates and sources, and usage; all of
`src/blogc-git-receiver`; `src/blogc-make` except usage and messages other than those
about the settings file; of `src/blogc-runserver` the request handling, media types, command line and
thread slots, and the set-up of the socket.

### Idealised

* Numbers: `size_t` and `int` indices do not overflow. `printf` with `%d` or `%*s` for
  a `size_t` (error.c:92-94, loader.c:309, template-parser.c, content-parser.c,
  toctree.c, pre-receive.c, rules.c:289, 378, 431) prints the number. (In rusage.c it is
  undefined behaviour, see C105.)
* `malloc` does not fail; `snprintf` does not fail; `basename` does not change its
  argument; `dirname` has no special case for `//`.
* The inline parser computes with null pointers in the search of double markers; this
  is taken as harmless.
* Renderer: `mktime`, `strftime` and system values are a fixed environment (`Sys`).
* `main` of blogc: the content of files is a fixed environment; messages are not
  modelled.
* Git receiver: paths are lexical unless a property says otherwise; `realpath` before
  and after the build is an environment; messages are not modelled.
* Removal (C79): links carry their final target, there are no hard links, a directory
  does not change while it is read, nothing happens between the two `stat` calls.
* Web server: writes are complete; `realpath`, `stat` and the loading of files are an
  arbitrary environment; in C96 they come from a tree without links.
* Pipes (C58): byte by byte, no signals, no atomicity of small writes, the child keeps
  its standard input open.
* blogc-make: `stat` is a fixed environment during a run, loops of directory links are
  not modelled, the status of a command is a function of the job; the shell is word
  splitting with quotes, after the assignment of `LC_ALL`; `printf` formats without
  arguments are undefined unless they are `%%`.
* Lists and tables (C110): blocks are accessed by field; the data are values, so what `free_func` does
  is not modelled; the recursion of the table functions has all the stack it needs.
* Watching (C60, C69): only the settings file changes. Watching (C109): files do not change during a round.
* Threads (C95): accesses of the flag are atomic, critical sections are single steps
  except reloader.c:60-62, SIGINT is delivered to the main thread, threads can be
  created.
* Builds (C100): the runs of a rule see the files as they are when the rule begins; a
  crash of blogc counts as a failure; times of one build are an arbitrary function of
  the path; the rule `copy` is included in C108 only, where directories can be made and files
  written, and a path has one name; the values that blogc asks of the system
  (host name, user, zone) do not change between builds.
* Disk (C91, C96): no symbolic links on the way, no interference, calls fail only
  because of what the tree is like.
* The whole program (C102): regular files; undefined behaviour and lack of fuel while a
  file is read would show as an error, so the theorems, which conclude that the page is
  written, exclude them.
