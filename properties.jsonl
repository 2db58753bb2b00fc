{"id": "C01", "title": "Dynamic string accumulates exactly what was appended, inside its buffer", "statement": "After any sequence of append calls (whole strings, counted bytes, single bytes) on a fresh dynamic string, the buffer holds exactly the concatenation of the appended bytes followed by a NUL, the recorded length is the number of appended bytes, and no append ever writes outside the allocated buffer.", "quantifier": "every finite sequence of append operations with arbitrary byte payloads and lengths", "why_tests_cant": "Buffer growth depends on the running length relative to a 128-byte chunk; an off-by-one shows only at particular cumulative lengths, and there are unboundedly many append histories.", "anchors": ["src/common/utils.c:bc_string_new", "src/common/utils.c:bc_string_append_len", "src/common/utils.c:bc_string_append", "src/common/utils.c:bc_string_append_c"]}
{"id": "C02", "title": "Splitting and joining are inverse", "statement": "Joining the pieces produced by splitting a string at a separator byte (with any piece limit) with that separator gives the original string back; with no limit no piece contains the separator; with limit m there are at most m pieces and only the last may contain it; the empty string splits into no pieces.", "quantifier": "every NUL-free string, every non-NUL separator, every piece limit", "why_tests_cant": "The piece limit and the final NUL are handled by one compound loop condition; correctness must hold for every string and limit combination.", "anchors": ["src/common/utils.c:bc_str_split", "src/common/utils.c:bc_strv_join", "src/common/utils.c:bc_strv_length"]}
{"id": "C03", "title": "Byte replacement replaces every occurrence and nothing else", "statement": "Replacing a byte by a string yields the input with each occurrence of that byte substituted by the replacement and every other byte kept in order.", "quantifier": "every string, search byte and replacement string", "why_tests_cant": "Tests check a few strings; the claim is about all positions and multiplicities including leading, trailing and adjacent occurrences.", "anchors": ["src/common/utils.c:bc_str_replace"]}
{"id": "C04", "title": "Stripping removes exactly the surrounding white space", "statement": "Stripping a string returns the unique middle part that neither starts nor ends with white space and differs from the input only by white space on both sides; an all-white-space string becomes empty.", "quantifier": "every NUL-terminated string shorter than 2^31 bytes", "why_tests_cant": "The in-place loops treat empty and all-blank strings by special cases; uniqueness and maximality cannot be sampled.", "anchors": ["src/common/utils.c:bc_str_lstrip", "src/common/utils.c:bc_str_rstrip", "src/common/utils.c:bc_str_strip"]}
{"id": "C05", "title": "Escaped search finds the first unescaped occurrence and stays in bounds", "statement": "Searching for a byte in a string returns the first occurrence that is not escaped by a backslash, or nothing if there is none, and never reads past the terminating NUL.", "quantifier": "every NUL-terminated string and every byte", "why_tests_cant": "A trailing backslash moves the scan past the terminator; out-of-bounds reads are usually invisible in tests.", "anchors": ["src/common/utils.c:bc_str_find"]}
{"id": "C06", "title": "Shell quoting is injective and opaque to a POSIX shell", "statement": "For every string, the quoted form is read back by a POSIX shell as exactly one word equal to the original string, with no expansion, wherever it is placed between blanks in a command.", "quantifier": "every NUL-free byte string", "why_tests_cant": "Command injection hides in byte combinations nobody thought to test; the guarantee must hold for all of them.", "anchors": ["src/common/utils.c:bc_shell_quote"]}
{"id": "C07", "title": "The variable table behaves as a map", "statement": "After any sequence of insertions, looking up a key returns the value most recently inserted under that key, or nothing if it was never inserted; insertions under other keys never affect it, even when one key is a prefix of another.", "quantifier": "every finite history of insertions over arbitrary NUL-free keys, and every lookup key", "why_tests_cant": "The trie shares nodes between keys; interference depends on the whole insertion history.", "anchors": ["src/common/utils.c:bc_trie_insert", "src/common/utils.c:bc_trie_lookup"]}
{"id": "C08", "title": "Table size and iteration enumerate each key exactly once", "statement": "After any insertion history, iterating over the table visits every inserted key exactly once with its current value, and the reported size is the number of distinct keys.", "quantifier": "every finite history of insertions", "why_tests_cant": "Duplicated or missed entries depend on sharing patterns among all inserted keys.", "anchors": ["src/common/utils.c:bc_trie_foreach", "src/common/utils.c:bc_trie_size"]}
{"id": "C09", "title": "Replaced values are released exactly once", "statement": "Over the life of a table (any insertions, then destruction) every value ever stored is released exactly once: when it is replaced or when the table is destroyed.", "quantifier": "every finite history of insertions followed by destruction", "why_tests_cant": "Leaks and double frees depend on the history and do not change visible output.", "anchors": ["src/common/utils.c:bc_trie_insert", "src/common/utils.c:bc_trie_free"]}
{"id": "C10", "title": "List sort is safe, stable and correct", "statement": "Sorting a list terminates and never dereferences past its end whatever the comparison function answers; the result is a permutation of the input; if the comparison is a consistent order the result is sorted and equal elements keep their relative order.", "quantifier": "every list, every comparison function (even inconsistent for safety; any total preorder for correctness)", "why_tests_cant": "An inconsistent comparison function can break a sort's loop bounds; there are infinitely many lists and orders.", "anchors": ["src/common/sort.c:bc_slist_sort"]}
{"id": "C11", "title": "UTF-8 validation accepts exactly well-formed UTF-8", "statement": "A byte string is accepted if and only if it is a concatenation of encodings of Unicode scalar values in shortest form as defined by RFC 3629 (no surrogates, no overlong forms, nothing above U+10FFFF).", "quantifier": "every byte string of every length", "why_tests_cant": "The validator is a table-driven automaton with 364 entries; a single wrong entry affects a few sequences only.", "anchors": ["src/common/utf8.c:bc_utf8_validate", "src/common/utf8.c:utf8d"]}
{"id": "C12", "title": "File loading returns the file's bytes, minus one leading BOM", "statement": "Reading a text file returns exactly its bytes with at most one leading UTF-8 byte-order mark removed, rejects it exactly when the rest is not well-formed UTF-8, and terminates, irrespective of how the bytes arrive in chunks.", "quantifier": "every file content and every sequence of read sizes the C library may deliver, including read errors", "why_tests_cant": "Chunk boundaries relative to the BOM and read errors (e.g. opening a directory) are not controllable from unit tests.", "anchors": ["src/common/file.c:bc_file_get_contents", "src/common/utf8.c:bc_utf8_skip_bom"]}
{"id": "C13", "title": "Parser errors name the right line and column", "statement": "The line number in a parser error is one plus the number of line terminators (LF, CR, CRLF or LFCR counted once) before the error position, the column is the distance from that line's start, and the quoted line stays within the source.", "quantifier": "every source text and every error offset", "why_tests_cant": "Line-ending mixtures and offsets at the boundaries form an unbounded space.", "anchors": ["src/common/error.c:bc_error_parser"]}
{"id": "C14", "title": "Configuration files round-trip", "statement": "Parsing the textual rendering of any well-formed configuration (sections of key/value pairs and list sections, values quoted with escapes where needed) yields exactly that configuration.", "quantifier": "every configuration with valid section and key names and arbitrary values", "why_tests_cant": "The parser is a 9-state machine with quoting, escaping, comments and end-of-input special cases; round trip must hold for all values.", "anchors": ["src/common/config-parser.c:bc_config_parse", "src/common/config-parser.c:bc_config_get"]}
{"id": "C15", "title": "The configuration parser is total and memory safe", "statement": "On every input the configuration parser terminates, reads only inside the input, and either reports an error or returns a configuration; malformed section lines and keys without values are reported.", "quantifier": "every byte string", "why_tests_cant": "Robustness must hold for inputs no test author wrote.", "anchors": ["src/common/config-parser.c:bc_config_parse"]}
{"id": "C16", "title": "No configuration value is silently lost", "statement": "Every key=value line and every list item of an accepted configuration file is present in the parsed configuration, including on a last line without a newline.", "quantifier": "every accepted configuration file", "why_tests_cant": "Loss happens only in particular end-of-input states.", "anchors": ["src/common/config-parser.c:bc_config_parse"]}
{"id": "C17", "title": "Source file headers are parsed faithfully", "statement": "For a source file with header lines KEY: value, a separator line and a content of at least two bytes, the resulting table maps each key to its trimmed (last) value, and RAW_CONTENT to the exact text after the separator's blank lines.", "quantifier": "every list of valid keys and single-line values and every content", "why_tests_cant": "Unbounded number of headers, values and blank lines; duplicates.", "anchors": ["src/blogc/source-parser.c:blogc_source_parse"]}
{"id": "C18", "title": "Reserved variables cannot be set from a source file", "statement": "If a source file is accepted, none of the compiler-reserved variable names was set by one of its header lines, and every header key matches [A-Z][A-Z0-9_]*.", "quantifier": "every byte string given as source file", "why_tests_cant": "Negative property over all inputs.", "anchors": ["src/blogc/source-parser.c:blogc_source_parse"]}
{"id": "C19", "title": "Source content always produces CONTENT and EXCERPT", "statement": "If a source file is accepted and has non-blank content after the separator, the variables RAW_CONTENT, CONTENT and EXCERPT are all set, and EXCERPT is a prefix of CONTENT.", "quantifier": "every accepted source file", "why_tests_cant": "Missing variables occur only for particular end-of-file situations.", "anchors": ["src/blogc/source-parser.c:blogc_source_parse"]}
{"id": "C20", "title": "Source-provided FIRST_HEADER, DESCRIPTION and TOCTREE win", "statement": "A FIRST_HEADER, DESCRIPTION or TOCTREE given in the header of a source file is kept and never overridden by the generated one.", "quantifier": "every source file and every content", "why_tests_cant": "Interaction of header parsing with every possible generated value.", "anchors": ["src/blogc/source-parser.c:blogc_source_parse"]}
{"id": "C21", "title": "Accepted templates are well bracketed", "statement": "If a template is accepted then blocks are closed and not nested, conditionals and iterators are closed, none of them crosses a block boundary, and every else belongs to an open conditional.", "quantifier": "every byte string given as template", "why_tests_cant": "Acceptance over all inputs; bracket structure is unbounded.", "anchors": ["src/blogc/template-parser.c:blogc_template_parse"]}
{"id": "C22", "title": "Template text is preserved", "statement": "For a template made of text chunks, variable references and statements without white-space markers, parsing yields the same sequence with text unchanged; a '-' marker trims exactly the adjacent white space.", "quantifier": "every sequence of well-formed template items", "why_tests_cant": "Unbounded sequences and arbitrary text including lone braces.", "anchors": ["src/blogc/template-parser.c:blogc_template_parse"]}
{"id": "C23", "title": "Rendering an accepted template never crashes", "statement": "Rendering any accepted template with any variables and any entries terminates, and never follows a null pointer or reads outside a string.", "quantifier": "every accepted template, every variable table, entry list and listing mode", "why_tests_cant": "The renderer skips ahead through the node list without null checks and relies on bracket balance for every template.", "anchors": ["src/blogc/renderer.c:blogc_render"]}
{"id": "C24", "title": "Rendering implements the documented template semantics", "statement": "For well-nested templates the output equals the documented semantics: conditionals choose one branch, foreach repeats its body per item, block listing repeats once per entry, other blocks are included according to the mode, unknown variables are empty.", "quantifier": "every well-nested template, variable table, entry list and mode", "why_tests_cant": "Nested conditionals, iterators and blocks combine in unboundedly many ways, and the implementation is a flat state machine.", "anchors": ["src/blogc/renderer.c:blogc_render"]}
{"id": "C25", "title": "Entry variables are visible only inside entry blocks", "statement": "Outside blocks, and inside listing_once blocks, a variable reference sees only global variables, never those of a source file.", "quantifier": "every accepted template and every position of a variable reference in it", "why_tests_cant": "Leakage depends on what blocks were skipped or rendered before the reference.", "anchors": ["src/blogc/renderer.c:blogc_render", "src/blogc/renderer.c:blogc_get_variable"]}
{"id": "C26", "title": "Local variables override global variables", "statement": "Variable lookup prefers the entry's value, falls back to the global value, and is absent only when both are absent.", "quantifier": "every pair of variable tables and every name", "why_tests_cant": "Quantifies over all tables.", "anchors": ["src/blogc/renderer.c:blogc_get_variable"]}
{"id": "C27", "title": "Truncated variables are prefixes of the requested length", "statement": "NAME_n evaluates to the first n bytes of NAME (all of it when shorter) for n>0 unless a variable literally called NAME_n exists; the evaluation never reads outside the name.", "quantifier": "every variable name, every n and every value", "why_tests_cant": "Name parsing from the right with digits and underscores has many edge cases, such as names that are all digits or empty.", "anchors": ["src/blogc/renderer.c:blogc_format_variable"]}
{"id": "C28", "title": "Conditionals compare as documented", "statement": "The if statement is true exactly when the left variable and the operand compare as requested in strcmp order; exactly one of <, ==, > holds, <= >= != are the corresponding complements.", "quantifier": "every pair of strings and each operator", "why_tests_cant": "Ordering laws over all strings.", "anchors": ["src/blogc/renderer.c:blogc_render"]}
{"id": "C29", "title": "Pagination partitions the entries", "statement": "For every page size n>0, the pages 1..LAST_PAGE are disjoint, concatenated in order they give all entries (after tag filter, sort, reverse), every page except the last has exactly n entries, and page, previous/next/first/last page variables are consistent.", "quantifier": "every list of entries, page size and page number", "why_tests_cant": "Off-by-one at page boundaries for all lengths and sizes.", "anchors": ["src/blogc/loader.c:blogc_source_parse_from_files"]}
{"id": "C30", "title": "Tag filter keeps exactly the tagged entries", "statement": "With a tag filter, exactly the entries whose space-separated TAGS contain that tag are kept, in the original order.", "quantifier": "every entry list, tag lists and filter", "why_tests_cant": "Universal over lists.", "anchors": ["src/blogc/loader.c:blogc_source_parse_from_files"]}
{"id": "C31", "title": "Date sort is chronological", "statement": "With sorting enabled entries are listed newest first (or oldest first when reversed) by DATE, entries with the same date keep their given order.", "quantifier": "every list of entries with valid dates", "why_tests_cant": "The comparison truncates a difference to int; wrong order appears only for far-apart dates.", "anchors": ["src/blogc/loader.c:sort_source", "src/blogc/loader.c:blogc_source_parse_from_files"]}
{"id": "C32", "title": "Date parsing accepts exactly the documented formats", "statement": "A date string is accepted exactly when it is yyyy-mm-dd with optional hh, hh:mm or hh:mm:ss and every field in range, and the decoded fields are those written.", "quantifier": "every string", "why_tests_cant": "The accepted language is infinite and the rejected one even more so.", "anchors": ["src/blogc/datetime-parser.c:blogc_convert_datetime"]}
{"id": "C33", "title": "File name to FILENAME", "statement": "The FILENAME variable is the last path component without its last extension.", "quantifier": "every path", "why_tests_cant": "All combinations of separators and dots.", "anchors": ["src/blogc/loader.c:blogc_get_filename"]}
{"id": "C34", "title": "Source list from standard input", "statement": "The list of source files read from standard input contains exactly the non-blank, non-comment lines, trimmed, in order, including a last line without newline.", "quantifier": "every byte string", "why_tests_cant": "Unbounded line sequences and end-of-input cases.", "anchors": ["src/blogc/filelist-parser.c:blogc_filelist_parse"]}
{"id": "C35", "title": "Table of contents is well-formed HTML", "statement": "The rendered table of contents contains one link per kept header in order, and its list tags are balanced, for any sequence of header levels and any depth limit.", "quantifier": "every sequence of headers with levels and every maximum depth", "why_tests_cant": "Level jumps up and down in any order.", "anchors": ["src/blogc/toctree.c:blogc_toctree_render"]}
{"id": "C36", "title": "Header identifiers are safe slugs", "statement": "Generated header ids contain only lower-case letters, digits and '-', have the same length as the title and are idempotent.", "quantifier": "every string", "why_tests_cant": "All bytes, including non-ASCII.", "anchors": ["src/blogc/content-parser.c:blogc_slugify"]}
{"id": "C37", "title": "HTML escaping is complete and reversible", "statement": "Escaped text contains none of < > \" ' and '&' only as start of one of the emitted entities; decoding the entities gives the original text back.", "quantifier": "every string", "why_tests_cant": "Injection hides in unusual combinations.", "anchors": ["src/blogc/content-parser.c:blogc_htmlentities"]}
{"id": "C38", "title": "Inline markup parsing terminates and stays in bounds", "statement": "Inline content parsing terminates on every input and reads only inside its input.", "quantifier": "every byte string", "why_tests_cant": "The parser restarts after unterminated links; termination needs a measure over all inputs.", "anchors": ["src/blogc/content-parser.c:blogc_content_parse_inline"]}
{"id": "C39", "title": "Plain text survives inline parsing", "statement": "Inline content with no markup characters is emitted unchanged except for line breaks and HTML escaping.", "quantifier": "every string of ordinary characters", "why_tests_cant": "Universal over strings.", "anchors": ["src/blogc/content-parser.c:blogc_content_parse_inline"]}
{"id": "C40", "title": "Block content parsing is memory safe", "statement": "Converting any text to HTML terminates and never accesses memory outside the text or memory already released.", "quantifier": "every text", "why_tests_cant": "A use-after-free needs a particular sequence of blocks.", "anchors": ["src/blogc/content-parser.c:blogc_content_parse"]}
{"id": "C41", "title": "Git shell commands round-trip and are restricted", "statement": "A command is accepted only if it is one of git-receive-pack, git-upload-pack and git-upload-archive followed by a quoted path; for every path, the command quoted as git does is decoded to that path without one leading slash.", "quantifier": "every command string; every path", "why_tests_cant": "Quoting round trip over all paths; acceptance over all strings.", "anchors": ["src/blogc-git-receiver/shell-command-parser.c:bgr_shell_command_parse"]}
{"id": "C42", "title": "Remote repositories stay inside the repositories directory", "statement": "The repository path used by the restricted shell is always inside BASE/repos.", "quantifier": "every command string sent by a client", "why_tests_cant": "Adversarial input.", "anchors": ["src/blogc-git-receiver/shell-command-parser.c:bgr_shell_command_parse", "src/blogc-git-receiver/shell.c:bgr_shell"]}
{"id": "C43", "title": "The command handed to git-shell is never truncated or split", "statement": "The restricted shell either refuses or executes git-shell with the requested git command and exactly one argument, the repository path.", "quantifier": "every command and base directory of any length", "why_tests_cant": "Fixed buffer boundary and quoting of arbitrary bytes.", "anchors": ["src/blogc-git-receiver/shell.c:bgr_shell"]}
{"id": "C44", "title": "Pushed branches are decoded", "statement": "From the lines 'old new ref' given to the hook, each branch maps to the new revision of its last line; tags and other refs are ignored.", "quantifier": "every sequence of update lines", "why_tests_cant": "Unbounded number of lines, duplicates and other refs.", "anchors": ["src/blogc-git-receiver/pre-receive-parser.c:bgr_pre_receive_parse"]}
{"id": "C45", "title": "A deploy always leaves a working site", "statement": "At every crash point of a deployment the public symlink resolves to the complete previous or the complete new build.", "quantifier": "every interruption point and failure of each system call", "why_tests_cant": "Crash points cannot be enumerated by unit tests.", "anchors": ["src/blogc-git-receiver/pre-receive.c:bgr_pre_receive_hook"]}
{"id": "C46", "title": "URL decoding inverts percent-encoding", "statement": "Decoding a percent-encoded path gives the original bytes; a '%' not followed by two hex digits is kept; the decoder never reads past the end.", "quantifier": "every byte string", "why_tests_cant": "All byte values and truncated escapes at the end.", "anchors": ["src/blogc-runserver/httpd-utils.c:br_urldecode", "src/blogc-runserver/httpd-utils.c:br_hextoi"]}
{"id": "C47", "title": "The web server serves only files below the document root", "statement": "Every file sent in a 200 response has a real path inside the document root.", "quantifier": "every request and every file system layout", "why_tests_cant": "Adversarial paths and symlinks.", "anchors": ["src/blogc-runserver/httpd.c:handle_request"]}
{"id": "C48", "title": "Every request gets a well-formed answer", "statement": "Every non-empty request line leads to exactly one HTTP response with a Content-Length equal to the body length and one of the status codes 200, 302, 400, 403, 404, 405, 500; the server does not crash.", "quantifier": "every request line and file system state", "why_tests_cant": "Malformed request lines are unbounded.", "anchors": ["src/blogc-runserver/httpd.c:handle_request", "src/blogc-runserver/httpd.c:error"]}
{"id": "C49", "title": "Request line reading does not depend on packet boundaries", "statement": "The request line read from a connection is the data up to the first CR, LF or NUL, however the data is split into packets.", "quantifier": "every segmentation of every request", "why_tests_cant": "Packet boundaries are not controlled by tests.", "anchors": ["src/blogc-runserver/httpd-utils.c:br_readline"]}
{"id": "C50", "title": "Worker thread slots are reused only after their thread ended", "statement": "The server never has more than the configured number of live request threads, and never starts a thread in a slot whose previous thread was not joined.", "quantifier": "every sequence of connections and completions", "why_tests_cant": "Schedules are unbounded.", "anchors": ["src/blogc-runserver/httpd.c:br_httpd_run"]}
{"id": "C51", "title": "Content types come from the extension", "statement": "The content type is determined only by the text after the last '.' of the last path component, and is application/octet-stream when unknown or absent.", "quantifier": "every file name", "why_tests_cant": "Universal over names.", "anchors": ["src/blogc-runserver/mime.c:br_mime_guess_content_type", "src/blogc-runserver/httpd-utils.c:br_get_extension"]}
{"id": "C52", "title": "Out-of-date outputs are rebuilt, and only those", "statement": "An output is rebuilt if and only if it is missing, or some input (settings, template, listing entry, relevant sources) is missing or has a later modification time than the output.", "quantifier": "every set of inputs with arbitrary second/nanosecond times", "why_tests_cant": "Time comparison over all pairs and lists.", "anchors": ["src/blogc-make/rules.c:bm_rule_need_rebuild"]}
{"id": "C53", "title": "Output paths are distinct and below the output directory", "statement": "Paths generated for different slugs with the same prefix and extension are different and start with the output directory.", "quantifier": "every directory, prefixes, slugs and extension", "why_tests_cant": "Injectivity over all strings.", "anchors": ["src/blogc-make/utils.c:bm_generate_filename", "src/blogc-make/utils.c:bm_generate_filename2"]}
{"id": "C54", "title": "Post order settings select the documented order", "statement": "The combination of posts_sort and html_order/atom_order always yields newest-first for DESC and oldest-first for ASC, assuming unsorted lists are given oldest first.", "quantifier": "every settings value and every entry list", "why_tests_cant": "Two tools (blogc-make flags, blogc filters) compose; all values.", "anchors": ["src/blogc-make/rules.c:posts_ordering", "src/blogc/loader.c:blogc_source_parse_from_files"]}
{"id": "C55", "title": "blogc-make reports failure of any requested rule", "statement": "The exit status is zero only if every requested rule exists and succeeded.", "quantifier": "every list of rule arguments and every outcome of the rules", "why_tests_cant": "Order of failing and succeeding rules is unbounded.", "anchors": ["src/blogc-make/rules.c:bm_rule_executor"]}
{"id": "C56", "title": "Rule arguments are parsed as written", "statement": "RULE:k1=v1,k2=v2,... is parsed to the map of these arguments.", "quantifier": "every list of key/value pairs without the delimiters", "why_tests_cant": "Unbounded lists.", "anchors": ["src/blogc-make/rules.c:bm_rule_parse_args"]}
{"id": "C57", "title": "Commands run by blogc-make have the intended arguments", "statement": "The shell command line built to run blogc is split by a POSIX shell into the executable and exactly the intended arguments, whatever the values of the variables, tags, paths and locale.", "quantifier": "every settings, variables and paths", "why_tests_cant": "Quoting of arbitrary values in a long command line.", "anchors": ["src/blogc-make/exec.c:bm_exec_build_blogc_cmd"]}
{"id": "C58", "title": "Running a child process never deadlocks", "statement": "Feeding input to a child process and collecting its output terminates whenever the child terminates given its input and consumed output, for any amount of output on both streams.", "quantifier": "every schedule of reads and writes and every pipe capacity", "why_tests_cant": "Depends on scheduling and pipe capacity.", "anchors": ["src/blogc-make/exec.c:bm_exec_command"]}
{"id": "C59", "title": "File copy is exact", "statement": "When copying reports success, the destination has exactly the source's bytes, for every pattern of short reads and writes.", "quantifier": "every content and every schedule of short reads/writes and errors", "why_tests_cant": "Short writes cannot be provoked by tests.", "anchors": ["src/blogc-make/exec-native.c:bm_exec_native_cp"]}
{"id": "C60", "title": "Watching recovers from a broken settings file", "statement": "While watching, after the settings file was temporarily broken and then fixed, the site is rebuilt again.", "quantifier": "every history of edits", "why_tests_cant": "Needs a history of file states over time.", "anchors": ["src/blogc-make/ctx.c:bm_ctx_reload", "src/blogc-make/reloader.c:bm_reloader_run"]}
{"id": "C61", "title": "Cleaning removes only built files and empty directories", "statement": "The clean rule removes only files built by a rule and directories that became empty inside the output directory, never the output directory's parents.", "quantifier": "every file tree and set of built files", "why_tests_cant": "All trees.", "anchors": ["src/blogc-make/exec-native.c:bm_exec_native_rm", "src/blogc-make/rules.c:clean_exec"]}
{"id": "C62", "title": "Make settings honour defaults and requirements", "statement": "A settings file is accepted only if all required global keys are present and non-empty and all global keys are valid; each setting equals its configured value, or its documented default.", "quantifier": "every configuration", "why_tests_cant": "All configurations.", "anchors": ["src/blogc-make/settings.c:bm_settings_parse"]}
{"id": "C63", "title": "Repeated system information queries agree", "statement": "Asking whether the build runs inside a container gives the same answer every time within one run.", "quantifier": "every sequence of queries and file contents", "why_tests_cant": "Needs a history of calls.", "anchors": ["src/blogc/sysinfo.c:blogc_sysinfo_get_inside_docker"]}
{"id": "C64", "title": "Command line variable definitions are validated", "statement": "A -D KEY=VALUE argument sets KEY to VALUE exactly (everything after the first '=') when KEY matches [A-Z][A-Z0-9_]* and the text is valid UTF-8; otherwise the program stops with a non-zero exit status.", "quantifier": "every argument string", "why_tests_cant": "All strings.", "anchors": ["src/blogc/main.c:main"]}
{"id": "C65", "title": "Truthiness of settings", "statement": "A setting is true exactly for 1, y, yes, true and on, ignoring case.", "quantifier": "every string", "why_tests_cant": "All strings and case variants.", "anchors": ["src/common/utils.c:bc_str_to_bool"]}
{"id": "C66", "title": "A push runs through the hooks", "statement": "Whenever the restricted shell starts git-shell for a push, both the pre-receive and the post-receive hook of the repository are links to this program, whatever the repository contained before and whichever system calls failed.", "quantifier": "every command, every state of the repository, every outcome of every system call", "why_tests_cant": "Tests exercise a few sequences of system call outcomes; the guarantee is about all of them.", "anchors": ["src/blogc-git-receiver/shell.c:bgr_shell"]}
{"id": "C67", "title": "Pages of tags are built for their own tag and number", "statement": "The rule that builds the pages of tags finds, from the name of each output file, the tag and the page number the file was named for; no output is skipped.", "quantifier": "every list of tags, numbers of pages, prefixes and extensions", "why_tests_cant": "The tag is recovered by comparing names; any two names might collide.", "anchors": ["src/blogc-make/rules.c:pagination_tags_exec", "src/blogc-make/rules.c:pagination_tags_outputlist"]}
{"id": "C68", "title": "A backslash protects the next character and disappears", "statement": "Text appended with escapes removed is exactly the text in which every backslash stands for the byte after it; a text whose backslashes (and any other bytes) are escaped comes back unchanged.", "quantifier": "every text", "why_tests_cant": "All sequences of backslashes.", "anchors": ["src/common/utils.c:bc_string_append_escaped"]}
{"id": "C69", "title": "The last edit of the settings is used while watching", "statement": "While watching, once the settings file stops changing and is valid, the site is built with the settings that are in the file.", "quantifier": "every history of edits, at any moment", "why_tests_cant": "Depends on edits between two system calls.", "anchors": ["src/blogc-make/ctx.c:bm_ctx_new", "src/blogc-make/ctx.c:bm_ctx_reload"]}
{"id": "C70", "title": "The command line means what it says", "statement": "Options of the site generator may come in any order, with values attached or as the next argument: flags are set if given, the last template, output and variable to print count, listing entries and source files are kept in order, and every variable has its last definition.", "quantifier": "every list of valid options", "why_tests_cant": "All orders, forms and values.", "anchors": ["src/blogc/main.c:main"]}
{"id": "C71", "title": "The output is touched only after everything else succeeded", "statement": "A run creates directories or opens a file only after options, sources, entries and template were read and rendered without error; it touches only the file named by -o and directories above it, and a run that fails leaves an existing output file as it was.", "quantifier": "every command line, every content of files, every failure of a system call", "why_tests_cant": "All failure points.", "anchors": ["src/blogc/main.c:main", "src/blogc/main.c:blogc_mkdir_recursive"]}
{"id": "C72", "title": "Success means that the output is complete", "statement": "If the site generator was asked to render and ends with exit status 0, the whole rendered text was written to the output.", "quantifier": "every command line and every failure of a system call", "why_tests_cant": "Needs failures while writing.", "anchors": ["src/blogc/main.c:main"]}
{"id": "C73", "title": "Inline markup becomes the documented HTML", "statement": "A text written with the inline elements of the manual (bold, italic, code, images, links, automatic links, line breaks, dashes, escapes), in any nesting and any order, becomes the HTML documented for these elements, and nothing else of the text changes.", "quantifier": "every text built from the documented inline elements, any depth of nesting", "why_tests_cant": "Elements nest and follow each other without bound; tests cover a few combinations.", "anchors": ["src/blogc/content-parser.c:blogc_content_parse_inline", "man/blogc-source.7.ronn"]}
{"id": "C74", "title": "Block content becomes the documented HTML", "statement": "A text written with the block elements of the manual (paragraphs, headers, blockquotes with nested elements, lists, code, HTML blocks, rules, excerpt separators), in any order and with any of the four line endings, becomes the HTML documented for these elements; FIRST_HEADER, DESCRIPTION, EXCERPT and the headers of the table of contents are those of the text.", "quantifier": "every text built from the documented block elements, any number and any depth of nesting, every line ending", "why_tests_cant": "Elements follow each other and nest without bound; tests cover a few combinations.", "anchors": ["src/blogc/content-parser.c:blogc_content_parse", "src/blogc/content-parser.c:blogc_fix_description", "src/blogc/source-parser.c:blogc_source_parse", "man/blogc-source.7.ronn"]}
{"id": "C75", "title": "Iterators go over the words of a list with their mapped values", "statement": "{% foreach NAME %} runs its body once for each word of the space-separated value of NAME, in order (never for empty words; not at all if NAME is undefined); FOREACH_ITEM shows the word and FOREACH_VALUE the variable NAME__WORD, where the word is in upper case with _ for special characters.", "quantifier": "every list value, every list name a template can use, every table of variables", "why_tests_cant": "Lists have any number of words and any spacing; words have any bytes.", "anchors": ["src/blogc/renderer.c:blogc_split_list_variable", "src/blogc/renderer.c:foreach_value_variable", "src/blogc/renderer.c:blogc_format_variable", "src/blogc/renderer.c:blogc_render", "man/blogc-template.7.ronn"]}
{"id": "C76", "title": "Variable formatters", "statement": "NAME_FORMATTED shows a variable of that very name if there is one; otherwise, if NAME is defined, it shows the value of NAME, which is formatted with DATE_FORMAT exactly if NAME_FORMATTED starts with DATE_, DATE_FORMAT is defined, the value is a date and the C library can format it. Evaluating it changes no variable except those provided by blogc.", "quantifier": "every name, value, format and table of variables, inside and outside of blocks and iterators", "why_tests_cant": "Names, values and formats are arbitrary strings, and whether DATE_FORMAT is local or global matters.", "anchors": ["src/blogc/renderer.c:blogc_format_variable", "src/blogc/renderer.c:blogc_format_date", "src/blogc/funcvars.c:blogc_funcvars_eval", "man/blogc-template.7.ronn"]}
{"id": "C77", "title": "First and last entry of a listing; dates in all sources or in none", "statement": "After a listing has been loaded, DATE_FIRST, FILENAME_FIRST, DATE_LAST and FILENAME_LAST are the DATE and FILENAME of the first and of the last entry of the listing as it is shown (after filter, order and pagination). Sources of which only some have a DATE are refused; without sorting, loadable sources are refused for nothing else.", "quantifier": "every list of sources, every filter, order and pagination setting", "why_tests_cant": "The number of entries and the combination of settings is unbounded.", "anchors": ["src/blogc/loader.c:blogc_source_parse_from_files", "man/blogc-pagination.7.ronn"]}
{"id": "C78", "title": "Malformed sources are refused for the right reason at the right place", "statement": "A source text is refused exactly when it has a character where neither a key nor a separator can start, an invalid key character, a reserved key, an invalid separator, no complete header line and no separator at all, or (with a complete content) a TOCTREE_MAXDEPTH that is not a number; the error names the reason and the offset of the first offending character (or the end of the text).", "quantifier": "every byte string", "why_tests_cant": "Malformed texts are unbounded and come in any combination with well-formed lines.", "anchors": ["src/blogc/source-parser.c:blogc_source_parse"]}
{"id": "C79", "title": "Removing a build removes all of it and nothing else", "statement": "When the git receiver removes a directory (an old build, a failed build or the temporary checkout) and reports success, nothing below that directory is left, and nothing outside of it has been removed, whatever the directory contains.", "quantifier": "every file system with files, directories and symbolic links, every order of directory entries, every failure of a system call", "why_tests_cant": "Directory trees, links in them, listing orders and points of failure are unbounded.", "anchors": ["src/blogc-git-receiver/pre-receive.c:rmdir_recursive"]}
{"id": "C80", "title": "A push is deployed completely or leaves the site as it is", "statement": "The pre-receive hook changes the public link only after a build has ended successfully, and then to that build; a push is accepted only if the site has been replaced by the build of the pushed revision of master (or else main), or if there was nothing to build and nothing was changed; a rejected push leaves the published site as it was; the temporary checkout is always removed; building again by hand builds the revision that is deployed.", "quantifier": "every push, environment and settings, and every combination of outcomes of the system calls and commands", "why_tests_cant": "Every command and system call may fail at any point, in any combination, for any repository and settings.", "anchors": ["src/blogc-git-receiver/pre-receive.c:bgr_pre_receive_hook"]}
{"id": "C81", "title": "Mirroring never blocks a push and uses the configured mirror", "statement": "After a push the post-receive hook pushes to the remote called mirror if the repository has one, else to the mirror URL of the settings if there is one, else does nothing; whatever happens to the mirror, the status is success; the URL reaches git unchanged.", "quantifier": "every environment, settings, URL and outcome of the commands", "why_tests_cant": "URLs, settings and combinations of failures are unbounded.", "anchors": ["src/blogc-git-receiver/post-receive.c:bgr_post_receive_hook"]}
{"id": "C82", "title": "Settings of a repository come from its own section", "statement": "The value of a setting of a repository is the one given in the section [repo:NAME] of the settings file whose repository it is, never that of another repository; without such a section, file or base directory there is none; the public link is htdocs in the repository unless the settings name another path, relative to the repository.", "quantifier": "every settings file, repository and environment", "why_tests_cant": "Settings files and repositories are unbounded in number and content.", "anchors": ["src/blogc-git-receiver/settings.c:bgr_settings_get_section", "src/blogc-git-receiver/settings.c:bgr_settings_parse", "src/blogc-git-receiver/settings.c:bgr_settings_get_base_dir", "src/blogc-git-receiver/pre-receive.c:bgr_pre_receive_hook"]}
{"id": "C83", "title": "The git receiver is a hook, a restricted shell or nothing", "statement": "Called by the name of a hook the program runs that hook; otherwise it runs the restricted shell, with the argument of -c or, if it has no argument and was called by its absolute path, with the command requested over SSH; in every other case it refuses.", "quantifier": "every argument vector and environment", "why_tests_cant": "Argument vectors and requested commands are unbounded.", "anchors": ["src/blogc-git-receiver/main.c:main"]}
{"id": "C84", "title": "Every path of the web server is answered by what it leads to", "statement": "For a request for a path (percent-encoded, with or without a query) the development web server answers: a file below the root with status 200, its content and the type of its name; a directory whose path ends with a slash with the first existing index page (index.html, index.htm, index.shtml, index.xml, index.txt, index.xhtml); a directory without the slash with a redirection to the path with the slash; a directory without index page with 403; anything missing or outside of the root with 404. A client that follows the redirection gets the index page.", "quantifier": "every file system, root, path, encoding of the path, query and protocol text", "why_tests_cant": "The answer depends on the encoding of the path and on the whole state of the file system; tests see a few paths of one site.", "anchors": ["src/blogc-runserver/httpd.c: handle_request", "src/blogc-runserver/mime.c: br_mime_guess_index", "src/blogc-runserver/httpd-utils.c: br_urldecode"]}
{"id": "C85", "title": "blogc -p prints what a template would show", "statement": "With any other options, 'blogc -p NAME' prints the value that a template shows for {{ NAME }} (in an entry block, or anywhere in listing mode), followed by a line end, and fails with status 78 exactly when the variable is not defined. The sources are those named on the command line followed, with -i, by those listed on the standard input. An empty -e stands for a skipped listing_entry block, any other -e has to be readable. An option without its value is an error.", "quantifier": "every command line made of valid options, every variable name, every set of source files and standard input", "why_tests_cant": "Options can be combined and ordered in unboundedly many ways, and names, values and sources are arbitrary.", "anchors": ["src/blogc/main.c: main", "src/blogc/filelist-parser.c: blogc_filelist_parse", "src/blogc/renderer.c: blogc_format_variable"]}
{"id": "C86", "title": "Each rule of blogc-make makes the documented runs of blogc", "statement": "For every settings file, the rules index, atom, atom_tags, pagination, pagination_tags, posts, tags and pages list the documented output files, and run blogc exactly for those outputs that are missing or older than the settings file, the template, the listing entry or a source they are made from (or for which one of these is missing), in order, up to the first run that fails. Each run gets the sources of the settings file in their order, the documented template and listing entry, and exactly the documented variables: FILTER_TAG is the tag in the path, FILTER_PAGE the page in the path, FILTER_PER_PAGE, FILTER_SORT and FILTER_REVERSE follow the settings, DATE_FORMAT, MAKE_RULE, MAKE_TYPE and MAKE_SLUG name the run. No variable of an earlier round is left in a later one.", "quantifier": "every settings file with non-empty directories, extensions, posts, pages and tags; all times of files; all outcomes of the runs of blogc; any number of posts, tags and pages", "why_tests_cant": "The settings, file times, tags and numbers of pages combine in unboundedly many ways, and the table of variables is shared by all rounds of a loop.", "anchors": ["src/blogc-make/rules.c: index_exec, atom_exec, atom_tags_exec, pagination_exec, pagination_tags_exec, posts_exec, tags_exec, pages_exec and the outputlist functions, posts_pagination, posts_ordering, bm_rule_need_rebuild", "src/blogc-make/ctx.c: bm_ctx_new, bm_filectx_new", "src/blogc-make/exec.c: bm_exec_blogc, bm_exec_blogc_get_variable"]}
{"id": "C87", "title": "A run asked for by blogc-make reaches blogc as meant", "statement": "For every run of blogc that a rule of blogc-make wants, the command line that blogc-make builds, split into words by the shell and read by blogc, gives blogc exactly what is meant: the output file, the template, the listing entry, listing mode, the source files in their order (through standard input), and for every variable name the value of the development environment, else of the run, else of the global settings, else the tags or the version. The same holds for the run that asks for a variable such as LAST_PAGE.", "quantifier": "every settings file with valid UTF-8 values and no single quote in a tag; every output, template and source path without line breaks; every variable name; any number of sources", "why_tests_cant": "Quoting, word splitting, option parsing, the reading of standard input and the order of definitions interact for arbitrary texts.", "anchors": ["src/blogc-make/exec.c: bm_exec_build_blogc_cmd, bm_exec_blogc, bm_exec_blogc_get_variable", "src/blogc/main.c: main", "src/common/stdin.c: bc_stdin_read", "src/blogc/filelist-parser.c: blogc_filelist_parse", "src/common/utils.c: bc_shell_quote"]}
{"id": "C88", "title": "The pages built by blogc-make show every post exactly once", "statement": "With posts_per_page set to n > 0, blogc-make learns the right number of pages from blogc (the least count with count * n >= number of posts) and builds exactly these pages. The run of blogc for page i loads exactly the entries (i-1)*n+1 to i*n of the list of all posts in the order of the settings (newest or oldest first, sorted by date or as given), and knows the number of the last page. All pages together are all posts, each exactly once and in order. The same holds for the pages of each tag with the posts of that tag.", "quantifier": "every settings file, any number of posts below 2^24, any page size, any sources and tags; end to end from the settings file over the shell command to the entries loaded by blogc", "why_tests_cant": "The number of pages comes from a run of blogc without sorting, the pages from other runs with sorting; that they agree for all numbers of posts, page sizes, orders and tags cannot be tested.", "anchors": ["src/blogc-make/rules.c: pagination_outputlist, pagination_exec, pagination_tags_outputlist, pagination_tags_exec", "src/blogc-make/exec.c: bm_exec_blogc, bm_exec_blogc_get_variable", "src/blogc/main.c: main", "src/blogc/loader.c: blogc_source_parse_from_files"]}
{"id": "C89", "title": "The rule copy mirrors the named files and directories", "statement": "For the entries of the section [copy], in order, the rule copies each regular file found there, and for a directory each file at any depth below it, exactly once to the path of the same name below the output directory, and copies nothing else; entries that do not exist are skipped. Of these copies exactly those that are due (destination missing, or older than the file or than the settings file) are made, up to the first failure, whose status is the status of the rule. Two different files never have the same destination. Destinations are inside the output directory.", "quantifier": "all settings, all directory trees of any depth and breadth, all modification times, all outcomes of the copies", "why_tests_cant": "directory trees have unbounded depth and size, and any combination of times and failures can occur", "anchors": ["src/blogc-make/ctx.c: bm_filectx_new_r", "src/blogc-make/ctx.c: bm_ctx_new", "src/blogc-make/rules.c: copy_outputlist", "src/blogc-make/rules.c: copy_exec", "src/blogc-make/rules.c: bm_rule_need_rebuild"]}
{"id": "C90", "title": "The default Atom feed shows the listed posts and links to the files that are built", "statement": "If the settings name no feed template, the template generated by blogc-make is accepted by blogc, and for every list of posts and all variables it renders to the documented feed: the title of the site (with the tag, for the feed of a tag), one entry per listed post, in order, with its title, dates, author and content; the feed's link to itself is the path where the rule atom or atom_tags writes it, and the link of each entry is the path where the rule posts writes the page of that post. The file deployed holds the whole template, or an error is reported.", "quantifier": "all settings of prefixes and extensions, all lists of posts, all variables and tags", "why_tests_cant": "any combination of settings and any number of posts is possible; template, renderer and path rules are separate programs that have to agree", "anchors": ["src/blogc-make/atom.c: bm_atom_generate", "src/blogc-make/atom.c: bm_atom_deploy", "src/blogc-make/utils.c: bm_generate_filename", "src/blogc-make/rules.c: atom_outputlist", "src/blogc-make/rules.c: posts_outputlist"]}
{"id": "C91", "title": "blogc-make clean undoes a build", "statement": "The rule clean, run after a build, reports success and removes exactly the built files and those directories, from the output directory down, that then hold nothing else. Files of other origin, and the directories around them, stay. In particular a build into an output directory that did not exist, followed by clean, leaves the disk as it was before the build.", "quantifier": "all sites, all file trees before the build, all sets of output files", "why_tests_cant": "the files built depend on settings, posts, tags and number of pages, and directories are removed one by one while other files are still there; tests try a few fixed trees", "anchors": ["src/blogc-make/rules.c: clean_exec", "src/blogc-make/rules.c: bm_rule_list_built_files", "src/blogc-make/exec-native.c: bm_exec_native_rm", "src/blogc-make/exec-native.c: bm_exec_native_is_empty_dir"]}
{"id": "C92", "title": "The layout of a configuration file does not matter", "statement": "A configuration document may be written with any blanks around section headers, keys, equals signs, values and items, with comments or blank lines anywhere, and with any of the four line endings on each line: the parser accepts it and every query for a key, a list or the section names gets the answer the document says.", "quantifier": "every well-formed document, every way to lay it out", "why_tests_cant": "There are unboundedly many layouts of a document; tests use one or two.", "anchors": ["src/common/config-parser.c:bc_config_parse", "src/common/config-parser.c:bc_config_get", "src/common/config-parser.c:bc_config_get_list", "src/common/config-parser.c:bc_config_list_sections"]}
{"id": "C93", "title": "The web server listens where it is told to", "statement": "For every order of options and directory on the command line, and whether or not the values are joined to the options, blogc-runserver listens on the last host and port given (or on those of the environment, or on 127.0.0.1 port 8080) and serves the one directory given; it refuses to start without exactly one directory or with a number of threads outside 1 to 1000. `blogc-make runserver:host=...,port=...,threads=...` starts it on exactly that host and port, with that many threads, on the output directory.", "quantifier": "every command line made of options with values and directories; every list of rule arguments", "why_tests_cant": "The command line is built by another program and split by a shell; the orders and values are unbounded.", "anchors": ["src/blogc-runserver/main.c:main", "src/blogc-make/exec.c:bm_exec_blogc_runserver", "src/blogc-make/rules.c:bm_rule_parse_args"]}
{"id": "C94", "title": "blogc-make runs the rules it is asked for with the settings it is given", "statement": "For every order of options and rules on the command line, blogc-make uses the last settings file given (or blogcfile), and executes the requested rules in the order given (or the rule all); it executes nothing if the settings cannot be loaded or if they demand make(1) and it is absent; the exit status is 0 if all rules succeed, or that of the first that fails. `blogc -m` with the same arguments does the same.", "quantifier": "every command line, settings and outcomes of the rules", "why_tests_cant": "Orders and lengths of command lines and outcomes of the rules are unbounded.", "anchors": ["src/blogc-make/main.c:main", "src/blogc/main.c:main", "src/blogc-make/rules.c:bm_rule_executor"]}
{"id": "C95", "title": "blogc-make runserver ends when the server ends, with its status", "statement": "Under every interleaving of the rebuilding thread, the server thread and interrupts, `blogc-make runserver` ends after the server has ended, with the status of the server; it never reports success unless the server ended successfully; it can always be interrupted; and the server thread only uses settings that still exist. `blogc-make watch` ends only when interrupted.", "quantifier": "every schedule of the two threads and of interrupts, every status of the server", "why_tests_cant": "Depends on races between threads and signals that tests cannot force.", "anchors": ["src/blogc-make/httpd.c:bm_httpd_run", "src/blogc-make/httpd.c:httpd_thread", "src/blogc-make/reloader.c:bm_reloader_run", "src/blogc-make/reloader.c:bm_reloader_stop"]}
{"id": "C96", "title": "What is built is what is served", "statement": "After a build into a new output directory, the web server started on that directory answers a request for the path of every built file with exactly the bytes of that file, and a media type customary for its extension. The path of a directory that holds an index page, with a slash at the end, is answered with the index page; without the slash the client is redirected to it. Anything that was not built is answered with 404. How the path is percent-encoded and which query follows it make no difference.", "quantifier": "every file tree, output directory, list of built files, content of the files, requested path, encoding of the path and query", "why_tests_cant": "The claim joins two programs and ranges over all sites and all addresses; a test checks a few addresses of one site, and the web server has no tests at all that run against a build.", "anchors": ["src/blogc-runserver/httpd.c: handle_request", "src/blogc-runserver/mime.c: br_mime_guess_index, br_mime_guess_content_type", "src/blogc-make/rules.c: bm_rule_list_built_files", "src/blogc/main.c: mkdir_recursive"]}
{"id": "C97", "title": "The web server starts on the first address that can be used", "statement": "Given a host and a port, the web server listens on the first of their addresses for which a socket can be opened, set up and bound, tells the user the URL of exactly this address, and has no other socket open. It ends with status 1, without any socket open and without telling a URL, only if no address can be used or listening fails. Every socket is closed at most once and only after it was opened, and every text it allocates on the way is freed.", "quantifier": "every list of addresses and every combination of failing system calls", "why_tests_cant": "The failures of system calls cannot be produced in a test, and there are exponentially many combinations.", "anchors": ["src/blogc-runserver/httpd.c: br_httpd_run, br_httpd_get_ip, br_httpd_get_port"]}
{"id": "C98", "title": "A client of the web server does not keep others waiting", "statement": "As long as there is an idle thread, a new connection is served, whatever other clients do: a client that stays silent occupies only its own thread, and a client that gives up its connection early has no effect on others.", "quantifier": "every number of threads and every order of connections, ends of requests and failures", "why_tests_cant": "It is about all interleavings of clients; a test has well-behaved clients.", "anchors": ["src/blogc-runserver/httpd.c: br_httpd_run"]}
{"id": "C99", "title": "Running a command leaves no descriptor and no process behind", "statement": "blogc-make runs blogc with its standard input, output and error connected to three pipes, whatever descriptors blogc-make itself was started with, and the command has no end of a pipe that belongs to blogc-make. The text for the command is written to its input only. After the call blogc-make has exactly the descriptors it had before, whichever call failed, the texts returned are all that the command wrote, its status is the one a shell would show, and nobody is left to wait for. A failure that is reported did happen, and what a failing command says is shown to the user.", "quantifier": "every set of open descriptors and limit, every outcome of pipe, fork, write, read and waitpid, every text and every way the output is cut into reads", "why_tests_cant": "Failures of each system call, closed standard streams and descriptor limits cannot be enumerated by tests; a leak shows up only after many rebuilds.", "anchors": ["src/blogc-make/exec.c:bm_exec_command", "src/blogc-make/exec.c:bm_exec_blogc", "src/blogc-make/exec.c:bm_exec_blogc_get_variable", "src/common/compat.c:bc_compat_status_code"]}
{"id": "C100", "title": "An incremental build gives what a build from scratch gives", "statement": "However a site was edited and built before, including builds that failed and outputs that were removed, blogc-make succeeds if and only if it would succeed on the same files without any output, and then every page, feed and listing has exactly the text that the build from scratch gives. No build changes a file that is not an output.", "quantifier": "every settings file, every history of edits, removals, successful and failing builds, every time of every write, every content of sources and templates", "why_tests_cant": "Whether a page is stale depends on the whole history of times and of earlier builds; tests try a few sequences, and a forgotten dependency shows up only when that file alone changes.", "anchors": ["src/blogc-make/rules.c:bm_rule_need_rebuild", "src/blogc-make/rules.c:all_exec", "src/blogc-make/rules.c:index_exec", "src/blogc-make/rules.c:posts_exec", "src/blogc-make/exec.c:bm_exec_blogc", "src/blogc/main.c:main", "src/blogc/renderer.c:blogc_render"]}
{"id": "C101", "title": "A build does what is needed and no more", "statement": "A build writes exactly the wanted outputs that are missing or older than a file they are made from, and when it fails it writes no others. Right after a build that succeeded, another one succeeds and writes nothing. After one file is edited, the next build makes exactly the outputs that are made from this file.", "quantifier": "every settings file, every set of files and times, every clock of the two builds", "why_tests_cant": "Needless or missing rebuilds depend on the combination of all times, dependencies and the number of pages told by blogc; tests cover a few fixed trees.", "anchors": ["src/blogc-make/rules.c:bm_rule_need_rebuild", "src/blogc-make/rules.c:all_exec", "src/blogc-make/rules.c:index_exec", "src/blogc-make/rules.c:pagination_exec", "src/blogc-make/exec.c:bm_exec_blogc"]}
{"id": "C102", "title": "From the files and the command line to the page", "statement": "blogc, run with source files, a template and options as the manuals describe, writes to the file of -o (or standard output) exactly the text the template manual gives for the template, where each page has exactly the variables the source manual gives for its file (headers, content as HTML, excerpt, first header, description, table of contents, file name), the source files are those of the command line and of the list on standard input, the pages are those with the requested tag, in the requested order (as given, reversed, newest or oldest first), of the requested page, the entries are those of -e, and the global variables are those of -D and those about pagination and about the first and last page.", "quantifier": "every command line, every set of source files (headers, contents in any mixture of the documented elements, line endings, byte order marks), every template, any number of files, every outcome of system calls", "why_tests_cant": "The parsers, the loader and the renderer are tested apart, on samples; that together they give the documented page for every input, with no step that loses or mixes variables, needs a proof through all of them.", "anchors": ["src/blogc/main.c:main", "src/blogc/loader.c:blogc_source_parse_from_file", "src/blogc/loader.c:blogc_source_parse_from_files", "src/blogc/loader.c:blogc_template_parse_from_file", "src/blogc/source-parser.c:blogc_source_parse", "src/blogc/content-parser.c:blogc_content_parse", "src/blogc/toctree.c:blogc_toctree_render", "src/blogc/template-parser.c:blogc_template_parse", "src/blogc/renderer.c:blogc_render"]}
{"id": "C103", "title": "A build leaves the documented page in every file of the site", "statement": "For a site whose settings, source files and templates are written as the manuals describe, blogc-make succeeds, changes no file but outputs, and leaves in every file of the site exactly the page the manuals describe for it: the index, the numbered pages, the listings and numbered pages of every tag, the feeds (with the user's template or the default one), the posts and the other pages, each with the posts, order, page number and variables the settings ask for. The files named by the section [copy] have their copies, with the same contents. This holds whatever was edited, removed and built before. While blogc-make watches the site, the next round does the same.", "quantifier": "every site (settings, posts, pages, tags, templates, contents, static files), every history of edits and builds before, every clock", "why_tests_cant": "The result depends on the whole chain: settings, the rules, the shell commands, the file list on standard input, two programs and what earlier builds left behind; tests run single commands on single sites.", "anchors": ["src/blogc-make/rules.c:bm_rule_executor", "src/blogc-make/exec.c:bm_exec_blogc", "src/blogc-make/exec.c:bm_exec_build_blogc_cmd", "src/blogc-make/atom.c:bm_atom_deploy", "src/blogc/main.c:main", "src/blogc/loader.c:blogc_source_parse_from_files", "src/blogc/renderer.c:blogc_render", "src/blogc-make/rules.c:copy_exec", "src/blogc-make/reloader.c:bm_reloader_run"]}
{"id": "C104", "title": "The feeds of a site list the newest posts, and their links lead to pages", "statement": "When the settings name no feed template, a build leaves an Atom feed of all posts and one for every tag, each in the file that the settings name. A feed has the title, tagline, author and URLs of the [global] section, the date of its first post, a self link that is its own path, and one entry for each of the first atom_posts_per_page posts (with the tag), by date or in the order of the settings file, newest first unless atom_order is ASC; an entry has the title, author, date (in RFC 3339 format) and content of its post, and its link is the path of the page that the build wrote for that post.", "quantifier": "every site (settings, posts, tags, contents), every history of edits and builds before, every clock", "why_tests_cant": "The feed template is generated from the settings, the paths of the pages are made by another function, and the entries come from another program; that links and pages agree for all prefixes, extensions, orders and page sizes is a relation between three pieces of code that tests check one at a time.", "anchors": ["src/blogc-make/atom.c:bm_atom_generate", "src/blogc-make/atom.c:bm_atom_deploy", "src/blogc-make/rules.c:atom_exec", "src/blogc-make/rules.c:atom_tags_exec", "src/blogc-make/rules.c:posts_outputlist", "src/blogc-make/utils.c:bm_generate_filename", "src/blogc/loader.c:blogc_get_filename"]}
{"id": "C105", "title": "Templates tell the truth about the build", "statement": "The variables BLOGC_RUSAGE_CPU_TIME, BLOGC_RUSAGE_MEMORY, BLOGC_SYSINFO_HOSTNAME, BLOGC_SYSINFO_USERNAME, BLOGC_SYSINFO_DATETIME and BLOGC_SYSINFO_INSIDE_DOCKER, if the user has not defined them, have the documented value when they are used for the first time: the CPU time in milliseconds or seconds and the memory in MB or GB with three decimals, rounded correctly; the short host name; the user name; the GMT date and time; and 1 inside a docker container. They are undefined if the system does not tell. Every later use shows the value of the first one, and a value that the user has defined is shown instead.", "quantifier": "All answers of the system, all CPU times and amounts of memory, all tables of variables and all sequences of uses while the answers of the system change.", "why_tests_cant": "The values come from the system of the build; rounding happens twice in floating point, for every one of the possible times; and caching concerns every sequence of uses.", "anchors": ["src/blogc/rusage.c: blogc_rusage_get, blogc_rusage_format_cpu_time, blogc_rusage_format_memory, blogc_rusage_inject", "src/blogc/sysinfo.c", "src/blogc/funcvars.c: blogc_funcvars_eval", "src/blogc/renderer.c: blogc_format_variable", "man/blogc-template.7.ronn"]}
{"id": "C106", "title": "Mistakes in templates are reported for what they are, where they are", "statement": "If a template is correct up to some point and what follows cannot stand there (an unknown statement, a malformed name, an operator that does not exist, a statement that is not allowed at that place, a missing bracket, a string or block that is still open at the end, ...), blogc stops with one error whose message names that mistake, whatever comes after it; the line and column printed are those of the wrong byte (of the operator, or of the opening quote), the line is quoted, and counts and block names in the message are those of the template. Templates whose statements are not properly nested are not accepted.", "quantifier": "every sequence of correct items, every kind of mistake after it, every continuation of the template", "why_tests_cant": "The kinds of mistakes multiply with the places where they can stand (nesting, markers, white space, names, line endings) and with arbitrary continuations; tests check a few dozen literal templates.", "anchors": ["src/blogc/template-parser.c:blogc_template_parse", "src/common/error.c:bc_error_parser", "src/common/error.c:bc_error_print", "src/blogc/main.c:main", "man/blogc-template.7.ronn"]}
{"id": "C107", "title": "Mistakes in settings and source files are reported for what they are, where they are", "statement": "A settings file is refused for its form exactly if it goes wrong somewhere: something before the first section, a section name that runs over a line break, a key without a value, or something after a quoted value or item. Then blogc-make prints what is wrong (with the key in question) and the line, the column and the text of the line where the file goes wrong. A file that is well formed but has an invalid name of a global variable, or lacks a required one, is refused with a message that names such a variable and the section. A source file is refused exactly if it is malformed (or asks for a depth that is not a number), and blogc prints the name of the file, what is wrong, and line, column and text of the line.", "quantifier": "every settings file and every source file, of any size and layout", "why_tests_cant": "That nothing else is refused, and that the first mistake decides whatever follows, is a statement about all texts; the line and column depend on every line ending before the mistake, and mistakes at the end of a line or of the file are found at a byte that is not part of the line.", "anchors": ["src/common/config-parser.c:bc_config_parse", "src/blogc-make/settings.c:bm_settings_parse", "src/blogc/source-parser.c:blogc_source_parse", "src/blogc/loader.c:blogc_source_parse_from_files", "src/common/error.c:bc_error_parser", "src/blogc-make/main.c:bm_main", "src/blogc/main.c:main"]}
{"id": "C108", "title": "Static files are up to date after any history", "statement": "However a site was edited and built before, after a build that succeeds every file named by the section [copy], and every file in the directories that it names, has a copy with the same contents at the same path below the output directory, and every page is what blogc gives for the files as they are; the outcome is the same as that of a build from scratch. A build copies exactly the static files whose copies are missing or older than the file or the settings, and another build right after it writes nothing. Copies of files that are gone are not left.", "quantifier": "Every history of edits, removals and builds (also builds that fail), every settings file and tree of directories, every order of times that a clock can give.", "why_tests_cant": "Whether a copy is made depends on the times that all the steps before have left, and copies and pages share the output directory; a test follows one history on one tree.", "anchors": ["src/blogc-make/rules.c:copy_outputlist", "src/blogc-make/rules.c:copy_exec", "src/blogc-make/rules.c:all_exec", "src/blogc-make/rules.c:bm_rule_need_rebuild", "src/blogc-make/ctx.c:bm_filectx_new_r", "src/blogc-make/exec-native.c:bm_exec_native_cp", "man/blogc-make.1.ronn"]}
{"id": "C109", "title": "Watching keeps a site up to date", "statement": "While blogc-make watch runs, whatever the user writes and removes and however many rounds succeeded or failed before, a round of its loop that succeeds leaves the output directory as a build by hand would: every page is what blogc gives for the files as they are, and every static file has a copy with the same contents. A round leaves the files of the user, and fails only if blogc gives no text for one of the pages. After a change of the settings file the next round works with the new settings.", "quantifier": "Every history of edits, removals, builds and rounds of the loop (also ones that fail), every settings file and tree of directories, every order of times that a clock can give.", "why_tests_cant": "What a round does depends on times remembered from all rounds before, compared with times on disk; a test sees a few rounds with one order of edits.", "anchors": ["src/blogc-make/reloader.c:bm_reloader_run", "src/blogc-make/ctx.c:bm_ctx_reload", "src/blogc-make/ctx.c:bm_filectx_changed", "src/blogc-make/ctx.c:bm_filectx_reload", "src/blogc-make/ctx.c:bm_ctx_new", "src/blogc-make/rules.c:watch_exec", "src/blogc-make/rules.c:all_exec"]}
{"id": "C110", "title": "Lists and tables are safe in memory", "statement": "A program that makes, fills, joins, reads and releases lists and tables in any order, using each one only between its making and its release, never touches or releases memory that is not allocated and never follows NULL. Every call ends and answers what the abstract list or map says: items in order, the value last stored under a key, the number of keys, every key visited once. The release function is called exactly for the values replaced and, at the end, for the values still held. When everything was released, no memory is in use.", "quantifier": "Every finite sequence of calls on any number of lists and tables, all data and all keys that are C strings, every choice of addresses by malloc.", "why_tests_cant": "The blocks point to each other and what a call may touch depends on all calls before; tests (also with a memory checker) see a few sequences of calls and one choice of addresses.", "anchors": ["src/common/utils.c:bc_slist_append", "src/common/utils.c:bc_slist_prepend", "src/common/utils.c:bc_slist_append_list", "src/common/utils.c:bc_slist_free_full", "src/common/utils.c:bc_slist_length", "src/common/utils.c:bc_trie_new", "src/common/utils.c:bc_trie_free", "src/common/utils.c:bc_trie_insert", "src/common/utils.c:bc_trie_lookup", "src/common/utils.c:bc_trie_size", "src/common/utils.c:bc_trie_foreach"]}
{"id": "C111", "title": "The web server keeps nothing of a request", "statement": "Whatever is requested, and however the requests overlap, the web server never uses or releases memory or a connection that is not in use, and once the requests are answered everything acquired for them is released: all memory, the connection and the file. There are never more open connections than the configured number of threads, and one.", "quantifier": "Every number of requests, every request line and state of the file system, every order of the events of the threads, every result of writing to the client.", "why_tests_cant": "Leaks show only after very many requests, and each of the ways out of the handler needs its own cause (missing files, failing calls, closed connections), in any order with other threads.", "anchors": ["src/blogc-runserver/httpd.c:handle_request", "src/blogc-runserver/httpd.c:error", "src/blogc-runserver/httpd.c:br_httpd_run", "src/blogc-runserver/httpd-utils.c:br_readline", "src/blogc-runserver/mime.c:br_mime_guess_index", "src/common/file.c:bc_file_get_contents"]}
{"id": "C112", "title": "blogc ends in an orderly way, whatever it is given", "statement": "Whatever its arguments, its standard input, the source and template files and the answers of the system, blogc ends with an exit status: it reads every file to the end, and neither it nor any of its parsers hangs or does something undefined.", "quantifier": "Every list of arguments, every standard input, every content of the files that are named, every sequence of successes and failures of the output calls.", "why_tests_cant": "A crash or an endless loop needs a particular text, template or combination of numbers, and there is no bound on the inputs a site may contain.", "anchors": ["src/blogc/main.c:main", "src/blogc/loader.c:blogc_source_parse_from_files", "src/blogc/loader.c:blogc_template_parse_from_file", "src/blogc/source-parser.c:blogc_source_parse", "src/blogc/content-parser.c:blogc_content_parse", "src/blogc/template-parser.c:blogc_template_parse", "src/blogc/renderer.c:blogc_render"]}
{"id": "C113", "title": "Contents become well-formed HTML", "statement": "Whatever the text of a post is, the HTML made from it (and from the part of it that is the excerpt) consists of properly nested elements and escaped text: every tag is complete, every element that is opened is closed in the right order, and nothing of the text is taken for markup, except lines the author has written as HTML.", "quantifier": "all texts (also with unbalanced emphasis, nested quotations, broken lists, any line endings), all positions of the excerpt mark", "why_tests_cant": "Block and inline markup can be combined and left open in unboundedly many ways, and one unclosed element or unescaped character spoils the page around it.", "anchors": ["src/blogc/content-parser.c:blogc_content_parse", "src/blogc/content-parser.c:blogc_content_parse_inline", "src/blogc/content-parser.c:htmlentities"]}
{"id": "C114", "title": "A page depends only on the variables its template names", "statement": "Whatever variables source files and the command line define: a variable that the template does not name makes no difference to what blogc writes. Named are the words in the statements of the template, the variables these stand for (NAME_5 and NAME_FORMATTED stand for NAME), the lists that it iterates over with what is mapped to their items, and DATE_FORMAT if it asks for a formatted date. Excepted are the variables that select and order the sources (FILTER_..., and DATE, TAGS and FILENAME of a source) and those that blogc computes from the contents.", "quantifier": "all templates, all source files and command lines, all names and values of variables, any place of the definition on the command line or among the header lines", "why_tests_cant": "The values that a page must not depend on are unboundedly many, and names are looked up through prefixes, suffixes and mapped items, so that an unrelated variable could be taken by accident only for particular combinations of names.", "anchors": ["src/blogc/renderer.c:blogc_get_variable", "src/blogc/renderer.c:blogc_format_variable", "src/blogc/renderer.c:blogc_render", "src/blogc/loader.c:blogc_source_parse_from_files", "src/blogc/source-parser.c:blogc_source_parse", "src/blogc/main.c:main"]}
{"id": "C115", "title": "A run of blogc gives back all it takes", "statement": "Whatever is on the command line, on standard input and in the files, and whether the run succeeds or fails: blogc never uses or releases memory or a file that is not in use, releases each thing once and by the address it was given, and when it ends nothing that it acquired is still in use. This covers the command line, the list of sources, the loaded sources with their tables and lists of tags, the template, the text of the page and the output file.", "quantifier": "all command lines, all contents of standard input, all files, all outcomes of opening the output", "why_tests_cant": "There is one path per combination of options, errors and files, each with its own releases, and any number of sources; a leak or a wrong release on one of them shows up in no output, and a memory checker sees only the runs that are tried.", "anchors": ["src/blogc/main.c:main", "src/blogc/loader.c:blogc_source_parse_from_files", "src/blogc/loader.c:blogc_source_parse_from_file", "src/blogc/source-parser.c:blogc_source_parse", "src/blogc/filelist-parser.c:blogc_filelist_parse", "src/common/utils.c:bc_str_lstrip"]}
{"id": "C116", "title": "A run of blogc-make gives back all it takes", "statement": "Whatever rules are asked for, whatever the settings file and the directories contain, whatever calls fail and whatever blogc answers: blogc-make never uses or releases memory, an open file, a directory or the temporary Atom template that is not in use, and releases each once; when it ends, nothing that it acquired is still in use and the temporary file is gone. While it watches, what it has in use after a round is one context for the newest settings, however many rounds there were.", "quantifier": "all command lines, all outcomes of reading the settings, of directories, commands, copies and removals, all sequences of rounds of watching", "why_tests_cant": "Every rule has its own exits for errors, every exit its own releases, and watching repeats them without end; leaks and uses after release show up in no output.", "anchors": ["src/blogc-make/main.c:main", "src/blogc-make/ctx.c:bm_ctx_new", "src/blogc-make/ctx.c:bm_ctx_reload", "src/blogc-make/ctx.c:bm_ctx_free_internal", "src/blogc-make/rules.c:bm_rule_executor", "src/blogc-make/rules.c:bm_rule_list_built_files", "src/blogc-make/exec.c:bm_exec_blogc", "src/blogc-make/exec-native.c:bm_exec_native_rm", "src/blogc-make/reloader.c:bm_reloader_run"]}
{"id": "C117", "title": "Reading a template and rendering a page give back all they take", "statement": "Whatever text is given as a template and whatever variables, entries and kind of page it is rendered with: nothing is used or released that is not in use, nothing is released twice, an error message is all that is left of a rejected template, and when the page has been written and the template released, nothing that was acquired is still in use.", "quantifier": "all texts of templates, all tables of variables, all lists of entries, both kinds of page, all answers of the system", "why_tests_cant": "Which releases happen depends on the nesting of statements and on which variables are defined; a leak or a use after release shows up in no output, and there are infinitely many templates.", "anchors": ["src/blogc/template-parser.c:blogc_template_parse", "src/blogc/template-parser.c:blogc_template_free_ast", "src/blogc/renderer.c:blogc_render", "src/blogc/renderer.c:blogc_format_variable", "src/blogc/renderer.c:blogc_split_list_variable"]}
{"id": "C118", "title": "The listing of a template tells what the template says", "statement": "With `-d`, blogc lists every template that it accepts, without printing a null pointer: one item for each text, variable and statement, in the order in which they stand in the template, with the name, the operator and the operand as they were written. Templates that are listed in the same way say the same.", "quantifier": "all texts of templates; all trees of statements and all ways to write them; all pairs of templates", "why_tests_cant": "There are infinitely many templates, and that two of them are never confused is a statement about all pairs.", "anchors": ["src/blogc/debug.c:blogc_debug_template", "src/blogc/debug.c:get_operator", "src/blogc/main.c:main"]}
{"id": "C119", "title": "blogc-make runs the blogc that is meant", "statement": "The command lines of blogc-make run exactly one program: the one named by the environment variable `BLOGC` (or `BLOGC_RUNSERVER`); else the program with that name in the directory blogc-make was run from; else the one found in `PATH`. A blogc-make that is a part of blogc runs itself. No character of the path or of the environment changes this, and the arguments that follow are those meant.", "quantifier": "all names blogc-make may be run by, all environments, all states of the files, all arguments of the command", "why_tests_cant": "Paths and environments are arbitrary texts that pass through dirname and a shell.", "anchors": ["src/blogc-make/exec.c:bm_exec_find_binary", "src/blogc-make/ctx.c:bm_ctx_new", "src/common/utils.c:bc_shell_quote"]}
{"id": "C120", "title": "The git receiver releases its memory", "statement": "Whatever the system calls answer, the restricted shell and the two hooks of blogc-git-receiver use no memory that they have released or not taken, release nothing twice, and have released everything when they return, or when the shell starts git-shell.", "quantifier": "all commands, environments, settings and inputs; all outcomes of all system calls; every moment of a run", "why_tests_cant": "There are many ways to fail, and each leaves the function at another place with other memory in use; tests cannot make each call fail in each situation.", "anchors": ["src/blogc-git-receiver/shell.c:bgr_shell", "src/blogc-git-receiver/pre-receive.c:bgr_pre_receive_hook", "src/blogc-git-receiver/post-receive.c:bgr_post_receive_hook", "src/blogc-git-receiver/settings.c:bgr_settings_parse", "src/blogc-git-receiver/settings.c:bgr_settings_get_section"]}
{"id": "C121", "title": "Reading a configuration releases its memory", "statement": "Whatever the file is, reading a configuration uses no memory that was released or not taken and releases nothing twice. A file that is rejected leaves only the error; one that is accepted leaves the configuration with its sections, also when a section comes twice, and freeing the configuration releases all of it.", "quantifier": "all byte strings; all names of list sections; every moment of the reading", "why_tests_cant": "The file can end, or be wrong, in each of the twelve states of the parser, with an escape pending or not and with any history of repeated sections; a leak or a second release shows in one of them only.", "anchors": ["src/common/config-parser.c:bc_config_parse", "src/common/config-parser.c:bc_config_free", "src/common/config-parser.c:free_section", "src/common/utils.c:bc_trie_insert"]}
{"id": "C122", "title": "Removing a directory gives back memory and directory streams", "statement": "However a directory that was unpacked by the receiver is removed, no name or directory stream is used that was released or not taken, and none is released twice. When the removal returns all are given back; when it gives up, those of the directories it is in remain and no others.", "quantifier": "all file systems, orders of directory entries and depths; all outcomes of all system calls; every moment of the removal", "why_tests_cant": "The function calls itself for each directory and can stop at any entry of any depth; tests try some trees and do not make each call fail.", "anchors": ["src/blogc-git-receiver/pre-receive.c:rmdir_recursive"]}
{"id": "C123", "title": "Watching writes what is out of date and no more", "statement": "While blogc-make watch runs, a round writes only pages and copies that are missing or older than a file they are made from, also if it fails; this holds for rounds that find the settings file as it was and none of the known files removed, and for rounds that read new settings. Unless static files were added since the settings were read, the files and the status after it are those that a build by hand at the same time gives. Once such a round succeeded, with all files that the pages are made from there and a clock that does not go back, every further round succeeds and writes nothing, until a file is changed. After a change of one file other than the settings, the next round leaves the outputs that are not made from it and, if it succeeds, writes those that are. An output that is removed is made again by the next round that succeeds, and no other is.", "quantifier": "all histories of edits, removals, builds and rounds before; all settings, trees of directories, clocks and numbers of further rounds", "why_tests_cant": "What a round writes depends on times remembered from all rounds before and on all files; a test sees one history and a few rounds.", "anchors": ["src/blogc-make/reloader.c:bm_reloader_run", "src/blogc-make/ctx.c:bm_ctx_reload", "src/blogc-make/rules.c:bm_rule_need_rebuild", "src/blogc-make/rules.c:copy_exec", "src/blogc-make/rules.c:all_exec"]}
