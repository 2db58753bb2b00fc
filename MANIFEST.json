{
 "claims": [
  {
   "property": "C01",
   "status": "proved",
   "theorems": [
    "Blogc.C01.dynamic_string"
   ],
   "note": "any sequence of appends, memory modelled byte by byte with out-of-bounds stores as undefined behaviour; size_t overflow of the total length not modelled"
  },
  {
   "property": "C02",
   "status": "proved",
   "theorems": [
    "Blogc.C02.join_split",
    "Blogc.C02.split_empty",
    "Blogc.C02.split_pieces_sep_free",
    "Blogc.C02.split_unlimited_sep_free",
    "Blogc.C02.split_length"
   ],
   "note": "all strings, separators and limits"
  },
  {
   "property": "C03",
   "status": "proved",
   "theorems": [
    "Blogc.C03.replace_spec"
   ],
   "note": "all strings"
  },
  {
   "property": "C04",
   "status": "proved",
   "theorems": [
    "Blogc.C04.strip_middle",
    "Blogc.C04.strip_unique",
    "Blogc.C04.strip_blank"
   ],
   "note": "all strings (shorter than 2^31 bytes in the code: int index)"
  },
  {
   "property": "C05",
   "status": "partial",
   "theorems": [
    "Blogc.C05.find_some_iff",
    "Blogc.C05.find_none_iff",
    "Blogc.C05.find_ub_iff",
    "Blogc.C05.find_in_bounds_partial",
    "Blogc.C05.find_in_bounds_violated"
   ],
   "note": "correctness proved for every string; the in-bounds part is false for strings ending in an unpaired backslash with no earlier match, proved as a violation with a witness and characterised exactly"
  },
  {
   "property": "C06",
   "status": "proved",
   "theorems": [
    "Blogc.C06.quote_lex",
    "Blogc.C06.quote_word",
    "Blogc.C06.quote_between_blanks",
    "Blogc.C06.quote_injective"
   ],
   "note": "against an independent POSIX word lexer"
  },
  {
   "property": "C07",
   "status": "proved",
   "theorems": [
    "Blogc.C07.lookup_inserts"
   ],
   "note": "all insertion histories and keys"
  },
  {
   "property": "C08",
   "status": "proved",
   "theorems": [
    "Blogc.C08.foreach_keys_nodup",
    "Blogc.C08.mem_foreach_iff",
    "Blogc.C08.size_eq_distinct"
   ],
   "note": "all insertion histories"
  },
  {
   "property": "C09",
   "status": "proved",
   "theorems": [
    "Blogc.C09.released_exactly_once",
    "Blogc.C09.no_double_free"
   ],
   "note": "all insertion histories followed by destruction"
  },
  {
   "property": "C10",
   "status": "proved",
   "theorems": [
    "Blogc.C10.sort_safe",
    "Blogc.C10.sort_correct"
   ],
   "note": "safety for arbitrary, even stateful comparisons; sortedness and stability for total preorders"
  },
  {
   "property": "C100",
   "status": "partial",
   "theorems": [
    "Blogc.C100.up_to_date",
    "Blogc.C100.determined",
    "Blogc.C100.incremental_partial",
    "Blogc.C100.same_time_violated",
    "Blogc.C100.moved_violated",
    "Blogc.C100.killed_violated",
    "Blogc.C100.options_violated",
    "Blogc.C100.no_settings"
   ],
   "note": "Proved for every history in which what the user writes is newer than the outputs and the settings of each build are good (Good), whatever their syntax. Violated by a change in the same clock tick, by a file moved over an input, by the partial output of a killed build and by a change of -D. The rule copy is not included."
  },
  {
   "property": "C101",
   "status": "partial",
   "theorems": [
    "Blogc.C101.only_needed",
    "Blogc.C101.all_needed",
    "Blogc.C101.nothing_stale",
    "Blogc.C101.idle_partial",
    "Blogc.C101.edited_partial",
    "Blogc.C101.future_violated"
   ],
   "note": "Proved if the clock of the first build is not behind the files; violated by a file with a time in the future, which is built again each time. The rule copy is not included."
  },
  {
   "property": "C102",
   "status": "partial",
   "theorems": [
    "Blogc.C102.page_partial",
    "Blogc.C102.single_partial"
   ],
   "note": "Proved for every command line of options (lists of files on standard input, tags, order, pages, entries) that renders a template (-p is C10), posts of the grammar of C74 and templates of C22; lists without form feeds (C34), fewer than 2^24 files, sorted dates less than 68 years apart (C31) and page sizes above 0 (C29); names outside the blocks must not leak (the code violates the manual there: C24.documented_violated)."
  },
  {
   "property": "C103",
   "status": "partial",
   "theorems": [
    "Blogc.C103.site_partial",
    "Blogc.C103.static_partial",
    "Blogc.C103.watch_partial"
   ],
   "note": "Proved from the text of the settings file on, in any layout (SettingsWritten), for sites whose files are written as the manuals describe (SiteOk), with positive numbers of posts per page and outputs apart from inputs (Good), for a build, a build with static files, and a round while the site is watched. Partial: names that templates use outside blocks must not be given by the posts unless all blocks are used (NoLeak, see C24 for the violation); blogc and the shell run without failing system calls; files written by the user are newer than the outputs (see C100 and C108 for the violations); while watching, nothing that the program remembers is removed unless the settings file changes, and static files added since the settings were read are not copied (see C109 for the violations); dates less than 68 years apart if posts are sorted (see C31)."
  },
  {
   "property": "C104",
   "status": "partial",
   "theorems": [
    "Blogc.C104.feeds_partial",
    "Blogc.C104.nested_slug_violated",
    "Blogc.C104.own_format_violated"
   ],
   "note": "Proved under the conditions of C103 for the other templates, for settings that name no feed template (Usual): literal prefixes and extensions, slugs without separators, source files with one extension, tags and posts not called index where that is the index page, no variables about dates in [global] and no DATE_FORMAT in posts. Violated otherwise: the link of a post whose slug has a slash leads elsewhere (nested_slug_violated), and a DATE_FORMAT header of a post changes the format of its date in the feed (own_format_violated); see C90 for prefixes that are empty or have a percent sign."
  },
  {
   "property": "C105",
   "status": "partial",
   "theorems": [
    "Blogc.C105.shown_partial",
    "Blogc.C105.given",
    "Blogc.C105.kept_partial",
    "Blogc.C105.cached",
    "Blogc.C105.tiny_violated",
    "Blogc.C105.long_violated",
    "Blogc.C105.fqdn_violated",
    "Blogc.C105.overwritten_violated",
    "Blogc.C105.early_violated"
   ],
   "note": "Proved for at least a millisecond and a megabyte, up to 2^33 microseconds and KB (rounded to the nearest below 2^24, with an error below one unit of the last digit above), and for hosts with a short name. Violated: smaller values are printed with %d although they are long (tiny_violated); longer times lose milliseconds (long_violated); the name of the resolver is shown, which may be an FQDN (fqdn_violated); showing one variable for resource usage replaces a value the user has given for the other (overwritten_violated), and measures both (early_violated)."
  },
  {
   "property": "C106",
   "status": "partial",
   "theorems": [
    "Blogc.C106.reported",
    "Blogc.C106.unfinished_reported",
    "Blogc.C106.open_string_reported",
    "Blogc.C106.position_inside",
    "Blogc.C106.printed",
    "Blogc.C106.printed_unplaced",
    "Blogc.C106.numbered",
    "Blogc.C106.far_undefined",
    "Blogc.C106.far_violated",
    "Blogc.C106.second_else_violated",
    "Blogc.C106.crossing_violated",
    "Blogc.C106.truncated_violated",
    "Blogc.C106.swallowed_violated"
   ],
   "note": "All mistakes of Spec/Mistakes (statements, names, block types, operators, nesting, brackets, ends) after every correct prefix and before every continuation: exact error, message and position; exact text on the standard error for templates below 2^31 - 1 bytes. Line and column are size_t printed with %d: from 2^31 on the outcome is undefined (far_undefined, far_violated). The last sentence is false and the negations are proved: a second else after a nested conditional, crossing statements and templates that end within an item are accepted, and the byte after a compared variable is not looked at."
  },
  {
   "property": "C107",
   "status": "partial",
   "theorems": [
    "Blogc.C107.refused_iff",
    "Blogc.C107.accepted_iff",
    "Blogc.C107.one_mistake",
    "Blogc.C107.mistake_on_line",
    "Blogc.C107.settings_reported",
    "Blogc.C107.content_reported",
    "Blogc.C107.source_on_line",
    "Blogc.C107.source_reported",
    "Blogc.C107.reserved_reported",
    "Blogc.C107.nothing_reported",
    "Blogc.C107.source_refused",
    "Blogc.C107.after_quotes_violated",
    "Blogc.C107.unfinished_violated",
    "Blogc.C107.reserved_place_violated",
    "Blogc.C107.last_header_violated",
    "Blogc.C107.maxdepth_place_violated"
   ],
   "note": "Both directions for all texts. Violated: one byte after the quotes at the end of a file, unclosed names and quotes and an unfinished last header line are accepted without a word; a reserved variable is reported without its place, a wrong TOCTREE_MAXDEPTH with the place of the end of the file. The texts printed assume files shorter than 2^31-1 bytes without NUL bytes (longer ones are undefined)."
  },
  {
   "property": "C108",
   "status": "partial",
   "theorems": [
    "Blogc.C108.up_to_date_partial",
    "Blogc.C108.incremental_partial",
    "Blogc.C108.only_old",
    "Blogc.C108.idle_partial",
    "Blogc.C108.moved_violated",
    "Blogc.C108.leftover_violated",
    "Blogc.C108.nested_violated",
    "Blogc.C108.no_settings"
   ],
   "note": "Proved for all histories in which what the user writes is newer than the outputs, for settings whose outputs, inputs and copies are apart, and for directories that are seen as they are (idle_partial: if the clock was not behind the files). Violated by the code: a file replaced by one with an older time is not copied (moved_violated), copies of removed files stay (leftover_violated), and a copied directory that contains the output directory is copied into itself again by each build (nested_violated)."
  },
  {
   "property": "C109",
   "status": "partial",
   "theorems": [
    "Blogc.C109.round_partial",
    "Blogc.C109.reread_partial",
    "Blogc.C109.watched_right",
    "Blogc.C109.added_violated",
    "Blogc.C109.removed_violated",
    "Blogc.C109.copies_fail",
    "Blogc.C109.removed_post_violated"
   ],
   "note": "Violated by files that are removed, which goes unnoticed, and by new files in a copied directory, which are not copied until the settings file changes. Proved: with unchanged settings and nothing remembered removed, a round that succeeds leaves all pages, and all static files that were there when the settings were read, up to date; after a change of the settings everything is up to date."
  },
  {
   "property": "C11",
   "status": "proved",
   "theorems": [
    "Blogc.C11.validate_iff"
   ],
   "note": "all byte strings, against RFC 3629 encoding"
  },
  {
   "property": "C110",
   "status": "proved",
   "theorems": [
    "Blogc.C110.safe",
    "Blogc.C110.malloc"
   ],
   "note": "For every legal program of list and table calls on a memory of blocks: ends without undefined behaviour, right answers, right releases, and an empty memory when all was released. malloc shows that the assumption about malloc can be met."
  },
  {
   "property": "C111",
   "status": "partial",
   "theorems": [
    "Blogc.C111.kept",
    "Blogc.C111.kept_partial",
    "Blogc.C111.connections",
    "Blogc.C111.handle_same",
    "Blogc.C111.kept_violated"
   ],
   "note": "Exactly one text is kept for every request with an empty first line (kept), so nothing if there is none (kept_partial), and any number of clients that close their connection without a request take memory for ever (kept_violated). Requests that never end (C12) and the undefined case of C48 are excluded; if a thread cannot be joined or created the server ends."
  },
  {
   "property": "C112",
   "status": "partial",
   "theorems": [
    "Blogc.C112.source_partial",
    "Blogc.C112.template_read",
    "Blogc.C112.rejected",
    "Blogc.C112.orderly_partial",
    "Blogc.C112.list_violated",
    "Blogc.C112.hang_violated",
    "Blogc.C112.cut_violated",
    "Blogc.C112.pages_violated",
    "Blogc.C112.product_violated",
    "Blogc.C112.print_violated"
   ],
   "note": "Proved for every command line, all headers, templates and answers of the system, if the contents are manageable (one kind of line ending and no lines starting like a list item or ending with a backslash; or lists that are not broken off, with line endings of one character; or written with the documented elements), the template is not cut off, and the page numbers can be multiplied. Without these the code violates the property: a list that breaks off (use after free), two kinds of line endings (endless recursion), a template that is cut off, FILTER_PER_PAGE=0, page numbers whose product overflows, an empty name for -p."
  },
  {
   "property": "C113",
   "status": "partial",
   "theorems": [
    "Blogc.C113.nested",
    "Blogc.C113.escaped",
    "Blogc.C113.well_formed_partial",
    "Blogc.C113.well_formed_links_partial",
    "Blogc.C113.well_formed_violated",
    "Blogc.C113.attribute_violated",
    "Blogc.C113.level_violated",
    "Blogc.C113.of_source"
   ],
   "note": "Proved for all texts: the output and the excerpt belong to a grammar of nested elements and escaped text, in which only targets of links and images and blocks of HTML of the author are taken over from the text (nested). Without blocks of HTML they are read as well-formed by an independent reader of HTML when the text has no [ or none of < > \" (well_formed_partial, well_formed_links_partial). Violated: targets of links are not escaped, so that < and \" in them spoil the page or add attributes (well_formed_violated, attribute_violated); header levels are not bounded by 6 (level_violated)."
  },
  {
   "property": "C114",
   "status": "proved",
   "theorems": [
    "Blogc.C114.page",
    "Blogc.C114.run",
    "Blogc.C114.definition",
    "Blogc.C114.header",
    "Blogc.C114.not_named",
    "Blogc.C114.unmentioned"
   ],
   "note": "Two tables (or runs) that agree on the named variables give the same result; a definition on the command line and a header line of a source file as instances; a name that is nowhere in the text of the template is not named. Exceptions are part of the statement: the variables the loader uses by itself, and DATE_FORMAT and mapped items, which are named indirectly."
  },
  {
   "property": "C115",
   "status": "partial",
   "theorems": [
    "Blogc.C115.safe_partial",
    "Blogc.C115.leftover_partial",
    "Blogc.C115.returned_partial",
    "Blogc.C115.wrong_address_violated",
    "Blogc.C115.twice_violated",
    "Blogc.C115.key_violated",
    "Blogc.C115.directory_violated",
    "Blogc.C115.same_command_line",
    "Blogc.C115.same_sources",
    "Blogc.C115.same_variables"
   ],
   "note": "Proved for every command line, standard input and set of files: no use or release of what is not in use, what may be left is only keys of headers and values of -t, -o, -p, and nothing is left if each of these options has one value, the source files end with a line end and the directories of the output can be made. The files must be manageable (C112). Violated: a name after a vertical tab or form feed on standard input is released by an address inside of the block (witness); an option given twice loses its first value; a file that ends within a header loses its key; a directory that cannot be made ends the process with everything in use. Ledger of events of main.c, loader.c, source-parser.c and filelist-parser.c; the memory of lists, tables, contents and of the renderer is that of C110, C40, C23."
  },
  {
   "property": "C116",
   "status": "partial",
   "theorems": [
    "Blogc.C116.safe",
    "Blogc.C116.leftover_partial",
    "Blogc.C116.returned_partial",
    "Blogc.C116.no_file_partial",
    "Blogc.C116.watching",
    "Blogc.C116.any_moment",
    "Blogc.C116.arguments_violated",
    "Blogc.C116.names_violated",
    "Blogc.C116.interrupted_violated",
    "Blogc.C116.clean_status"
   ],
   "note": "Proved for all scripts of what a run meets: nothing is used or released that is not in use, and a run that is not killed leaves only tables of arguments of rules and all but the last name given with -f. Watching holds one context. The code violates the rest (arguments of rules, a second -f, the temporary file after an interrupt). Not modelled: the rule runserver and its thread, NULL contexts of posts and pages."
  },
  {
   "property": "C117",
   "status": "partial",
   "theorems": [
    "Blogc.C117.reading",
    "Blogc.C117.rejected",
    "Blogc.C117.leftover_partial",
    "Blogc.C117.returned_partial",
    "Blogc.C117.complete_partial",
    "Blogc.C117.tree_partial",
    "Blogc.C117.any_moment_partial",
    "Blogc.C117.returned_violated"
   ],
   "note": "Reading any text and rejecting it: nothing is left, for all inputs. Rendering an accepted template: nothing is left if its statements are properly nested (Nested, a small specification; every tree of statements is). The parser also accepts templates in which an iterator and a conditional cross; then the words and the name of the iterator can stay in use (returned_violated), and nothing else can (leftover_partial). The hypothesis that rendering succeeds is discharged for complete templates by C23. Not modelled: growth of string buffers, failing malloc."
  },
  {
   "property": "C118",
   "status": "partial",
   "theorems": [
    "Blogc.C118.defined",
    "Blogc.C118.tree",
    "Blogc.C118.written",
    "Blogc.C118.tells_partial",
    "Blogc.C118.tells_violated"
   ],
   "note": "Every accepted template is listed (defined), and a template that is a tree of statements is listed as the tree (tree; written from the text of the template, with the conditions of C22). Templates with the same listing say the same if no text has an end of line (tells_partial); with ends of lines a text can imitate items (tells_violated)."
  },
  {
   "property": "C119",
   "status": "partial",
   "theorems": [
    "Blogc.C119.one_word",
    "Blogc.C119.unique",
    "Blogc.C119.runs_partial",
    "Blogc.C119.page_command_partial",
    "Blogc.C119.server_command_partial",
    "Blogc.C119.folder_violated"
   ],
   "note": "Missing: a directory with the name of the program beside blogc-make is taken for the program (folder_violated: access with X_OK succeeds for it); tags with a quote (C57)."
  },
  {
   "property": "C12",
   "status": "partial",
   "theorems": [
    "Blogc.C12.load_text",
    "Blogc.C12.load_binary",
    "Blogc.C12.load_terminates_violated",
    "Blogc.C12.stdin_read"
   ],
   "note": "proved for every readable file; termination is false when reads fail (directory, I/O error): proved violation"
  },
  {
   "property": "C120",
   "status": "partial",
   "theorems": [
    "Blogc.C120.same",
    "Blogc.C120.accounted",
    "Blogc.C120.post_receive",
    "Blogc.C120.pre_receive",
    "Blogc.C120.shell_partial",
    "Blogc.C120.any_moment",
    "Blogc.C120.shell_violated"
   ],
   "note": "The programs with memory are the models of C43 and others (same). Missing: the shell does not release its copy of the command when the command is too big (shell_violated). The memory that rmdir_recursive uses within a call is not modelled; it ends the process with status 2 when it fails."
  },
  {
   "property": "C121",
   "status": "proved",
   "theorems": [
    "Blogc.C121.same",
    "Blogc.C121.accepted",
    "Blogc.C121.by_name",
    "Blogc.C121.rejected",
    "Blogc.C121.any_moment"
   ],
   "note": "A section counts as one thing with the table or list in it, a configuration as one thing with its table of sections; the tables themselves are in C110."
  },
  {
   "property": "C122",
   "status": "proved",
   "theorems": [
    "Blogc.C122.same",
    "Blogc.C122.returned",
    "Blogc.C122.gave_up",
    "Blogc.C122.any_moment"
   ],
   "note": "Symbolic links as in C79. When the removal gives up the process ends (exit(2)), so that what remains in use then is given back by the system."
  },
  {
   "property": "C123",
   "status": "proved",
   "theorems": [
    "Blogc.C123.only_old",
    "Blogc.C123.reread_only_old",
    "Blogc.C123.as_build",
    "Blogc.C123.reread_as_build",
    "Blogc.C123.idle",
    "Blogc.C123.settled",
    "Blogc.C123.quiet",
    "Blogc.C123.reread_quiet",
    "Blogc.C123.edited",
    "Blogc.C123.sample_quiet",
    "Blogc.C123.sample_reread",
    "Blogc.C123.sample_as_build",
    "Blogc.C123.sample_edited",
    "Blogc.C123.restored"
   ],
   "note": "For the rounds of the model of C109, with the conditions of its round_partial or reread_partial: the files named by the settings are not outputs (Outside), and either the settings file is newer than when it was read, or nothing that is remembered was removed (Kept). No file is from the future (Watched). In edited, outputs are those wanted before and after the change. The theorems sample_* apply the others to a site with two edits."
  },
  {
   "property": "C13",
   "status": "proved",
   "theorems": [
    "Blogc.C13.error_position",
    "Blogc.C13.error_line_in_bounds",
    "Blogc.C13.quoted_line",
    "Blogc.C13.quoted_line_violated"
   ],
   "note": "all sources and offsets; extra: the quoted text is exactly the line when the offset is at a character of it, and quoted_line_violated records that an error on an empty line quotes the rest of the source (outside the claim); printing of size_t with %d not modelled"
  },
  {
   "property": "C14",
   "status": "proved",
   "theorems": [
    "Blogc.C14.round_trip"
   ],
   "note": "all documents of sections, comments, blank lines, plain or quoted values; duplicate sections and keys: last wins"
  },
  {
   "property": "C15",
   "status": "proved",
   "theorems": [
    "Blogc.C15.parse_total",
    "Blogc.C15.parse_fuel",
    "Blogc.C15.error_in_source",
    "Blogc.C15.section_newline_reported",
    "Blogc.C15.key_without_value_reported",
    "Blogc.C15.text_before_section_reported"
   ],
   "note": "all byte strings and list-section names; sections modelled on a heap with release by the trie"
  },
  {
   "property": "C16",
   "status": "partial",
   "theorems": [
    "Blogc.C16.last_item_lost_violated",
    "Blogc.C16.last_empty_value_lost_violated",
    "Blogc.C16.unterminated_quote_lost_violated",
    "Blogc.C16.escape_loses_blank_violated",
    "Blogc.C16.last_line_kept_partial"
   ],
   "note": "false in general: four proved witnesses of silent loss; proved for well-formed documents with or without final line end when the last line is quoted, a non-empty value or an item of two or more characters"
  },
  {
   "property": "C17",
   "status": "partial",
   "theorems": [
    "Blogc.C17.headers_kept_partial",
    "Blogc.C17.raw_content",
    "Blogc.C17.accepted",
    "Blogc.C17.accepted_shape",
    "Blogc.C17.headers_kept_violated"
   ],
   "note": "Every key but RAW_CONTENT and EXCERPT keeps its last trimmed value, RAW_CONTENT is exact, such files are accepted, and every accepted NUL-free file has this shape. The full claim fails for header lines named RAW_CONTENT or EXCERPT (accepted, then overwritten): headers_kept_violated."
  },
  {
   "property": "C18",
   "status": "proved",
   "theorems": [
    "Blogc.C18.reserved_never_set",
    "Blogc.C18.reserved_rejected"
   ],
   "note": "For every byte string; reserved keys are also shown to be rejected with the right error."
  },
  {
   "property": "C19",
   "status": "partial",
   "theorems": [
    "Blogc.C19.content_set_partial",
    "Blogc.C19.one_byte_violated",
    "Blogc.C19.one_byte_witness_violated"
   ],
   "note": "Proved for contents of at least two bytes; a content of exactly one byte is silently dropped (one_byte_violated, for every such file)."
  },
  {
   "property": "C20",
   "status": "proved",
   "theorems": [
    "Blogc.C20.source_wins",
    "Blogc.C20.generated_otherwise"
   ],
   "note": "For every file with header lines, separator and content of at least two bytes (shorter contents generate nothing)."
  },
  {
   "property": "C21",
   "status": "partial",
   "theorems": [
    "Blogc.C21.in_bounds",
    "Blogc.C21.well_bracketed_partial",
    "Blogc.C21.accepted_shape",
    "Blogc.C21.nodes_ok",
    "Blogc.C21.well_bracketed_violated",
    "Blogc.C21.block_closed_violated"
   ],
   "note": "Holds for every template in which each statement that is opened is also closed (\"{%\" followed by \"%}\"); an unfinished statement or block at the end of the file is accepted, shown by the _violated theorems. nodes_ok is the shape of the parsed nodes."
  },
  {
   "property": "C22",
   "status": "partial",
   "theorems": [
    "Blogc.C22.read_partial",
    "Blogc.C22.unmarked_partial",
    "Blogc.C22.rendered_partial",
    "Blogc.C22.lone_brace_violated",
    "Blogc.C22.far_text_violated"
   ],
   "note": "Round trip for every list of items (text, variable references, statements with any inner white space and any markers) whose statements are well nested, and end to end with C24. Not covered because the parser violates it: trailing text whose last byte but one is a brace is lost; a -%} directly followed by an item trims text further on."
  },
  {
   "property": "C23",
   "status": "partial",
   "theorems": [
    "Blogc.C23.terminates",
    "Blogc.C23.renders_partial",
    "Blogc.C23.renders_violated",
    "Blogc.C23.block_violated"
   ],
   "note": "Termination is proved for every list of nodes. Freedom from undefined behaviour is proved for every accepted template that is not cut off inside a statement; the two _violated theorems show accepted templates, cut off inside the last statement, on which the renderer follows a null pointer."
  },
  {
   "property": "C24",
   "status": "partial",
   "theorems": [
    "Blogc.C24.documented_partial",
    "Blogc.C24.exact",
    "Blogc.C24.documented_violated",
    "Blogc.C24.neutral_of_absent",
    "Blogc.C24.total"
   ],
   "note": "For every well-nested template tree the renderer terminates with the documented text, provided names used outside source blocks do not depend on the sources, or every block of the template is used. The full statement is false: after a block that is left out the last entry stays visible (documented_violated). exact gives the text produced for every well-nested template, leaks included. Nesting of blocks in blocks and iterators in iterators is excluded, as the parser rejects it."
  },
  {
   "property": "C25",
   "status": "partial",
   "theorems": [
    "Blogc.C25.hidden_partial",
    "Blogc.C25.neutral_partial",
    "Blogc.C25.skipped_violated",
    "Blogc.C25.listing_once_violated",
    "Blogc.C25.overlap_violated"
   ],
   "note": "For well-nested templates where every block is used and no listing_once block follows a block that shows entries (or where the names concerned do not depend on the sources), the output is the same as if the names referred to only outside entry blocks were never looked up in an entry. The full statement is false: an entry stays visible after a block that is left out, in listing_once after a listing, and when iterators and conditionals overlap."
  },
  {
   "property": "C26",
   "status": "proved",
   "theorems": [
    "Blogc.C26.local_then_global",
    "Blogc.C26.global_only",
    "Blogc.C26.absent_iff",
    "Blogc.C26.rendered"
   ],
   "note": "For tables built by any history of insertions, with keys free of NUL bytes."
  },
  {
   "property": "C27",
   "status": "partial",
   "theorems": [
    "Blogc.C27.in_bounds",
    "Blogc.C27.prefix_partial",
    "Blogc.C27.item",
    "Blogc.C27.value",
    "Blogc.C27.formatted",
    "Blogc.C27.empty_name_violated",
    "Blogc.C27.formatted_violated",
    "Blogc.C27.item_violated",
    "Blogc.C27.twice_violated"
   ],
   "note": "prefix_partial covers every defined NAME that does not end in _FORMATTED and is not FOREACH_ITEM or FOREACH_VALUE within an iterator; item, value and formatted cover the derived names. The excluded cases and the empty name do violate the property."
  },
  {
   "property": "C28",
   "status": "proved",
   "theorems": [
    "Blogc.C28.strcmp_spec",
    "Blogc.C28.trichotomy",
    "Blogc.C28.compares",
    "Blogc.C28.complements",
    "Blogc.C28.undefined_false",
    "Blogc.C28.if_text",
    "Blogc.C28.if_variable"
   ],
   "note": ""
  },
  {
   "property": "C29",
   "status": "partial",
   "theorems": [
    "Blogc.C29.pages_partition_partial",
    "Blogc.C29.page_exact",
    "Blogc.C29.page_length",
    "Blogc.C29.pages_concat",
    "Blogc.C29.zero_page_size_violated",
    "Blogc.C29.many_entries_violated"
   ],
   "note": "Proved for page size > 0 and fewer than 2^24 entries (the page count is computed in single precision; many_entries_violated shows it fails beyond). FILTER_PER_PAGE=0 is undefined behaviour (zero_page_size_violated)."
  },
  {
   "property": "C30",
   "status": "proved",
   "theorems": [
    "Blogc.C30.filter_exact"
   ],
   "note": "Parsing of the source files is a parameter of the loader model."
  },
  {
   "property": "C31",
   "status": "partial",
   "theorems": [
    "Blogc.C31.chronological_partial",
    "Blogc.C31.chronological_violated"
   ],
   "note": "Proved when any two dates are less than 2^31 seconds apart; sort_source truncates the difference to int, so dates further apart are ordered wrongly (chronological_violated). Conversion of dates to seconds (mktime/strftime) is a parameter."
  },
  {
   "property": "C32",
   "status": "partial",
   "theorems": [
    "Blogc.C32.exact_partial",
    "Blogc.C32.accepted_iff",
    "Blogc.C32.documented_accepted",
    "Blogc.C32.exact_violated"
   ],
   "note": "Exact as documented for strings of at most 19 bytes, and the exact set of accepted strings for all lengths; the full property is violated because any text after the seconds is accepted (exact_violated). mktime/strftime not modelled."
  },
  {
   "property": "C33",
   "status": "proved",
   "theorems": [
    "Blogc.C33.filename_correct",
    "Blogc.C33.filename_total",
    "Blogc.C33.lastComponent_exists",
    "Blogc.C33.withoutExtension_exists"
   ],
   "note": ""
  },
  {
   "property": "C34",
   "status": "partial",
   "theorems": [
    "Blogc.C34.exact_partial",
    "Blogc.C34.parse_eq",
    "Blogc.C34.exact_violated"
   ],
   "note": "Exact behaviour for all inputs is parse_eq; the property holds when no line starts with a form feed or vertical tab after spaces and tabs (such a line gives an empty entry: exact_violated)."
  },
  {
   "property": "C35",
   "status": "proved",
   "theorems": [
    "Blogc.C35.toctree_correct",
    "Blogc.C35.toctree_none",
    "Blogc.C35.append_levels"
   ],
   "note": ""
  },
  {
   "property": "C36",
   "status": "proved",
   "theorems": [
    "Blogc.C36.slug_chars",
    "Blogc.C36.slug_length",
    "Blogc.C36.slug_idempotent",
    "Blogc.C36.slug_keeps"
   ],
   "note": "Every byte string; slugs contain only lower case letters, digits and dashes, one output byte per input byte."
  },
  {
   "property": "C37",
   "status": "proved",
   "theorems": [
    "Blogc.C37.escaped_safe",
    "Blogc.C37.decode_escaped",
    "Blogc.C37.escaped_injective",
    "Blogc.C37.escaped_length"
   ],
   "note": "Escaped text has no markup characters and decoding gives the text back."
  },
  {
   "property": "C38",
   "status": "partial",
   "theorems": [
    "Blogc.C38.terminates",
    "Blogc.C38.terminates_part",
    "Blogc.C38.in_bounds_violated",
    "Blogc.C38.in_bounds_violated_example",
    "Blogc.C38.in_bounds_partial"
   ],
   "note": "Termination for every text. Memory safety is false as stated: a dangling backslash after an opening delimiter reads past the terminator (witness proved); proved for all other texts."
  },
  {
   "property": "C39",
   "status": "proved",
   "theorems": [
    "Blogc.C39.plain_text",
    "Blogc.C39.plain_text_single"
   ],
   "note": "Text without markup characters comes out as its own escaping."
  },
  {
   "property": "C40",
   "status": "partial",
   "theorems": [
    "Blogc.C40.terminates_violated",
    "Blogc.C40.in_bounds_violated",
    "Blogc.C40.in_bounds_ordered_violated",
    "Blogc.C40.in_bounds_backslash_violated",
    "Blogc.C40.one_call_terminates",
    "Blogc.C40.terminates_partial",
    "Blogc.C40.in_bounds_partial",
    "Blogc.C40.lists_in_bounds_partial",
    "Blogc.C40.repaired_in_bounds",
    "Blogc.C40.parses_partial",
    "Blogc.C40.lists_parsed_partial"
   ],
   "note": "False as stated: a text with mixed line endings makes nested calls without end; a list given up is used after it is released; a line ending with a backslash reads past the end (witnesses proved). Proved: the loop of one call ends on every text; nested calls end when all lines end in the same way (LF, CR, CRLF or LFCR); no undefined behaviour without trailing backslashes if no line starts like a list item, or (line endings of one character) if every list is outside of quotations and not broken off, and for all lists once the released pointer is reset."
  },
  {
   "property": "C41",
   "status": "partial",
   "theorems": [
    "Blogc.C41.roundtrip",
    "Blogc.C41.accepted_iff",
    "Blogc.C41.restricted_partial",
    "Blogc.C41.unterminated_violated"
   ],
   "note": "Round trip proved for every path; exact acceptance condition proved. A command that stops inside a quoted piece is accepted (unterminated_violated), so the restriction to quoted paths holds only up to such an unfinished rest."
  },
  {
   "property": "C42",
   "status": "partial",
   "theorems": [
    "Blogc.C42.inside_partial",
    "Blogc.C42.inside_no_dotdot_partial",
    "Blogc.C42.inside_violated",
    "Blogc.C42.create_violated"
   ],
   "note": "The shell does not refuse paths with .. components; proved inside for paths that do not climb above their start (lexical paths, symbolic links not followed)."
  },
  {
   "property": "C43",
   "status": "proved",
   "theorems": [
    "Blogc.C43.one_argument",
    "Blogc.C43.init_argument",
    "Blogc.C43.no_environment"
   ],
   "note": ""
  },
  {
   "property": "C44",
   "status": "proved",
   "theorems": [
    "Blogc.C44.branches_exact",
    "Blogc.C44.deploy_exact"
   ],
   "note": ""
  },
  {
   "property": "C45",
   "status": "partial",
   "theorems": [
    "Blogc.C45.always_served_partial",
    "Blogc.C45.success_serves_new",
    "Blogc.C45.failed_build_keeps_site",
    "Blogc.C45.chooseOut_fresh",
    "Blogc.C45.always_served_violated",
    "Blogc.C45.failed_symlink_violated",
    "Blogc.C45.reused_directory_violated",
    "Blogc.C45.dangling_violated"
   ],
   "note": "The link is removed and then created (not replaced atomically), so a crash or failure in between leaves no site; everything else is proved."
  },
  {
   "property": "C46",
   "status": "partial",
   "theorems": [
    "Blogc.C46.inverts_partial",
    "Blogc.C46.percent_kept",
    "Blogc.C46.in_bounds",
    "Blogc.C46.plus_violated"
   ],
   "note": "Proved for every percent-encoding that does not write + literally; a literal +, allowed by RFC 3986 in a path, is decoded to a space (plus_violated). Malformed escapes are kept; the decoder never reads out of bounds."
  },
  {
   "property": "C47",
   "status": "partial",
   "theorems": [
    "Blogc.C47.inside_partial",
    "Blogc.C47.served_file",
    "Blogc.C47.sibling_violated",
    "Blogc.C47.index_violated"
   ],
   "note": "Violated by the code: the prefix test has no separator (/srv/www2 passes for /srv/www) and an index file that is a symbolic link is not checked. Proved when neither occurs."
  },
  {
   "property": "C48",
   "status": "partial",
   "theorems": [
    "Blogc.C48.answered_partial",
    "Blogc.C48.body_is_file",
    "Blogc.C48.empty_closed",
    "Blogc.C48.empty_target_violated",
    "Blogc.C48.directory_index_violated",
    "Blogc.C48.header_violated"
   ],
   "note": "Violated by the code in three cases: an empty request target crashes, an index that is a directory hangs, a directory name with a line end breaks the redirection. Proved for all other requests."
  },
  {
   "property": "C49",
   "status": "partial",
   "theorems": [
    "Blogc.C49.any_split_partial",
    "Blogc.C49.readline_used",
    "Blogc.C49.single_packet",
    "Blogc.C49.any_split_violated"
   ],
   "note": "Violated by the code: a read shorter than the buffer ends the reading. Proved for requests whose line end arrives in the first short read; readline_used gives the exact behaviour."
  },
  {
   "property": "C50",
   "status": "proved",
   "theorems": [
    "Blogc.C50.bounded",
    "Blogc.C50.reused_after_join",
    "Blogc.C50.joined_once"
   ],
   "note": "Transition system of the accept loop with every interleaving of connections, thread ends and failures of accept, join and create."
  },
  {
   "property": "C51",
   "status": "proved",
   "theorems": [
    "Blogc.C51.with_extension",
    "Blogc.C51.without_extension",
    "Blogc.C51.table_functional",
    "Blogc.C51.customary",
    "Blogc.C51.sent_as"
   ],
   "note": "For every path with a directory part, which is what the server passes (real paths)."
  },
  {
   "property": "C52",
   "status": "proved",
   "theorems": [
    "Blogc.C52.rebuilt_iff",
    "Blogc.C52.listing_rule",
    "Blogc.C52.atom_rule",
    "Blogc.C52.entry_rule",
    "Blogc.C52.copy_rule",
    "Blogc.C52.nothing_to_do"
   ],
   "note": "For single outputs and for the build loops of all rules: exactly the outputs that are out of date are built, in order, until one fails. Times are compared in nanoseconds."
  },
  {
   "property": "C53",
   "status": "partial",
   "theorems": [
    "Blogc.C53.as_meant",
    "Blogc.C53.same_path_iff",
    "Blogc.C53.distinct_partial",
    "Blogc.C53.distinct_violated",
    "Blogc.C53.starts_with_dir",
    "Blogc.C53.inside_partial",
    "Blogc.C53.inside_violated",
    "Blogc.C53.tag_pages_distinct"
   ],
   "note": "Violated for slugs that differ by a leading slash (same file) and for slugs with .. components (outside of the output directory); both halves are proved without these."
  },
  {
   "property": "C54",
   "status": "partial",
   "theorems": [
    "Blogc.C54.sorted_partial",
    "Blogc.C54.unsorted_partial",
    "Blogc.C54.paged_partial",
    "Blogc.C54.sorted_violated"
   ],
   "note": "Composition of the filters set by blogc-make and the loader of blogc. Sorting inherits the violation of C31 (dates more than 68 years apart)."
  },
  {
   "property": "C55",
   "status": "partial",
   "theorems": [
    "Blogc.C55.reported_violated",
    "Blogc.C55.reported_partial",
    "Blogc.C55.known_rules_partial",
    "Blogc.C55.all_rule",
    "Blogc.C55.executor_total"
   ],
   "note": "Violated: an unknown rule followed by a successful one gives status 0. Proved for requests of known rules, and for all known rules of any request."
  },
  {
   "property": "C56",
   "status": "proved",
   "theorems": [
    "Blogc.C56.parsed",
    "Blogc.C56.rule_parsed",
    "Blogc.C56.rule_plain",
    "Blogc.C56.junk_rejected",
    "Blogc.C56.parseArgs_total"
   ],
   "note": ""
  },
  {
   "property": "C57",
   "status": "partial",
   "theorems": [
    "Blogc.C57.command_partial",
    "Blogc.C57.key_plain",
    "Blogc.C57.binary_word",
    "Blogc.C57.runserver_command",
    "Blogc.C57.tags_violated"
   ],
   "note": "For every value, path and locale the POSIX shell lexer of Spec/Shell.lean splits the command into exactly the intended words, provided no tag has a single quote. For tags with a quote the property is false (tags_violated): bm_exec_build_blogc_cmd puts tags between quotes without escaping them."
  },
  {
   "property": "C58",
   "status": "partial",
   "theorems": [
    "Blogc.C58.schedules_end",
    "Blogc.C58.collected",
    "Blogc.C58.never_stuck_partial",
    "Blogc.C58.stuck_err_violated",
    "Blogc.C58.stuck_input_violated"
   ],
   "note": "Two processes and three bounded pipes, every schedule and capacity. Every schedule is finite, and a call that returns has collected exactly what the child wrote. There is no deadlock if the child writes at most a pipe capacity to its standard error and either the input fits in a pipe or the child reads it all before writing. Otherwise the property is false for every capacity (stuck_err_violated, stuck_input_violated)."
  },
  {
   "property": "C59",
   "status": "partial",
   "theorems": [
    "Blogc.C59.exact_partial",
    "Blogc.C59.only_prefix",
    "Blogc.C59.copy_ends",
    "Blogc.C59.parents",
    "Blogc.C59.read_error_violated",
    "Blogc.C59.same_file_violated"
   ],
   "note": "Every pattern of short reads and writes and failed writes. False when a read fails (the copy is reported as successful, read_error_violated) and when a file is copied to itself (it is emptied, same_file_violated)."
  },
  {
   "property": "C60",
   "status": "partial",
   "theorems": [
    "Blogc.C60.always_current_partial",
    "Blogc.C60.never_again",
    "Blogc.C60.recovers_violated",
    "Blogc.C60.lost_noticed"
   ],
   "note": "The property is false: after one failed reading of the settings nothing is built again, whatever happens to the file (never_again, recovers_violated). Proved: as long as the settings stay valid, every round builds with the current settings."
  },
  {
   "property": "C61",
   "status": "partial",
   "theorems": [
    "Blogc.C61.safe_partial",
    "Blogc.C61.removes_all",
    "Blogc.C61.loop_ends",
    "Blogc.C61.parent_violated"
   ],
   "note": "Every execution and outcome of system calls, for output directories written without a slash at the end. False with such a slash: parents of the output directory are removed when empty (parent_violated)."
  },
  {
   "property": "C62",
   "status": "partial",
   "theorems": [
    "Blogc.C62.documents",
    "Blogc.C62.every_text_partial",
    "Blogc.C62.empty_key_violated"
   ],
   "note": "Accepted exactly if acceptable, with all values, for every well-formed document in every layout of C92 (documents); every_text_partial covers every text. The empty name passes the check of global keys: empty_key_violated."
  },
  {
   "property": "C63",
   "status": "partial",
   "theorems": [
    "Blogc.C63.agree_partial",
    "Blogc.C63.variable_agrees",
    "Blogc.C63.agree_violated",
    "Blogc.C63.differ_violated"
   ],
   "note": "The query answers yes once and no afterwards inside a container, because a local variable shadows the static one. Outside a container all answers agree (agree_partial); the template variable always agrees (variable_agrees)."
  },
  {
   "property": "C64",
   "status": "partial",
   "theorems": [
    "Blogc.C64.sets",
    "Blogc.C64.refuses_partial",
    "Blogc.C64.refused_run_partial",
    "Blogc.C64.not_utf8_violated",
    "Blogc.C64.empty_key_violated"
   ],
   "note": "Valid definitions are exact; invalid ones are refused, except that text that is not UTF-8 exits with status 0 and the empty name is accepted."
  },
  {
   "property": "C65",
   "status": "proved",
   "theorems": [
    "Blogc.C65.strToBool_iff",
    "Blogc.C65.strToBool_none",
    "Blogc.C65.caseEq_iff"
   ],
   "note": "all strings; C locale for strcasecmp"
  },
  {
   "property": "C66",
   "status": "proved",
   "theorems": [
    "Blogc.C66.push_hooked"
   ],
   "note": ""
  },
  {
   "property": "C67",
   "status": "proved",
   "theorems": [
    "Blogc.C67.found",
    "Blogc.C67.never_skipped"
   ],
   "note": "Tags are not empty, which the configuration parser ensures."
  },
  {
   "property": "C68",
   "status": "proved",
   "theorems": [
    "Blogc.C68.appended",
    "Blogc.C68.round_trip"
   ],
   "note": ""
  },
  {
   "property": "C69",
   "status": "partial",
   "theorems": [
    "Blogc.C69.uses_last_partial",
    "Blogc.C69.race_violated"
   ],
   "note": "False when the file is edited between the reading of its content and of its time (race_violated); proved for all other histories of valid settings."
  },
  {
   "property": "C70",
   "status": "proved",
   "theorems": [
    "Blogc.C70.reads",
    "Blogc.C70.forms_agree"
   ],
   "note": "Every list of valid options."
  },
  {
   "property": "C71",
   "status": "proved",
   "theorems": [
    "Blogc.C71.touches",
    "Blogc.C71.failure_keeps",
    "Blogc.C71.runs"
   ],
   "note": "All executions of the modelled main; reading of files and rendering are those of the other models, with file access as a fixed environment."
  },
  {
   "property": "C72",
   "status": "partial",
   "theorems": [
    "Blogc.C72.complete_partial",
    "Blogc.C72.write_violated",
    "Blogc.C72.empty_name_violated"
   ],
   "note": "The results of writing and closing are ignored: write_violated. Complete if no write fails."
  },
  {
   "property": "C73",
   "status": "partial",
   "theorems": [
    "Blogc.C73.documented_partial",
    "Blogc.C73.unambiguous",
    "Blogc.C73.plain",
    "Blogc.C73.escaped",
    "Blogc.C73.code",
    "Blogc.C73.empty_link_violated",
    "Blogc.C73.link_text_violated",
    "Blogc.C73.code_violated",
    "Blogc.C73.open_bracket_violated",
    "Blogc.C73.open_bracket_witness_violated"
   ],
   "note": "Proved for every text of the grammar Spec.Inline. Fails for an empty link text, a link text that begins with an escaped bracket, a code ending with a backslash, and a bracket left open inside an emphasis (prints the following text twice)."
  },
  {
   "property": "C74",
   "status": "partial",
   "theorems": [
    "Blogc.C74.documented_partial",
    "Blogc.C74.unambiguous",
    "Blogc.C74.source_file",
    "Blogc.C74.rule_violated",
    "Blogc.C74.last_line_violated",
    "Blogc.C74.number_violated",
    "Blogc.C74.one_dot_violated",
    "Blogc.C74.empty_title_violated",
    "Blogc.C74.empty_excerpt_violated",
    "Blogc.C74.ordered_item_iff",
    "Blogc.C74.merged_violated"
   ],
   "note": "Proved for every document of the grammar Spec.Doc. The manual is violated by rules of two characters, last lines of one character without line ending, paragraphs that are only a number, single dots, empty header titles with CRLF, empty excerpts, and code blocks or blockquotes of which only the last line lacks the prefix (the next paragraph is merged)."
  },
  {
   "property": "C75",
   "status": "proved",
   "theorems": [
    "Blogc.C75.items_iff",
    "Blogc.C75.undefined",
    "Blogc.C75.value_name",
    "Blogc.C75.item_and_value",
    "Blogc.C75.rendered"
   ],
   "note": "The words of a value are characterised by the specification ListOf; the rendering theorem is for an iterator outside blocks with one text after each of the two variables (C24.exact covers all templates in terms of the list of items)."
  },
  {
   "property": "C76",
   "status": "proved",
   "theorems": [
    "Blogc.C76.defined",
    "Blogc.C76.formats",
    "Blogc.C76.formatted_unique",
    "Blogc.C76.written_date",
    "Blogc.C76.undefined"
   ],
   "note": "mktime and strftime are an arbitrary function of the parsed fields."
  },
  {
   "property": "C77",
   "status": "proved",
   "theorems": [
    "Blogc.C77.edges",
    "Blogc.C77.dates",
    "Blogc.C77.rejected_iff"
   ],
   "note": "When the entry has no such variable, or the listing is empty, the variable keeps the value given by the user, if any."
  },
  {
   "property": "C78",
   "status": "proved",
   "theorems": [
    "Blogc.C78.rejected",
    "Blogc.C78.only",
    "Blogc.C78.malformed_unique"
   ],
   "note": "Both directions; positions are byte offsets (C05 has their line and column)."
  },
  {
   "property": "C79",
   "status": "partial",
   "theorems": [
    "Blogc.C79.complete",
    "Blogc.C79.done_only_inside",
    "Blogc.C79.only_inside_partial",
    "Blogc.C79.removed_partial",
    "Blogc.C79.dangling_violated",
    "Blogc.C79.outside_violated"
   ],
   "note": "Proved: success leaves nothing below the directory and has removed nothing outside; however it ends, nothing outside is removed if no link below leads to a directory. Violated in general: links to directories are followed (content outside is removed before the removal fails) and a dangling link makes the removal fail."
  },
  {
   "property": "C80",
   "status": "partial",
   "theorems": [
    "Blogc.C80.link_after_build",
    "Blogc.C80.accepted",
    "Blogc.C80.checkout_removed_partial",
    "Blogc.C80.status_two",
    "Blogc.C80.statuses",
    "Blogc.C80.nothing_to_deploy",
    "Blogc.C80.commands_exact",
    "Blogc.C80.pushed_revision",
    "Blogc.C80.rebuild",
    "Blogc.C80.words_partial",
    "Blogc.C80.hex_literal",
    "Blogc.C80.rejected_partial",
    "Blogc.C80.rejected_violated",
    "Blogc.C80.deployed_violated",
    "Blogc.C80.checkout_removed_violated",
    "Blogc.C80.statuses_violated",
    "Blogc.C80.words_violated"
   ],
   "note": "Proved for all executions of the hook. Violated: a failing symlink after the unlink leaves no site, a failing removal of the previous build rejects a deployed push and leaves the checkout, directories with shell metacharacters are not quoted, behaviour is undefined without HOME."
  },
  {
   "property": "C81",
   "status": "partial",
   "theorems": [
    "Blogc.C81.exact",
    "Blogc.C81.never_blocks",
    "Blogc.C81.words_partial",
    "Blogc.C81.words_violated"
   ],
   "note": "The executions are characterised exactly. Violated: the URL is not quoted for the shell; proved for URLs without shell metacharacters."
  },
  {
   "property": "C82",
   "status": "proved",
   "theorems": [
    "Blogc.C82.base_dir",
    "Blogc.C82.setting_exact",
    "Blogc.C82.no_section",
    "Blogc.C82.no_file",
    "Blogc.C82.link"
   ],
   "note": "For settings files that are renderings of documents (C14), with one section per repository."
  },
  {
   "property": "C83",
   "status": "proved",
   "theorems": [
    "Blogc.C83.shell_iff",
    "Blogc.C83.hook_iff"
   ],
   "note": ""
  },
  {
   "property": "C84",
   "status": "partial",
   "theorems": [
    "Blogc.C84.request",
    "Blogc.C84.file",
    "Blogc.C84.missing",
    "Blogc.C84.forbidden",
    "Blogc.C84.index",
    "Blogc.C84.redirect",
    "Blogc.C84.index_iff",
    "Blogc.C84.follow_partial",
    "Blogc.C84.follow_violated"
   ],
   "note": "All answers are proved. Following a redirection is proved for paths whose bytes need no encoding; it fails for others because the location is not encoded (follow_violated: a directory called c++)."
  },
  {
   "property": "C85",
   "status": "partial",
   "theorems": [
    "Blogc.C85.print_shows",
    "Blogc.C85.sources_partial",
    "Blogc.C85.entries_exact",
    "Blogc.C85.missing_value_violated"
   ],
   "note": "print_shows and entries_exact hold for all command lines. sources_partial excludes lists with form feeds at line starts (C34.exact_violated). An option without its value is ignored instead of rejected (missing_value_violated)."
  },
  {
   "property": "C86",
   "status": "partial",
   "theorems": [
    "Blogc.C86.index_rule",
    "Blogc.C86.atom_rule",
    "Blogc.C86.atom_tags_rule",
    "Blogc.C86.tags_rule",
    "Blogc.C86.pagination_rule",
    "Blogc.C86.pagination_tags_rule",
    "Blogc.C86.posts_rule",
    "Blogc.C86.pages_rule",
    "Blogc.C86.lists_outputs",
    "Blogc.C86.lists_pages",
    "Blogc.C86.empty_output_violated"
   ],
   "note": "For settings whose directories, extensions, posts, pages and tags are not empty (all have non-empty defaults). An empty OUTPUT_DIR puts the outputs at the root of the filesystem (empty_output_violated). The rule copy is C89, the order of rules C55. The status of a run of blogc is any function of the run."
  },
  {
   "property": "C87",
   "status": "partial",
   "theorems": [
    "Blogc.C87.job_runs_partial",
    "Blogc.C87.variable_runs_partial"
   ],
   "note": "Proved for settings whose tags have no single quote (see C57.tags_violated), whose variables are valid UTF-8 and whose source paths are plain lines without surrounding white space. The shell is modelled as splitting into words plus the leading assignment of LC_ALL. Missing: other texts."
  },
  {
   "property": "C88",
   "status": "partial",
   "theorems": [
    "Blogc.C88.pages_partial",
    "Blogc.C88.tag_pages_partial",
    "Blogc.C88.last_page_partial",
    "Blogc.C88.page_run",
    "Blogc.C88.posts_listed_partial",
    "Blogc.C88.sorted_posts_listed_partial",
    "Blogc.C88.user_last_page_violated"
   ],
   "note": "Proved for fewer than 2^24 posts, page sizes below 2^62, and settings files whose global variables do not define the variables about pages. user_last_page_violated: with LAST_PAGE among the global variables and no post of a tag, blogc-make takes the value of the user; -1 gives 2^64 - 1 rounds. The conditions of C87 on texts apply. That sorting gives the order of the dates needs dates less than 2^31 seconds apart (C31)."
  },
  {
   "property": "C89",
   "status": "partial",
   "theorems": [
    "Blogc.C89.mirrors",
    "Blogc.C89.same_source",
    "Blogc.C89.inside_partial",
    "Blogc.C89.inside_violated"
   ],
   "note": "The last sentence is violated: an entry with \"..\" leads out of the output directory (inside_violated); proved for entries without \"..\" (inside_partial). The other parts are proved in full. Loops of directory links are not modelled."
  },
  {
   "property": "C90",
   "status": "partial",
   "theorems": [
    "Blogc.C90.default_feed_partial",
    "Blogc.C90.places",
    "Blogc.C90.post_filename",
    "Blogc.C90.deployed_partial",
    "Blogc.C90.percent",
    "Blogc.C90.empty_prefix_violated",
    "Blogc.C90.percent_prefix_violated",
    "Blogc.C90.index_post_violated",
    "Blogc.C90.short_write_violated"
   ],
   "note": "Full end-to-end rendering of the generated template for all settings that are literal text (no braces) with a blog_prefix that is unset or non-empty without \"%\". Violated otherwise: an empty blog_prefix gives \"//\" links; \"%\" in blog_prefix is used as a printf format (percent says exactly what that gives); a post called index without prefix is linked to another path; a short write of the template is accepted."
  },
  {
   "property": "C91",
   "status": "partial",
   "theorems": [
    "Blogc.C91.exact_partial",
    "Blogc.C91.undo_partial",
    "Blogc.C91.site_partial",
    "Blogc.C91.twice_violated",
    "Blogc.C91.empty_directory_violated"
   ],
   "note": "Missing: output directories ending in a slash (see C61.parent_violated), \".\" and \"/\"; symbolic links on the way; two outputs in the same place, for which clean fails half-way (twice_violated). An output directory that existed and was empty is removed too (empty_directory_violated)."
  },
  {
   "property": "C92",
   "status": "partial",
   "theorems": [
    "Blogc.C92.layout_partial",
    "Blogc.C92.same_answers",
    "Blogc.C92.render_written",
    "Blogc.C92.form_feed_violated"
   ],
   "note": "All documents of C14 in all layouts (blanks, comments, four line endings). Violated: a line with only a form feed or vertical tab is an error, although these are blanks elsewhere in a line."
  },
  {
   "property": "C93",
   "status": "partial",
   "theorems": [
    "Blogc.C93.listens_partial",
    "Blogc.C93.stops",
    "Blogc.C93.bounded",
    "Blogc.C93.rule_serves_partial",
    "Blogc.C93.missing_value_violated",
    "Blogc.C93.negative_violated",
    "Blogc.C93.missing_value"
   ],
   "note": "Command lines of well-formed options and directories; -h, -v and unknown options end the program. Two deviations: -m as the last argument is undefined behaviour, and a large negative number wraps to an accepted number of threads."
  },
  {
   "property": "C94",
   "status": "partial",
   "theorems": [
    "Blogc.C94.plan_partial",
    "Blogc.C94.stops",
    "Blogc.C94.status_partial",
    "Blogc.C94.embedded_partial",
    "Blogc.C94.missing_file_violated",
    "Blogc.C94.rule_names"
   ],
   "note": "A missing file name after -f is silently ignored; unknown rules: see C55; blogc -m: arguments that do not begin with -m."
  },
  {
   "property": "C95",
   "status": "partial",
   "theorems": [
    "Blogc.C95.status_partial",
    "Blogc.C95.success",
    "Blogc.C95.watch_status",
    "Blogc.C95.ends_partial",
    "Blogc.C95.polls",
    "Blogc.C95.begun",
    "Blogc.C95.forever_violated",
    "Blogc.C95.deadlock_violated",
    "Blogc.C95.freed_violated",
    "Blogc.C95.freed_partial",
    "Blogc.C95.interrupted",
    "Blogc.C95.interruptible"
   ],
   "note": "Proved for all interleavings: where the status comes from, and that the main thread ends within one round when the server ends during the rebuild loop. Violated by three races: a stop before the loop is lost, an interrupt inside the critical section deadlocks, and a reload may free what the server thread still reads."
  },
  {
   "property": "C96",
   "status": "partial",
   "theorems": [
    "Blogc.C96.file",
    "Blogc.C96.file_type",
    "Blogc.C96.directory",
    "Blogc.C96.redirected",
    "Blogc.C96.forbidden",
    "Blogc.C96.absent_partial",
    "Blogc.C96.absent_violated",
    "Blogc.C96.build_partial",
    "Blogc.C96.site_partial"
   ],
   "note": "Disk without symbolic links, output directory not \"/\", new before the build. 404 fails below a file (absent_violated): /file/x is answered with 500, since realpath gives ENOTDIR. Directories without index page are answered with 403 (forbidden)."
  },
  {
   "property": "C97",
   "status": "partial",
   "theorems": [
    "Blogc.C97.starts",
    "Blogc.C97.closes",
    "Blogc.C97.unknown",
    "Blogc.C97.text_violated"
   ],
   "note": "All executions. The text of an address is leaked when its socket cannot be opened and another address follows (text_violated)."
  },
  {
   "property": "C98",
   "status": "partial",
   "theorems": [
    "Blogc.C98.serves_partial",
    "Blogc.C98.starves",
    "Blogc.C98.silent_violated",
    "Blogc.C98.aborted_violated"
   ],
   "note": "Violated: threads are used in turn, so one silent client makes everyone wait as soon as its turn comes again, even if all other threads are idle; a failing accept ends the server. Proved: the server goes on once all earlier requests are answered, and while one is not, fewer further requests than threads are taken (starves)."
  },
  {
   "property": "C99",
   "status": "partial",
   "theorems": [
    "Blogc.C99.restored",
    "Blogc.C99.connected",
    "Blogc.C99.finished",
    "Blogc.C99.runs",
    "Blogc.C99.failure",
    "Blogc.C99.shown",
    "Blogc.C99.passed_on",
    "Blogc.C99.asked_partial",
    "Blogc.C99.reaped_violated",
    "Blogc.C99.status_violated",
    "Blogc.C99.asked_violated",
    "Blogc.C99.left_behind"
   ],
   "note": "Descriptors, streams, texts and status are proved without restriction. Violated by the code: after a failed write or read nobody waits for the command (reaped_violated); if waitpid fails the status is an uninitialised value (status_violated); a command that fails silently while a variable is asked for makes fprintf print NULL (asked_violated, asked_partial is the case where it says why)."
  }
 ]
}
