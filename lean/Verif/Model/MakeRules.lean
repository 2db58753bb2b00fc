import Verif.Model.Loader

/-!
# Model of src/blogc-make/rules.c: rebuilding, ordering, rule arguments
-/

namespace Blogc.Make

open Blogc

/-- `bm_filectx_t`, src/blogc-make/ctx.h, as filled in by `bm_filectx_new`
(src/blogc-make/ctx.c:25-58): the paths, the modification time and whether the
file could be examined. -/
structure FileCtx where
  path : Str
  shortPath : Str
  slug : Option Str
  sec : Int
  nsec : Int
  readable : Bool
  deriving DecidableEq, Repr

/-! ## Rebuilding -/

/-- The test of one input, src/blogc-make/rules.c:1018-1034. `none` is NULL. -/
def inputNewer (source : Option FileCtx) (output : FileCtx) : Bool :=
  match source with
  | none => true
  | some s =>
    if !s.readable then true
    else if s.sec = output.sec then decide (s.nsec > output.nsec)
    else decide (s.sec > output.sec)

/-- The loop of src/blogc-make/rules.c:1017-1035. -/
def anyNewer (output : FileCtx) : List (Option FileCtx) → Bool
  | [] => false
  | s :: l => if inputNewer s output then true else anyNewer output l

/-- The sources appended by the loop of src/blogc-make/rules.c:1011-1015. -/
def relevant (onlyFirst : Bool) : List (Option FileCtx) → List (Option FileCtx)
  | [] => []
  | s :: l => s :: (if onlyFirst then [] else relevant onlyFirst l)

/-- A single file appended to a list unless it is NULL
(src/blogc-make/rules.c:1004-1009). -/
def one (f : Option FileCtx) : List (Option FileCtx) :=
  match f with
  | none => []
  | some f => [some f]

/-- `bm_rule_need_rebuild`, src/blogc-make/rules.c:993-1040. -/
def needRebuild (sources : List (Option FileCtx)) (settings listingEntry template output : Option FileCtx)
    (onlyFirst : Bool) : Bool :=
  match output with
  | none => true
  | some o =>
    if !o.readable then true
    else anyNewer o (one settings ++ one template ++ one listingEntry ++ relevant onlyFirst sources)

/-- The loop over the outputs of the rules that list posts,
src/blogc-make/rules.c:108-120, 168-181, 232-249, 320-333, 417-461 and 581-597.
`need` is the call of `bm_rule_need_rebuild`, `exec` the call of
`bm_exec_blogc`. The outcome is the list of the outputs built (or tried), in
order, and the status. -/
def buildLoop (need : FileCtx → Bool) (exec : FileCtx → Int) : List (Option FileCtx) → List FileCtx × Int
  | [] => ([], 0)
  | none :: l => buildLoop need exec l
  | some o :: l =>
    if need o then
      if exec o ≠ 0 then ([o], exec o)
      else
        let r := buildLoop need exec l
        (o :: r.1, r.2)
    else buildLoop need exec l

/-- The loop over sources and outputs of the rules that build one output for
each source, src/blogc-make/rules.c:511-529, 643-661 and 701-713. `need` and
`exec` get the rest of the list of the sources. -/
def pairLoop (need : List (Option FileCtx) → FileCtx → Bool) (exec : List (Option FileCtx) → FileCtx → Int) :
    List (Option FileCtx) → List (Option FileCtx) → List FileCtx × Int
  | [], _ => ([], 0)
  | _ :: _, [] => ([], 0)
  | _ :: ss, none :: os => pairLoop need exec ss os
  | s :: ss, some o :: os =>
    if need (s :: ss) o then
      if exec (s :: ss) o ≠ 0 then ([o], exec (s :: ss) o)
      else
        let r := pairLoop need exec ss os
        (o :: r.1, r.2)
    else pairLoop need exec ss os

/-- The files of the build context that the rules look at
(`bm_ctx_t`, src/blogc-make/ctx.h). -/
structure Inputs where
  settings : Option FileCtx
  mainTemplate : Option FileCtx
  atomTemplate : Option FileCtx
  atomTemplateTmp : Bool
  listingEntry : Option FileCtx
  posts : List (Option FileCtx)
  pages : List (Option FileCtx)
  copy : List (Option FileCtx)

/-- The build loop of the rules `index`, `pagination`, `pagination_tags` and
`tags`, src/blogc-make/rules.c:108-120, 320-333, 417-461 and 581-597. The skip of
lines 447-448 never happens (C67). -/
def listingRule (c : Inputs) (exec : FileCtx → Int) (outputs : List (Option FileCtx)) : List FileCtx × Int :=
  buildLoop (fun o => needRebuild c.posts c.settings c.listingEntry c.mainTemplate (some o) false) exec outputs

/-- The build loop of the rules `atom` and `atom_tags`,
src/blogc-make/rules.c:168-181 and 232-249. -/
def atomRule (c : Inputs) (exec : FileCtx → Int) (outputs : List (Option FileCtx)) : List FileCtx × Int :=
  buildLoop (fun o => needRebuild c.posts c.settings none
    (if c.atomTemplateTmp then none else c.atomTemplate) (some o) false) exec outputs

/-- The build loop of the rules `posts` and `pages`,
src/blogc-make/rules.c:511-529 and 643-661. -/
def entryRule (c : Inputs) (exec : List (Option FileCtx) → FileCtx → Int)
    (sources outputs : List (Option FileCtx)) : List FileCtx × Int :=
  pairLoop (fun s o => needRebuild s c.settings none c.mainTemplate (some o) true) exec sources outputs

/-- The build loop of the rule `copy`, src/blogc-make/rules.c:701-713. -/
def copyRule (c : Inputs) (exec : List (Option FileCtx) → FileCtx → Int)
    (outputs : List (Option FileCtx)) : List FileCtx × Int :=
  pairLoop (fun s o => needRebuild s c.settings none none (some o) true) exec c.copy outputs

/-! ## Order of the posts -/

/-- `bc_trie_insert`. -/
abbrev set := Loader.set

/-- `posts_ordering`, src/blogc-make/rules.c:21-38, for the table of the
settings. -/
def postsOrdering (settings : Trie Str) (option : Str) (variables : Trie Str) : Trie Str :=
  let value := (settings.lookup option).getD []
  let asc := caseEq value b!"asc"
  let sort := strToBool (settings.lookup b!"posts_sort")
  let variables := if sort then set variables b!"FILTER_SORT" b!"1" else variables
  if (sort && asc) || (!sort && !asc) then set variables b!"FILTER_REVERSE" b!"1" else variables

/-- `posts_pagination`, src/blogc-make/rules.c:41-53. -/
def postsPagination (settings : Trie Str) (option : Str) (variables : Trie Str) : Trie Str :=
  let value := (settings.lookup option).getD []
  if (strtol value).1 ≥ 0 then
    match settings.lookup option with
    | some v => set (set variables b!"FILTER_PAGE" b!"1") b!"FILTER_PER_PAGE" v
    | none => set variables b!"FILTER_PAGE" b!"1"   -- `bc_strdup(NULL)` is NULL, which is not inserted
  else variables

/-- `posts_pagination_enabled`, src/blogc-make/rules.c:56-64. -/
def paginationEnabled (settings : Trie Str) (option : Str) : Bool :=
  (strtol ((settings.lookup option).getD [])).1 != 0

/-! ## Rule arguments -/

/-- `strchr(s, c)` for `c` not NUL: the text before the first `c` and the text
after it. -/
def strchr (c : Byte) : Str → Option (Str × Str)
  | [] => none
  | x :: r => if x = c then some ([], r) else (strchr c r).map fun p => (x :: p.1, p.2)

/-- The loop of src/blogc-make/rules.c:903-915 with the test of lines 916-919.
At most `fuel` rounds; `none` means that it is still running. The inner outcome
is the table, or NULL. -/
def parseArgsLoop : Nat → Trie Str → Str → Option (Option (Trie Str))
  | 0, _, _ => none
  | fuel + 1, rv, s =>
    match strchr c!"=" s with
    | none => some none
    | some (key, r) =>
      match strchr c!"," r with
      | none => some (some (set rv key r))
      | some (value, r') => parseArgsLoop fuel (set rv key value) r'

/-- `bm_rule_parse_args`, src/blogc-make/rules.c:894-922. Every round uses up a
byte, so one round more than the length is enough (`parseArgs_total`). -/
def parseArgs (sep : Str) : Option (Option (Trie Str)) :=
  match sep with
  | [] => some none
  | c :: s => if c ≠ c!":" then some none else parseArgsLoop (s.length + 1) .nil s

/-! ## Running the rules -/

/-- The name of a requested rule, and its arguments (NULL is `none`),
src/blogc-make/rules.c:936-949. The outer `none` is excluded by
`parseArgs_total`. -/
def ruleParts (r : Str) : Option (Str × Option (Trie Str)) :=
  match strchr c!":" r with
  | none => some (r, none)
  | some (name, rest) => (parseArgs (c!":" :: rest)).map fun args => (name, args)

/-- The loop of src/blogc-make/rules.c:934-968, from the rule number `i` of the
list on. `names` is the table of rules; `run i name args` is the status of
executing the rule, which may depend on everything done before. -/
def executorLoop (names : List Str) (run : Nat → Str → Option (Trie Str) → Int) :
    Nat → Int → List Str → Option Int
  | _, rv, [] => some rv
  | i, _, r :: l =>
    match ruleParts r with
    | none => none
    | some (name, args) =>
      if name ∈ names then
        if run i name args ≠ 0 then some (run i name args)
        else executorLoop names run (i + 1) 0 l
      else executorLoop names run (i + 1) 1 l

/-- `bm_rule_executor`, src/blogc-make/rules.c:925-971. -/
def executor (names : List Str) (run : Nat → Str → Option (Trie Str) → Int) (rules : List Str) : Option Int :=
  executorLoop names run 0 0 rules

/-- The names of the table of rules, src/blogc-make/rules.c:783-871. -/
def ruleNames : List Str :=
  [b!"all", b!"index", b!"atom", b!"atom_tags", b!"pagination", b!"pagination_tags", b!"posts", b!"tags",
   b!"pages", b!"copy", b!"clean", b!"runserver", b!"watch", b!"atom_dump"]

/-- `all_exec`, src/blogc-make/rules.c:876-891, over the rules of the table
that have outputs: `run` executes one of them. The outcome is the list of the
rules executed and the status. -/
def allLoop (run : Str → Int) : List Str → List Str × Int
  | [] => ([], 0)
  | r :: l =>
    if run r ≠ 0 then ([r], run r)
    else
      let q := allLoop run l
      (r :: q.1, q.2)

end Blogc.Make
