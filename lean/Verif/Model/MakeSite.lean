import Verif.Model.MakeFileName
import Verif.Model.MakeExec
import Verif.Model.MakeSettings

/-!
# Model of the build rules of blogc-make: src/blogc-make/ctx.c, rules.c and exec.c

The context of a build, the outputs of each rule, and the runs of blogc that
each rule makes.
-/

namespace Blogc.Make

open Blogc

/-! ## The files of a site -/

/-- A path as the context stores it, src/blogc-make/ctx.c:32-33 (and 67-68):
relative to the directory of the settings file. -/
def absPath (root f : Str) : Str :=
  if f.head? = some c!"/" then f else root ++ b!"/" ++ f

/-- `bm_filectx_new`, src/blogc-make/ctx.c:25-58, with `st` NULL: `stat` gives the
time of the file at a path, if there is one. -/
def fileCtx (root : Str) (stat : Str → Option (Int × Int)) (filename slug : Option Str) : Option FileCtx :=
  filename.map fun f =>
    match stat (absPath root f) with
    | none => ⟨absPath root f, f, slug, 0, 0, false⟩
    | some (sec, nsec) => ⟨absPath root f, f, slug, sec, nsec, true⟩

/-- The entries of a directory as `readdir` gives them: files (anything that is
not a directory) with their times, directories with their entries (none if it
cannot be opened), and entries for which `stat` fails. A directory reached by a
loop of links is not modelled. -/
inductive Forest where
  | nil
  | file (name : Str) (sec nsec : Int) (rest : Forest)
  | dir (name : Str) (kids rest : Forest)
  | gone (name : Str) (rest : Forest)
  deriving Repr

/-- The test of src/blogc-make/ctx.c:85. -/
def isDots (name : Str) : Bool := name == b!"." || name == b!".."

/-- The loop of src/blogc-make/ctx.c:84-90 for the directory `filename`, with the
recursive calls. -/
def expandDir (root : Str) : (filename : Str) → Forest → List FileCtx
  | _, .nil => []
  | filename, .file n sec nsec rest =>
    let f := filename ++ b!"/" ++ n
    (if isDots n then [] else [⟨absPath root f, f, none, sec, nsec, true⟩]) ++ expandDir root filename rest
  | filename, .dir n kids rest =>
    (if isDots n then [] else expandDir root (filename ++ b!"/" ++ n) kids) ++ expandDir root filename rest
  | filename, .gone _ rest => expandDir root filename rest

/-- `bm_filectx_new_r`, src/blogc-make/ctx.c:61-100, for a file to copy: the first
entry of `found` is what is found at the path (its name does not matter). -/
def expand (root filename : Str) (found : Forest) : List FileCtx :=
  match found with
  | .nil => []
  | .gone _ _ => []
  | .file _ sec nsec _ => [⟨absPath root filename, filename, none, sec, nsec, true⟩]
  | .dir _ kids _ => expandDir root filename kids

/-- The site: the settings, and what the context takes from its surroundings. -/
structure Site where
  /-- The parsed settings file. -/
  cfg : MakeSettings.Settings
  /-- The directory of the settings file, src/blogc-make/ctx.c:228. -/
  root : Str
  /-- The absolute path of the settings file. -/
  settingsFile : Str
  /-- `OUTPUT_DIR`, or "_build", src/blogc-make/ctx.c:231-232. -/
  outDir : Str
  /-- The quoted command of blogc (`bm_exec_find_binary`). -/
  blogc : Str
  dev : Bool
  /-- The path of the default feed template (`bm_atom_deploy`). -/
  deployed : Str
  /-- `stat`: the time of a file. -/
  stat : Str → Option (Int × Int)
  /-- What is found at a path to copy. -/
  disk : Str → Forest

namespace Site

/-- `bm_ctx_settings_lookup`, src/blogc-make/ctx.c:392-398. -/
def get (s : Site) (k : Str) : Option Str := s.cfg.settings.lookup k

/-- `bm_ctx_settings_lookup_str`, src/blogc-make/ctx.c:401-406. -/
def getStr (s : Site) (k : Str) : Str := (s.get k).getD []

def file (s : Site) (f slug : Option Str) : Option FileCtx := fileCtx s.root s.stat f slug

/-- `"%s/%s"` of the template directory and a name (`(null)` is printed for a
missing name, but `main_template` has a default), src/blogc-make/ctx.c:191-200
and 244-245. -/
def templatePath (s : Site) (name : Str) : Str := s.getStr b!"template_dir" ++ b!"/" ++ name

/-- src/blogc-make/ctx.c:244-246. -/
def mainTemplate (s : Site) : Option FileCtx :=
  s.file (some (s.templatePath ((s.get b!"main_template").getD b!"(null)"))) none

/-- src/blogc-make/ctx.c:195-210 and 249-250. -/
def atomTemplateTmp (s : Site) : Bool := (s.get b!"atom_template").isNone
def atomTemplate (s : Site) : Option FileCtx :=
  match s.get b!"atom_template" with
  | some t => s.file (some (s.templatePath t)) none
  | none => s.file (some s.deployed) none

/-- src/blogc-make/ctx.c:259-265. -/
def listingEntry (s : Site) : Option FileCtx :=
  match s.get b!"listing_entry" with
  | none => none
  | some e => s.file (generateFilename (s.get b!"content_dir") (s.get b!"blog_prefix") none (some e)
      (s.get b!"source_ext")) (some e)

/-- src/blogc-make/ctx.c:267-276. -/
def posts (s : Site) : List (Option FileCtx) :=
  (s.cfg.posts.getD []).map fun slug =>
    s.file (generateFilename (s.get b!"content_dir") (s.get b!"blog_prefix") (s.get b!"post_prefix") (some slug)
      (s.get b!"source_ext")) (some slug)

/-- src/blogc-make/ctx.c:278-287. -/
def pages (s : Site) : List (Option FileCtx) :=
  (s.cfg.pages.getD []).map fun slug =>
    s.file (generateFilename (s.get b!"content_dir") none none (some slug) (s.get b!"source_ext")) (some slug)

/-- src/blogc-make/ctx.c:289-295. -/
def copy (s : Site) : List FileCtx :=
  (s.cfg.copy.getD []).flatMap fun f => expand s.root f (s.disk (absPath s.root f))

/-- src/blogc-make/ctx.c:227. -/
def settings (s : Site) : Option FileCtx := s.file (some s.settingsFile) none

/-- The files that the rules look at. -/
def inputs (s : Site) : Inputs where
  settings := s.settings
  mainTemplate := s.mainTemplate
  atomTemplate := s.atomTemplate
  atomTemplateTmp := s.atomTemplateTmp
  listingEntry := s.listingEntry
  posts := s.posts
  pages := s.pages
  copy := s.copy.map some

/-! ## Runs of blogc -/

/-- The part of the settings used for commands. -/
def cmd (s : Site) : CmdSettings := ⟨s.cfg.global, s.get b!"locale", s.cfg.tags⟩

end Site

/-- The arguments of one call of `bm_exec_blogc`, src/blogc-make/exec.c:291-294. -/
structure Job where
  vars : Trie Str
  locals : Option (Trie Str)
  listing : Bool
  entry : Option FileCtx
  template : Option FileCtx
  output : FileCtx
  sources : List (Option FileCtx)
  onlyFirst : Bool

/-- The paths of the sources that are used; a NULL among them is dereferenced
(src/blogc-make/exec.c:300-304 and 382-386). -/
def sourcePaths (onlyFirst : Bool) : List (Option FileCtx) → Res (List Str)
  | [] => .ok []
  | none :: _ => .ub
  | some s :: l =>
    if onlyFirst then .ok [s.path] else (sourcePaths onlyFirst l).bind fun r => .ok (s.path :: r)

/-- The text sent to blogc. -/
def Job.input (j : Job) : Res Str :=
  (sourcePaths j.onlyFirst j.sources).bind fun ps => .ok (sourceInput false ps)

/-- The command of `bm_exec_blogc`, src/blogc-make/exec.c:306-308. -/
def Job.command (s : Site) (j : Job) : Res Str :=
  j.input.bind fun input =>
    match j.template with
    | none => .ub
    | some t => .ok (buildBlogcCmd s.blogc (some s.cmd) (some j.vars) j.locals none j.listing
        (j.entry.map (·.path)) (some t.path) (some j.output.path) s.dev (input.length > 0))

/-- The status of `bm_exec_blogc` for the outcome of `bm_exec_command`,
src/blogc-make/exec.c:320-369: `none` is an error. -/
def blogcStatus : Option (Int × Option Str) → Int
  | none => 1
  | some (rv, _) => if rv = 127 then 1 else rv

/-- The command and the input of `bm_exec_blogc_get_variable`,
src/blogc-make/exec.c:381-389. -/
def variableCommand (s : Site) (vars : Trie Str) (locals : Option (Trie Str)) (name : Str) (listing : Bool)
    (sources : List (Option FileCtx)) (onlyFirst : Bool) : Res (Str × Str) :=
  (sourcePaths onlyFirst sources).bind fun ps =>
    let input := sourceInput false ps
    .ok (buildBlogcCmd s.blogc (some s.cmd) (some vars) locals (some name) listing none none none s.dev
      (input.length > 0), input)

/-- What `bm_exec_blogc_get_variable` makes of the outcome of the command,
src/blogc-make/exec.c:399-430: the output without its last byte. -/
def variableValue : Option (Int × Option Str) → Option Str
  | none => none
  | some (rv, out) => if rv ≠ 0 then none else out.map List.dropLast

/-- What a command does when it is given an input: its status and its standard
output (NULL if it is empty), or an error of `bm_exec_command`. -/
abbrev Shell := Str → Str → Option (Int × Option Str)

/-- `bm_exec_blogc_get_variable`, src/blogc-make/exec.c:373-431. -/
def getVariable (s : Site) (run : Shell) (vars : Trie Str) (locals : Option (Trie Str)) (name : Str)
    (listing : Bool) (sources : List (Option FileCtx)) (onlyFirst : Bool) : Res (Option Str) :=
  (variableCommand s vars locals name listing sources onlyFirst).bind fun (cmd, input) =>
    .ok (variableValue (run cmd input))

/-- The number of rounds of `for (size_t i = 0; i < pages; i++)`,
src/blogc-make/rules.c:279-288 and 374-377: the number is converted to an
unsigned one. -/
def pageRounds (lastPage : Option Str) : Nat :=
  match lastPage with
  | none => 0
  | some v => ((strtol v).1 % 2 ^ 64).toNat

/-! ## Outputs -/

namespace Site

/-- `bm_generate_filename(ctx->short_output_dir, ...)`. -/
def out (s : Site) (gprefix pre fname ext : Option Str) : Option FileCtx :=
  s.file (generateFilename (some s.outDir) gprefix pre fname ext) none

/-- `index_outputlist`, src/blogc-make/rules.c:69-90. -/
def indexOutputs (s : Site) : List (Option FileCtx) :=
  if s.cfg.posts.isNone || !paginationEnabled s.cfg.settings b!"posts_per_page" then []
  else [s.out (s.get b!"blog_prefix") (s.get b!"index_prefix") none (s.get b!"html_ext")]

/-- `atom_outputlist`, src/blogc-make/rules.c:130-151. -/
def atomOutputs (s : Site) : List (Option FileCtx) :=
  if s.cfg.posts.isNone || !paginationEnabled s.cfg.settings b!"atom_posts_per_page" then []
  else [s.out (s.get b!"blog_prefix") (s.get b!"atom_prefix") none (s.get b!"atom_ext")]

/-- The tags, unless the posts or the tags are NULL. -/
def tagsIfPosts (s : Site) : List Str :=
  if s.cfg.posts.isNone then [] else s.cfg.tags.getD []

/-- `atom_tags_outputlist`, src/blogc-make/rules.c:191-214. -/
def atomTagsOutputs (s : Site) : List (Option FileCtx) :=
  if !paginationEnabled s.cfg.settings b!"atom_posts_per_page" then []
  else s.tagsIfPosts.map fun t =>
    s.out (s.get b!"blog_prefix") (s.get b!"atom_prefix") (some t) (s.get b!"atom_ext")

/-- The value of LAST_PAGE for all posts, src/blogc-make/rules.c:268-272. -/
def lastPage (s : Site) (run : Shell) : Res (Option Str) :=
  getVariable s run (postsPagination s.cfg.settings b!"posts_per_page" .nil) none b!"LAST_PAGE" true s.posts false

/-- The value of LAST_PAGE for a tag, src/blogc-make/rules.c:352-367. -/
def lastPageOf (s : Site) (run : Shell) (tag : Str) : Res (Option Str) :=
  getVariable s run (postsPagination s.cfg.settings b!"posts_per_page" .nil) (some (set .nil b!"FILTER_TAG" tag))
    b!"LAST_PAGE" true s.posts false

/-- `pagination_outputlist`, src/blogc-make/rules.c:259-298. -/
def paginationOutputs (s : Site) (run : Shell) : Res (List (Option FileCtx)) :=
  if s.cfg.posts.isNone || !paginationEnabled s.cfg.settings b!"posts_per_page" then .ok []
  else (s.lastPage run).bind fun last =>
    .ok ((List.range (pageRounds last)).map fun i =>
      s.out (s.get b!"blog_prefix") (s.get b!"pagination_prefix") (some (decNat (i + 1))) (s.get b!"html_ext"))

/-- The name of a page of a tag. -/
def tagPageName (s : Site) : Str → Nat → Option Str :=
  tagPage (some s.outDir) (s.get b!"blog_prefix") (s.get b!"tag_prefix") (s.get b!"pagination_prefix")
    (s.get b!"html_ext")

/-- The loop of src/blogc-make/rules.c:362-385. -/
def tagPagesLoop (s : Site) (run : Shell) : List Str → Res (List (Option FileCtx))
  | [] => .ok []
  | t :: l => (s.lastPageOf run t).bind fun last => (tagPagesLoop s run l).bind fun r =>
    .ok ((List.range (pageRounds last)).map (fun i => s.file (s.tagPageName t (i + 1)) none) ++ r)

/-- `pagination_tags_outputlist`, src/blogc-make/rules.c:343-390. -/
def paginationTagsOutputs (s : Site) (run : Shell) : Res (List (Option FileCtx)) :=
  if !paginationEnabled s.cfg.settings b!"posts_per_page" then .ok []
  else s.tagPagesLoop run s.tagsIfPosts

/-- `posts_outputlist`, src/blogc-make/rules.c:471-491. -/
def postsOutputs (s : Site) : List (Option FileCtx) :=
  (s.cfg.posts.getD []).map fun slug =>
    s.out (s.get b!"blog_prefix") (s.get b!"post_prefix") (some slug) (s.get b!"html_ext")

/-- `tags_outputlist`, src/blogc-make/rules.c:539-562. -/
def tagsOutputs (s : Site) : List (Option FileCtx) :=
  if !paginationEnabled s.cfg.settings b!"posts_per_page" then []
  else s.tagsIfPosts.map fun t =>
    s.out (s.get b!"blog_prefix") (s.get b!"tag_prefix") (some t) (s.get b!"html_ext")

/-- `pages_outputlist`, src/blogc-make/rules.c:607-625. -/
def pagesOutputs (s : Site) : List (Option FileCtx) :=
  (s.cfg.pages.getD []).map fun slug => s.out none none (some slug) (s.get b!"html_ext")

/-- `copy_outputlist`, src/blogc-make/rules.c:671-689. -/
def copyOutputs (s : Site) : List (Option FileCtx) :=
  if s.cfg.copy.isNone then []
  else s.copy.map fun f => s.file (some (s.outDir ++ b!"/" ++ f.shortPath)) none

end Site

/-! ## Execution -/

/-- The loop over the outputs of the rules that list posts,
src/blogc-make/rules.c:108-120, 168-181, 232-249, 320-333, 417-461 and 581-597.
`vars` is the table of variables, which keeps what earlier rounds have put there;
`prep` sets the variables of an output (`none`: `continue`), `i` is the counter
and `next` its step. The outcome is the list of the jobs executed and the
status. -/
def jobLoop {σ : Type} (prep : σ → Trie Str → FileCtx → Option (Trie Str)) (next : σ → σ)
    (need : FileCtx → Bool) (job : Trie Str → FileCtx → Job) (exec : Job → Int) :
    σ → Trie Str → List (Option FileCtx) → List Job × Int
  | _, _, [] => ([], 0)
  | i, vars, none :: l => jobLoop prep next need job exec (next i) vars l
  | i, vars, some o :: l =>
    match prep i vars o with
    | none => jobLoop prep next need job exec (next i) vars l
    | some vars =>
      if need o then
        if exec (job vars o) ≠ 0 then ([job vars o], exec (job vars o))
        else
          let r := jobLoop prep next need job exec (next i) vars l
          (job vars o :: r.1, r.2)
      else jobLoop prep next need job exec (next i) vars l

/-- The loop over sources and outputs of the rules `posts` and `pages`,
src/blogc-make/rules.c:511-529 and 643-661. -/
def pairJobs (need : List (Option FileCtx) → FileCtx → Bool) (job : List (Option FileCtx) → FileCtx → Job)
    (exec : Job → Int) : List (Option FileCtx) → List (Option FileCtx) → List Job × Int
  | [], _ => ([], 0)
  | _ :: _, [] => ([], 0)
  | _ :: ss, none :: os => pairJobs need job exec ss os
  | s :: ss, some o :: os =>
    if need (s :: ss) o then
      if exec (job (s :: ss) o) ≠ 0 then ([job (s :: ss) o], exec (job (s :: ss) o))
      else
        let r := pairJobs need job exec ss os
        (job (s :: ss) o :: r.1, r.2)
    else pairJobs need job exec ss os

namespace Site

/-- The call of `bm_rule_need_rebuild` of the rules that list posts with the main
template. -/
def needListing (s : Site) (o : FileCtx) : Bool :=
  needRebuild s.posts s.settings s.listingEntry s.mainTemplate (some o) false

/-- The call of `bm_exec_blogc` of the rules that list posts with the main
template. -/
def listingJob (s : Site) (vars : Trie Str) (o : FileCtx) : Job :=
  ⟨vars, none, true, s.listingEntry, s.mainTemplate, o, s.posts, false⟩

/-- The call of `bm_rule_need_rebuild` of the feed rules,
src/blogc-make/rules.c:172-174 and 240-242. -/
def needAtom (s : Site) (o : FileCtx) : Bool :=
  needRebuild s.posts s.settings none (if s.atomTemplateTmp then none else s.atomTemplate) (some o) false

/-- The call of `bm_exec_blogc` of the feed rules, src/blogc-make/rules.c:176-177
and 244-245. -/
def atomJob (s : Site) (vars : Trie Str) (o : FileCtx) : Job :=
  ⟨vars, none, true, none, s.atomTemplate, o, s.posts, false⟩

/-- The format of dates in feeds, src/blogc-make/rules.c:164 and 228. -/
def atomDate : Str := b!"%Y-%m-%dT%H:%M:%SZ"

/-- DATE_FORMAT, MAKE_RULE and MAKE_TYPE. -/
def names (date rule type : Str) (vars : Trie Str) : Trie Str :=
  set (set (set vars b!"DATE_FORMAT" date) b!"MAKE_RULE" rule) b!"MAKE_TYPE" type

/-- `index_exec`, src/blogc-make/rules.c:92-125. -/
def indexExec (s : Site) (exec : Job → Int) (outputs : List (Option FileCtx)) : List Job × Int :=
  if s.cfg.posts.isNone then ([], 0)
  else
    let vars := names (s.getStr b!"date_format") b!"index" b!"post"
      (postsOrdering s.cfg.settings b!"html_order" (postsPagination s.cfg.settings b!"posts_per_page" .nil))
    jobLoop (fun _ v _ => some v) id s.needListing s.listingJob exec () vars outputs

/-- `atom_exec`, src/blogc-make/rules.c:153-186. -/
def atomExec (s : Site) (exec : Job → Int) (outputs : List (Option FileCtx)) : List Job × Int :=
  if s.cfg.posts.isNone then ([], 0)
  else
    let vars := names atomDate b!"atom" b!"atom"
      (postsOrdering s.cfg.settings b!"atom_order" (postsPagination s.cfg.settings b!"atom_posts_per_page" .nil))
    jobLoop (fun _ v _ => some v) id s.needAtom s.atomJob exec () vars outputs

/-- FILTER_TAG of the first of the tags left. After the last one, the NULL that
ends the list is copied, and nothing is inserted. -/
def setTag (tags : List Str) (vars : Trie Str) (_ : FileCtx) : Option (Trie Str) :=
  match tags with
  | t :: _ => some (set vars b!"FILTER_TAG" t)
  | [] => some vars

/-- `atom_tags_exec`, src/blogc-make/rules.c:216-254. -/
def atomTagsExec (s : Site) (exec : Job → Int) (outputs : List (Option FileCtx)) : List Job × Int :=
  if s.cfg.posts.isNone || s.cfg.tags.isNone then ([], 0)
  else
    let vars := names atomDate b!"atom_tags" b!"atom"
      (postsOrdering s.cfg.settings b!"atom_order" (postsPagination s.cfg.settings b!"atom_posts_per_page" .nil))
    jobLoop setTag List.tail s.needAtom s.atomJob exec (s.cfg.tags.getD []) vars outputs

/-- The variables of the rules `pagination` and `pagination_tags` before the loop,
src/blogc-make/rules.c:309-318 and 401-410. -/
def paginationVars (s : Site) (rule : Str) : Trie Str :=
  names (s.getStr b!"date_format") rule b!"post"
    (postsOrdering s.cfg.settings b!"html_order" (set .nil b!"FILTER_PER_PAGE" (s.getStr b!"posts_per_page")))

/-- `pagination_exec`, src/blogc-make/rules.c:300-338. -/
def paginationExec (s : Site) (exec : Job → Int) (outputs : List (Option FileCtx)) : List Job × Int :=
  if s.cfg.posts.isNone then ([], 0)
  else
    jobLoop (fun page v _ => some (set v b!"FILTER_PAGE" (decNat page))) (· + 1) s.needListing s.listingJob exec 1
      (s.paginationVars b!"pagination") outputs

/-- The tag and the page of an output, src/blogc-make/rules.c:424-451. -/
def setTagPage (s : Site) (count : Nat) (vars : Trie Str) (o : FileCtx) : Option (Trie Str) :=
  (findTagPage s.tagPageName count o.shortPath (s.cfg.tags.getD [])).map fun (tag, page) =>
    set (set vars b!"FILTER_TAG" tag) b!"FILTER_PAGE" (decNat page)

/-- `pagination_tags_exec`, src/blogc-make/rules.c:392-466. -/
def paginationTagsExec (s : Site) (exec : Job → Int) (outputs : List (Option FileCtx)) : List Job × Int :=
  if s.cfg.posts.isNone || s.cfg.tags.isNone then ([], 0)
  else
    jobLoop (fun _ => s.setTagPage outputs.length) id s.needListing s.listingJob exec ()
      (s.paginationVars b!"pagination_tags") outputs

/-- `tags_exec`, src/blogc-make/rules.c:564-602. -/
def tagsExec (s : Site) (exec : Job → Int) (outputs : List (Option FileCtx)) : List Job × Int :=
  if s.cfg.posts.isNone || s.cfg.tags.isNone then ([], 0)
  else
    let vars := names (s.getStr b!"date_format") b!"tags" b!"post"
      (postsOrdering s.cfg.settings b!"html_order" (postsPagination s.cfg.settings b!"posts_per_page" .nil))
    jobLoop setTag List.tail s.needListing s.listingJob exec (s.cfg.tags.getD []) vars outputs

/-- The call of `bm_rule_need_rebuild` of the rules `posts` and `pages`,
src/blogc-make/rules.c:518-519 and 650-651. -/
def needEntry (s : Site) (sources : List (Option FileCtx)) (o : FileCtx) : Bool :=
  needRebuild sources s.settings none s.mainTemplate (some o) true

/-- The call of `bm_exec_blogc` of the rules `posts` and `pages`,
src/blogc-make/rules.c:521-524 and 653-656. If the first source is NULL, reading
its slug is undefined, and so is `Job.input`. -/
def entryJob (s : Site) (vars : Trie Str) (sources : List (Option FileCtx)) (o : FileCtx) : Job :=
  let locals := match (sources.head?.bind id).bind (·.slug) with
    | some slug => set .nil b!"MAKE_SLUG" slug
    | none => .nil
  ⟨vars, some locals, false, none, s.mainTemplate, o, sources, true⟩

/-- `bc_trie_insert` of a copy: a NULL is not inserted (src/common/utils.c:550-551). -/
def setOpt (vars : Trie Str) (k : Str) (v : Option Str) : Trie Str :=
  match v with
  | some v => set vars k v
  | none => vars

/-- `posts_exec`, src/blogc-make/rules.c:493-534. -/
def postsExec (s : Site) (exec : Job → Int) (outputs : List (Option FileCtx)) : List Job × Int :=
  if s.cfg.posts.isNone then ([], 0)
  else
    let vars := set (set (postsOrdering s.cfg.settings b!"html_order"
      (setOpt (set .nil b!"IS_POST" b!"1") b!"DATE_FORMAT" (s.get b!"date_format")))
      b!"MAKE_RULE" b!"posts") b!"MAKE_TYPE" b!"post"
    pairJobs s.needEntry (s.entryJob vars) exec s.posts outputs

/-- `pages_exec`, src/blogc-make/rules.c:627-666. -/
def pagesExec (s : Site) (exec : Job → Int) (outputs : List (Option FileCtx)) : List Job × Int :=
  if s.cfg.pages.isNone then ([], 0)
  else
    let vars := set (set (setOpt .nil b!"DATE_FORMAT" (s.get b!"date_format"))
      b!"MAKE_RULE" b!"pages") b!"MAKE_TYPE" b!"page"
    pairJobs s.needEntry (s.entryJob vars) exec s.pages outputs

/-- The loop of `copy_exec`, src/blogc-make/rules.c:701-713. `need` is the call of
`bm_rule_need_rebuild`, which looks at the first source only, and `cp` the call of
`bm_exec_native_cp`. The outcome is the list of the files copied (or tried) with
their destinations, in order, and the status. -/
def copyFiles (need : FileCtx → FileCtx → Bool) (cp : FileCtx → FileCtx → Int) :
    List FileCtx → List (Option FileCtx) → List (FileCtx × FileCtx) × Int
  | [], _ => ([], 0)
  | _ :: _, [] => ([], 0)
  | _ :: ss, none :: os => copyFiles need cp ss os
  | s :: ss, some o :: os =>
    if need s o then
      if cp s o ≠ 0 then ([(s, o)], cp s o)
      else
        let r := copyFiles need cp ss os
        ((s, o) :: r.1, r.2)
    else copyFiles need cp ss os

/-- `copy_exec`, src/blogc-make/rules.c:691-716. -/
def copyExec (s : Site) (cp : FileCtx → FileCtx → Int) (outputs : List (Option FileCtx)) :
    List (FileCtx × FileCtx) × Int :=
  if s.cfg.copy.isNone then ([], 0)
  else copyFiles (fun f o => needRebuild [some f] s.settings none none (some o) true) cp s.copy outputs

end Site

end Blogc.Make
