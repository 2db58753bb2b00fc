import Verif.Model.Config

/-!
# Model of `src/blogc-make/settings.c`
-/

namespace Blogc.MakeSettings

open Blogc.Config (Config)

/-- `default_settings`, src/blogc-make/settings.c:14-53 (`none` is NULL). -/
def defaultSettings : List (Str × Option Str) :=
  [ (b!"content_dir", some b!"content"),
    (b!"template_dir", some b!"templates"),
    (b!"atom_template", none),
    (b!"main_template", some b!"main.tmpl"),
    (b!"source_ext", some b!".txt"),
    (b!"listing_entry", none),
    (b!"posts_sort", none),
    (b!"pagination_prefix", some b!"page"),
    (b!"posts_per_page", some b!"10"),
    (b!"atom_posts_per_page", some b!"10"),
    (b!"html_ext", some b!"/index.html"),
    (b!"index_prefix", some b!""),
    (b!"post_prefix", some b!"post"),
    (b!"tag_prefix", some b!"tag"),
    (b!"html_order", some b!"DESC"),
    (b!"blog_prefix", none),
    (b!"atom_prefix", some b!"atom"),
    (b!"atom_ext", some b!".xml"),
    (b!"atom_order", some b!"DESC"),
    (b!"atom_legacy_entry_id", none),
    (b!"date_format", some b!"%b %d, %Y, %I:%M %p GMT"),
    (b!"locale", none),
    (b!"run_from_make", none) ]

/-- `required_global`, src/blogc-make/settings.c:56-63. -/
def requiredGlobal : List Str :=
  [b!"AUTHOR_NAME", b!"AUTHOR_EMAIL", b!"SITE_TITLE", b!"SITE_TAGLINE", b!"BASE_DOMAIN"]

/-- `list_sections`, src/blogc-make/settings.c:66-73. -/
def listSections : List Str := [b!"posts", b!"pages", b!"copy", b!"copy_files", b!"tags"]

/-- `bm_settings_t`, src/blogc-make/settings.h, without the root directory. -/
structure Settings where
  global : Trie Str
  settings : Trie Str
  posts : Option (List Str)
  pages : Option (List Str)
  copy : Option (List Str)
  tags : Option (List Str)
  deriving Repr

/-- The errors of `bm_settings_parse` (messages of lines 121, 134 and 152). -/
inductive Err where
  | syntax (e : Config.Err × Nat)
  | firstChar (sec key : Str)
  | otherChar (sec key : Str)
  | required (sec key : Str)
  deriving DecidableEq, Repr

/-- The tests of lines 120 and 131-133 of src/blogc-make/settings.c. -/
def isUpper (c : Byte) : Bool := decide (c!"A" ≤ c) && decide (c ≤ c!"Z")
def isKeyByte (c : Byte) : Bool :=
  isUpper c || (decide (c!"0" ≤ c) && decide (c ≤ c!"9")) || c == c!"_"

/-- The loop over the bytes of a key, src/blogc-make/settings.c:118-142. -/
def checkKey (sec key : Str) : Option Err :=
  match key with
  | [] => none
  | c :: rest =>
    if !isUpper c then some (.firstChar sec key)
    else if !rest.all isKeyByte then some (.otherChar sec key)
    else none

/-- The loop over the keys, src/blogc-make/settings.c:117-145. A listed key
always has a value, so the NULL that `bc_config_get` returns otherwise is not
stored. -/
def globalLoop (cfg : Config) (sec : Str) : List Str → Trie Str → Except Err (Trie Str)
  | [], t => .ok t
  | k :: ks, t =>
    match checkKey sec k with
    | some e => .error e
    | none =>
      match cfg.get sec k with
      | some v => globalLoop cfg sec ks (t.insert k v).1
      | none => globalLoop cfg sec ks t

/-- The choice of the section, src/blogc-make/settings.c:101-114. -/
def globalSection (cfg : Config) : Str × Option (List Str) :=
  match cfg.keys b!"global" with
  | some ks => (b!"global", some ks)
  | none =>
    match cfg.keys b!"environment" with
    | some ks => (b!"environment", some ks)
    | none => (b!"global", none)

/-- The loop over the required keys, src/blogc-make/settings.c:149-159. -/
def requiredLoop (sec : Str) (t : Trie Str) : List Str → Option Err
  | [] => none
  | k :: ks =>
    match t.lookup k with
    | none => some (.required sec k)
    | some [] => some (.required sec k)
    | some (_ :: _) => requiredLoop sec t ks

/-- `bc_config_get_with_default` with a default that may be NULL,
src/common/config-parser.c:395-403. -/
def getOr (cfg : Config) (sec key : Str) (dflt : Option Str) : Option Str :=
  match cfg.get sec key with
  | some v => some v
  | none => dflt

/-- The loop over the settings, src/blogc-make/settings.c:161-169. -/
def settingsLoop (cfg : Config) : List (Str × Option Str) → Trie Str → Trie Str
  | [], t => t
  | (k, d) :: rest, t =>
    match getOr cfg b!"settings" k d with
    | some v => settingsLoop cfg rest (t.insert k v).1
    | none => settingsLoop cfg rest t

/-- `bm_settings_parse` after the call of `bc_config_parse`,
src/blogc-make/settings.c:90-184. -/
def ofConfig (cfg : Config) : Except Err Settings :=
  match globalLoop cfg (globalSection cfg).1 ((globalSection cfg).2.getD []) .nil with
  | .error e => .error e
  | .ok global =>
    match requiredLoop (globalSection cfg).1 global requiredGlobal with
    | some e => .error e
    | none =>
      .ok { global := global
            settings := settingsLoop cfg defaultSettings .nil
            posts := cfg.getList b!"posts"
            pages := cfg.getList b!"pages"
            tags := cfg.getList b!"tags"
            copy := match cfg.getList b!"copy" with
              | some l => some l
              | none => cfg.getList b!"copy_files" }

/-- `bm_settings_parse`, src/blogc-make/settings.c:76-185. -/
def parse (src : Str) : Option (Res (Except Err Settings)) :=
  (Config.parse src listSections).map fun r =>
    match r with
    | .ub => .ub
    | .ok (.error e) => .ok (.error (.syntax e))
    | .ok (.ok cfg) => .ok (ofConfig cfg)

end Blogc.MakeSettings
