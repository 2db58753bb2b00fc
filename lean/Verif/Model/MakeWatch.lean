import Verif.Basic

/-!
# Model of watching: src/blogc-make/ctx.c and src/blogc-make/reloader.c

Only what concerns the settings file is modelled: the other files are checked
again in every round (src/blogc-make/ctx.c:325-336). `S` are the settings, and
`parse` stands for reading and checking them (src/blogc-make/ctx.c:171-210).
-/

namespace Blogc.Watch

open Blogc

/-- The settings file at some time: its time of modification and its content. -/
structure File where
  mtime : Int
  content : Str
  deriving DecidableEq

/-- What is remembered of the settings file: `settings` and the times in
`settings_fctx`. -/
structure Ctx (S : Type) where
  settings : S
  mtime : Int
  deriving DecidableEq

/-- The settings file as seen at the three moments of one round when it is looked
at: by `bm_filectx_changed` (src/blogc-make/ctx.c:307), by `bc_file_get_contents`
(line 176) and by the `stat` in `bm_filectx_new` (line 227). `none` is a file that
is missing or cannot be read. -/
structure Round where
  probe : Option File
  read : Option File
  stat : Option File
  deriving DecidableEq

/-- `bm_filectx_changed`, src/blogc-make/ctx.c:103-131, with the seconds and
nanoseconds as one number. -/
def changed {S : Type} (ctx : Ctx S) (f : Option File) : Bool :=
  match f with
  | none => false
  | some f => decide (ctx.mtime < f.mtime)

/-- The part of `bm_ctx_new` about settings, src/blogc-make/ctx.c:171-227. The
result is NULL (`none`) on every error. -/
def ctxNew {S : Type} (parse : Str → Option S) (read stat : Option File) : Option (Ctx S) :=
  match read with
  | none => none
  | some f =>
    match parse f.content with
    | none => none
    | some s => some { settings := s, mtime := match stat with
        | none => 0
        | some f => f.mtime }

/-- `bm_ctx_reload`, src/blogc-make/ctx.c:301-339: the new `*ctx` and the
result. -/
def reload {S : Type} (parse : Str → Option S) (r : Round) (ctx : Option (Ctx S)) : Option (Ctx S) × Bool :=
  match ctx with
  | none => (none, false)
  | some c =>
    if changed c r.probe then
      match ctxNew parse r.read r.stat with
      | none => (none, false)
      | some c => (some c, true)
    else (some c, true)

/-- One round of the loop of `bm_reloader_run`, src/blogc-make/reloader.c:64-78:
the new `*ctx`, and the settings that the site is built with, if it is. -/
def round {S : Type} (parse : Str → Option S) (r : Round) (ctx : Option (Ctx S)) : Option (Ctx S) × Option S :=
  match reload parse r ctx with
  | (c, false) => (c, none)
  | (c, true) => (c, c.map (·.settings))

/-- `*ctx` after the first `n` rounds. -/
def ctxAt {S : Type} (parse : Str → Option S) (rounds : Nat → Round) (ctx : Option (Ctx S)) : Nat → Option (Ctx S)
  | 0 => ctx
  | n + 1 => (round parse (rounds n) (ctxAt parse rounds ctx n)).1

/-- The settings that the site is built with in round `n`, if it is. -/
def buildAt {S : Type} (parse : Str → Option S) (rounds : Nat → Round) (ctx : Option (Ctx S)) (n : Nat) : Option S :=
  (round parse (rounds n) (ctxAt parse rounds ctx n)).2

end Blogc.Watch
