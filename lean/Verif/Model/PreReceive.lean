import Verif.Model.Trie
import Verif.Model.Strings

/-!
# Model of `src/blogc-git-receiver/pre-receive-parser.c`
-/

namespace Blogc.PreReceive

open Blogc

/-- `input_state_t`, src/blogc-git-receiver/pre-receive-parser.c:10-17. -/
inductive St where
  | startOld | old | startNew | new | startRef | ref
  deriving DecidableEq, Repr

/-- Loop of `bgr_pre_receive_parse`, src/blogc-git-receiver/pre-receive-parser.c:29-71.
`rest` is `input + current`. `bc_strndup` copies up to the first NUL. -/
def loop (input : Str) : (rest : Str) → (current : Nat) → St → (start startNew : Nat) →
    Trie Str → Trie Str
  | [], _, _, _, _, rv => rv
  | _ :: rest, current, .startOld, _, startNew, rv =>
    loop input rest (current + 1) .old current startNew rv
  | c :: rest, current, .old, start, startNew, rv =>
    if c ≠ c!" " then loop input rest (current + 1) .old start startNew rv
    else loop input rest (current + 1) .startNew start startNew rv
  | _ :: rest, current, .startNew, _, startNew, rv =>
    loop input rest (current + 1) .new current startNew rv
  | c :: rest, current, .new, start, startNew, rv =>
    if c ≠ c!" " then loop input rest (current + 1) .new start startNew rv
    else loop input rest (current + 1) .startRef start start rv
  | _ :: rest, current, .startRef, _, startNew, rv =>
    loop input rest (current + 1) .ref current startNew rv
  | c :: rest, current, .ref, start, startNew, rv =>
    if c ≠ c!"\n" then loop input rest (current + 1) .ref start startNew rv
    else if current - start > 11 ∧ slice input start (start + 11) = b!"refs/heads/" then
      loop input rest (current + 1) .startOld start startNew
        (rv.insert (cstr (slice input (start + 11) current))
          (cstr (slice input startNew (start - 1)))).1
    else loop input rest (current + 1) .startOld start startNew rv

/-- `bgr_pre_receive_parse`, src/blogc-git-receiver/pre-receive-parser.c:20-79;
`none` is `NULL`. -/
def parse (input : Str) : Option (Trie Str) :=
  let rv := loop input input 0 .startOld 0 0 Trie.nil
  if rv.size = 0 then none else some rv

/-- `bc_trie_lookup(bgr_pre_receive_parse(input), k)`; a lookup in `NULL` gives
`NULL` (src/common/utils.c, `bc_trie_lookup`). -/
def lookupBranch (input k : Str) : Option Str :=
  match parse input with
  | none => none
  | some t => t.lookup k

/-- The revision chosen by `bgr_pre_receive_hook`,
src/blogc-git-receiver/pre-receive.c:170-177: the branch `master`, else `main`. -/
def deployRef (input : Str) : Option Str :=
  match lookupBranch input b!"master" with
  | some r => some r
  | none => lookupBranch input b!"main"

end Blogc.PreReceive
