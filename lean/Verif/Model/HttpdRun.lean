import Verif.Prog
import Verif.Model.Numbers

/-!
# Model of the start of `br_httpd_run`, src/blogc-runserver/httpd.c:251-344 and 401-407

The addresses are those found by `getaddrinfo` (lines 255-270). The socket of the
`i`-th address, counted from 0, has the number `i + 1`; `server_socket` is 0 before
(line 279).
-/

namespace Blogc.HttpdRun

open Blogc

/-- An address, with the texts of `br_httpd_get_ip` and `br_httpd_get_port`
(lines 219-248). -/
structure Addr where
  v6 : Bool
  host : Str
  port : Nat
  deriving DecidableEq, Repr

inductive Call where
  | text (i : Nat)         -- `final_host` of the address `i` is allocated; does not fail
  | freeText (i : Nat)     -- `free(final_host)`
  | socket (i : Nat)
  | reuse (fd : Nat)       -- `setsockopt`
  | bind (fd : Nat)
  | listen (fd : Nat)
  | close (fd : Nat)
  | say (url : Str)        -- the message of lines 334-344 with this URL
  deriving DecidableEq, Repr

/-- The status of the end, or the accept loop with the server socket. -/
inductive Outcome where
  | exit (status : Nat)
  | serving (a : Addr) (fd : Nat)
  deriving DecidableEq, Repr

/-- Lines 401-407, for the text of the address `i`. -/
def cleanup (fd i : Nat) : Prog Call Outcome :=
  .call (.close fd) fun _ => .call (.freeText i) fun _ => .ret (.exit 1)

/-- Lines 334-341. -/
def url (a : Addr) : Str :=
  b!"http://" ++ (if a.v6 then b!"[" ++ a.host ++ b!"]" else a.host) ++
  (if a.port ≠ 80 then b!":" ++ decNat a.port else []) ++ b!"/"

/-- Lines 327-344. -/
def serve (a : Addr) (fd i : Nat) : Prog Call Outcome :=
  .call (.listen fd) fun ok =>
    if !ok then cleanup fd i
    else .call (.say (url a)) fun _ => .ret (.serving a fd)

/-- Lines 285-325, from the `i`-th address on. `getaddrinfo` finds at least one
address, so the loop does not end with the list. -/
def loop : List Addr → Nat → Prog Call Outcome
  | [], i => serve ⟨false, [], 0⟩ 0 i
  | a :: rest, i =>
    .call (.text i) fun _ =>
    .call (.socket i) fun ok =>
      if !ok then
        if rest = [] then .call (.freeText i) fun _ => .ret (.exit 1) else loop rest (i + 1)
      else .call (.reuse (i + 1)) fun ok =>
        if !ok then
          if rest = [] then cleanup (i + 1) i
          else .call (.close (i + 1)) fun _ => loop rest (i + 1)
        else .call (.bind (i + 1)) fun ok =>
          if ok then serve a (i + 1) i
          else if rest = [] then cleanup (i + 1) i
          else .call (.freeText i) fun _ => .call (.close (i + 1)) fun _ => loop rest (i + 1)

/-- Lines 255-344; `none` when `getaddrinfo` fails. -/
def start : Option (List Addr) → Prog Call Outcome
  | none => .ret (.exit 1)
  | some addrs => loop addrs 0

end Blogc.HttpdRun
