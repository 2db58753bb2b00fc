import Verif.Basic

/-!
# Model of `src/blogc-make/httpd.c` and `src/blogc-make/reloader.c`

The two threads of the rule `runserver`, interleaved in any way: the main thread,
which waits for the server thread and then rebuilds the site again and again, and
the server thread, which runs blogc-runserver and tells the main thread to stop
when it ends. The rule `watch` is the second half of the main thread.

Simplifications. Reads and writes of the flags are atomic (the test of line 64 of
reloader.c is made without the mutex). The critical sections are single steps,
except that of lines 60-62 of reloader.c, because the signal handler takes the same
mutex. SIGINT is delivered to the main thread. The calls that set thread
attributes and create the thread succeed; sigaction may fail. What a rebuild does
is left open.
-/

namespace Blogc.Reloader

open Blogc

/-- What SIGINT does to the process. -/
inductive Disp where
  | default    -- the process ends
  | ignore
  | handler    -- `sig_handler`, src/blogc-make/reloader.c:25-29
  deriving DecidableEq, Repr

/-- Where the main thread is. -/
inductive Main where
  | poll (count : Nat)   -- src/blogc-make/httpd.c:98-113
  | query                -- src/blogc-make/reloader.c:38
  | install (d : Disp)   -- src/blogc-make/reloader.c:42-58, `current_action` is `d`
  | lock                 -- line 60
  | locked               -- lines 61-62, the mutex is held
  | test                 -- line 64
  | reload               -- line 65
  | build                -- line 71
  | pause                -- lines 68, 74 and 77
  | ended (status : Int) -- the rule returned
  | killed               -- the process ended by SIGINT
  | stuck                -- `pthread_mutex_lock` in the handler, with the mutex held by the interrupted thread
  deriving DecidableEq, Repr

/-- Where the server thread is, src/blogc-make/httpd.c:28-50. -/
inductive Server where
  | begin              -- lines 33-35
  | read               -- line 37: src/blogc-make/exec.c:441-465 reads the context
  | serve              -- `system`, src/blogc-make/exec.c:474
  | over (rv : Int)    -- lines 40-42
  | clear (rv : Int)   -- line 47
  | gone (rv : Int)
  deriving DecidableEq, Repr

/-- The threads, the flags `httpd_starting`, `running`, `reloader_status_code`, the
disposition of SIGINT, `handler_func`, and the disposition saved by `system`.
`freed`: strings of the context were freed by a reload since the server thread was
started. `bad`: the server thread has read freed memory. -/
structure State where
  main : Main
  server : Server
  starting : Bool
  running : Bool
  code : Int
  disp : Disp
  backup : Disp
  saved : Disp
  freed : Bool
  bad : Bool
  deriving DecidableEq, Repr

/-- The start of the rule `runserver`, after `pthread_create` (httpd.c:97), with the
disposition of SIGINT that the process was started with. -/
def runserver (d : Disp) : State :=
  ⟨.poll 0, .begin, false, false, 0, d, .default, .default, false, false⟩

/-- The start of the rule `watch` (rules.c:762-766): there is no server. -/
def watch (d : Disp) : State :=
  ⟨.query, .gone 0, false, false, 0, d, .default, .default, false, false⟩

/-- `bm_reloader_stop(status)`, src/blogc-make/reloader.c:84-111. For status 130 the
old disposition is restored and the signal is raised: when this is the default the
process ends. -/
def stop (status : Int) (s : State) : State :=
  if status = 130 then
    { s with
      running := false
      code := status
      disp := s.backup
      main := if s.backup = .default then .killed else s.main }
  else { s with running := false, code := status }

/-- Who takes a step. -/
inductive Who where
  | main | server | interrupt
  deriving DecidableEq, Repr

/-- The process is alive. -/
def Alive (s : State) : Prop := s.main ≠ .killed ∧ ∀ st, s.main ≠ .ended st

/-- A step of one of the threads, or a signal. -/
inductive Step : Who → State → State → Prop where
  /-- httpd.c:99-104. -/
  | started (s : State) (n : Nat) : s.main = .poll n → s.starting = true → Step .main s { s with main := .query }
  /-- httpd.c:106-112. -/
  | retry (s : State) (n : Nat) : s.main = .poll n → s.starting = false → n + 1 ≤ 100 →
      Step .main s { s with main := .poll (n + 1) }
  | giveUp (s : State) (n : Nat) : s.main = .poll n → s.starting = false → 100 < n + 1 →
      Step .main s { s with main := .ended 1 }
  /-- reloader.c:38-41. -/
  | query (s : State) : s.main = .query → Step .main s { s with main := .install s.disp }
  | queryFailed (s : State) : s.main = .query → Step .main s { s with main := .ended 1 }
  /-- reloader.c:42-58. -/
  | installed (s : State) : s.main = .install .handler → Step .main s { s with main := .lock }
  | install (s : State) (d : Disp) : s.main = .install d → d ≠ .handler →
      Step .main s { s with main := .lock, backup := d, disp := .handler }
  | installFailed (s : State) (d : Disp) : s.main = .install d → d ≠ .handler →
      Step .main s { s with main := .ended 1, backup := d }
  /-- reloader.c:60-62. -/
  | lock (s : State) : s.main = .lock → Step .main s { s with main := .locked }
  | unlock (s : State) : s.main = .locked → Step .main s { s with main := .test, running := true }
  /-- reloader.c:64 and 80. -/
  | again (s : State) : s.main = .test → s.running = true → Step .main s { s with main := .reload }
  | finish (s : State) : s.main = .test → s.running = false → Step .main s { s with main := .ended s.code }
  /-- reloader.c:65: `bm_ctx_reload` fails, or it succeeds; in both cases the
  context may have been freed (ctx.c:315). -/
  | reloadFailed (s : State) (freed : Bool) : s.main = .reload →
      Step .main s { s with main := .pause, freed := s.freed || freed }
  | reloaded (s : State) (freed : Bool) : s.main = .reload →
      Step .main s { s with main := .build, freed := s.freed || freed }
  /-- reloader.c:71-77. -/
  | built (s : State) : s.main = .build → Step .main s { s with main := .pause }
  | paused (s : State) : s.main = .pause → Step .main s { s with main := .test }
  /-- httpd.c:33-35. -/
  | begin (s : State) : Alive s → s.server = .begin → Step .server s { s with server := .read, starting := true }
  /-- exec.c:441-474. `system` ignores SIGINT while the command runs. -/
  | read (s : State) : Alive s → s.server = .read →
      Step .server s { s with server := .serve, bad := s.bad || s.freed, saved := s.disp, disp := .ignore }
  /-- `system` returns. -/
  | served (s : State) (rv : Int) : Alive s → s.server = .serve →
      Step .server s { s with server := .over rv, disp := s.saved }
  /-- httpd.c:40-42. -/
  | over (s : State) (rv : Int) : Alive s → s.server = .over rv →
      Step .server s { s with server := .clear rv, starting := false }
  /-- httpd.c:47: needs the mutex. -/
  | clear (s : State) (rv : Int) : Alive s → s.server = .clear rv → s.main ≠ .locked → s.main ≠ .stuck →
      Step .server s (stop rv { s with server := .gone rv })
  /-- SIGINT arrives. While the handler waits, the signal is blocked. -/
  | kill (s : State) : Alive s → s.main ≠ .stuck → s.disp = .default →
      Step .interrupt s { s with main := .killed }
  | ignored (s : State) : Alive s → s.main ≠ .stuck → s.disp = .ignore → Step .interrupt s s
  | deadlock (s : State) : s.main = .locked → s.disp = .handler → Step .interrupt s { s with main := .stuck }
  | handled (s : State) : Alive s → s.main ≠ .stuck → s.main ≠ .locked → s.disp = .handler →
      Step .interrupt s (stop 130 s)

/-- The states reached from `s` by steps of the threads and signals in `W`. -/
inductive Reach (W : Who → Prop) (s : State) : State → Prop where
  | refl : Reach W s s
  | step {t u : State} {w : Who} : Reach W s t → W w → Step w t u → Reach W s u

end Blogc.Reloader
