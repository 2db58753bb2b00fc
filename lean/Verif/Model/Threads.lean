import Verif.Basic

/-!
# Model of the accept loop of `br_httpd_run`, src/blogc-runserver/httpd.c:346-399
-/

namespace Blogc.Threads

/-- What can be observed about threads. -/
inductive Event where
  | start (slot id : Nat)   -- `pthread_create`
  | finish (id : Nat)       -- `handle_request` returns
  | join (id : Nat)         -- `pthread_join` returns 0
  deriving DecidableEq, Repr

/-- Where the main thread is. -/
inductive PC where
  | accept     -- line 364
  | join       -- line 378
  | create     -- line 387
  | stopped    -- `goto cleanup`
  deriving DecidableEq, Repr

/-- `slots` is `threads`: `none` when not `initialized`, else the thread. Threads
are numbered as they are created; `done` are those whose function returned. -/
structure State where
  pc : PC
  slots : List (Option Nat)
  current : Nat
  next : Nat
  done : List Nat
  trace : List Event

/-- Lines 272-274 and 346. -/
def init (maxThreads : Nat) : State :=
  ⟨.accept, List.replicate maxThreads none, 0, 0, [], []⟩

/-- Lines 395-398: the next slot. -/
def nextSlot (maxThreads current : Nat) : Nat :=
  if current + 1 ≥ maxThreads then 0 else current + 1

/-- One step of the main thread, or the end of a request thread. Accessing
`threads[current_thread]` needs `current_thread < max_threads`; this is proved. -/
inductive Step (maxThreads : Nat) : State → State → Prop where
  | accepted (s : State) : s.pc = .accept → Step maxThreads s { s with pc := .join }
  | acceptFailed (s : State) : s.pc = .accept → Step maxThreads s { s with pc := .stopped }
  | noJoin (s : State) : s.pc = .join → s.slots[s.current]? = some none →
      Step maxThreads s { s with pc := .create }
  /-- `pthread_join` returns only when the thread has ended. -/
  | joined (s : State) (t : Nat) : s.pc = .join → s.slots[s.current]? = some (some t) → t ∈ s.done →
      Step maxThreads s { s with pc := .create, trace := s.trace ++ [.join t] }
  | joinFailed (s : State) (t : Nat) : s.pc = .join → s.slots[s.current]? = some (some t) →
      Step maxThreads s { s with pc := .stopped }
  | created (s : State) : s.pc = .create →
      Step maxThreads s { s with
        pc := .accept
        slots := s.slots.set s.current (some s.next)
        current := nextSlot maxThreads s.current
        next := s.next + 1
        trace := s.trace ++ [.start s.current s.next] }
  | createFailed (s : State) : s.pc = .create → Step maxThreads s { s with pc := .stopped }
  | finished (s : State) (t : Nat) : t < s.next → t ∉ s.done →
      Step maxThreads s { s with done := t :: s.done, trace := s.trace ++ [.finish t] }

inductive Reaches (maxThreads : Nat) : State → Prop where
  | init : Reaches maxThreads (init maxThreads)
  | step {s s' : State} : Reaches maxThreads s → Step maxThreads s s' → Reaches maxThreads s'

end Blogc.Threads
