import Verif.Spec.Ledger
import Verif.Props.C50
import Mathlib.Data.List.Nodup

/-!
# C111: the web server keeps nothing of a request
-/

namespace Blogc.C111

open Blogc Blogc.Httpd Blogc.Spec.Ledger

/-! ## The control flow is that of the other model -/

theorem index_same (env : Env) (path : Str) (l : List Str) (i : Nat) :
    (indexEvents env path l i).1.map (·.1) = (l.map fun n => path ++ b!"/" ++ n).find? env.exists_ := by
  induction l generalizing i with
  | nil => rfl
  | cons n l ih =>
    rw [indexEvents, List.map_cons, List.find?_cons]
    cases h : env.exists_ (path ++ b!"/" ++ n) with
    | true => simp
    | false => simpa using ih (i + 1)

theorem send_same (env : Env) (path f : Str) (real : Thing) (slash : Bool) :
    (sendEvents env path f real slash).1 = sendFile env path f slash := by
  unfold sendEvents sendFile
  split
  · rfl
  · split
    · rfl
    · cases env.load f <;> rfl

theorem serve_same (env : Env) (docroot path : Str) : (serveEvents env docroot path).1 = serve env docroot path := by
  unfold serveEvents serve
  cases env.realpath (docroot ++ b!"/" ++ path) with
  | noent => rfl
  | error => rfl
  | ok rp =>
    simp only
    cases env.realpath docroot with
    | noent => rfl
    | error => rfl
    | ok root =>
      simp only
      split
      · rfl
      · cases env.isDir rp with
        | none => rfl
        | some b =>
          cases b with
          | false => exact send_same ..
          | true =>
            have k := index_same env rp indexNames 0
            simp only [guessIndex]
            rw [← k]
            cases (indexEvents env rp indexNames 0).1 with
            | none => rfl
            | some x => exact send_same ..

/-- The answers are those of the model of the other properties. -/
theorem handle_same (env : Env) (docroot line : Str) :
    (handleEvents env docroot line).map (·.1) = handle env docroot line := by
  unfold handleEvents handle
  by_cases hl : line = []
  · simp [hl]
  · simp only [if_neg hl]
    generalize split line c!" " 3 = ps
    match ps with
    | [] => rfl
    | [_] => rfl
    | [_, _] => rfl
    | _ :: _ :: _ :: _ :: _ => rfl
    | [method, target, _] =>
      simp only
      split
      · rfl
      · cases split target c!"?" 2 with
        | nil => rfl
        | cons p _ =>
          simp only
          cases urldecode p with
          | ub => rfl
          | ok path =>
            show Res.ok _ = Res.ok _
            rw [serve_same]

/-! ## One request -/

/-- The account of one request. -/
def step (l : List Thing) : Event → Option (List Thing)
  | .acquire x => if x ∈ l then none else some (x :: l)
  | .release x => if x ∈ l then some (l.erase x) else none
  | .use x => if x ∈ l then some l else none

def run : List Event → List Thing → Option (List Thing)
  | [], l => some l
  | e :: rest, l => (step l e).bind (run rest)

theorem run_append (a b : List Event) (l : List Thing) : run (a ++ b) l = (run a l).bind (run b) := by
  induction a generalizing l with
  | nil => rfl
  | cons e a ih =>
    show (step l e).bind (run (a ++ b)) = ((step l e).bind (run a)).bind (run b)
    cases step l e with
    | none => rfl
    | some l' => exact ih l'

theorem run_nil (l : List Thing) : run [] l = some l := rfl

theorem run_acquire {x : Thing} {l : List Thing} (h : x ∉ l) (r : List Event) :
    run (.acquire x :: r) l = run r (x :: l) := by
  simp only [run, step, if_neg h, Option.bind_some]

theorem run_release {x : Thing} {l : List Thing} (h : x ∈ l) (r : List Event) :
    run (.release x :: r) l = run r (l.erase x) := by
  simp only [run, step, if_pos h, Option.bind_some]

theorem run_use {x : Thing} {l : List Thing} (h : x ∈ l) (r : List Event) : run (.use x :: r) l = run r l := by
  simp only [run, step, if_pos h, Option.bind_some]

theorem run_index (env : Env) (path : Str) (names : List Str) (i : Nat) (l : List Thing) (hl : ∀ j, .index j ∉ l) :
    run (indexEvents env path names i).2 l = some (((indexEvents env path names i).1.map (·.2)).toList ++ l) ∧
      ∀ x, (indexEvents env path names i).1.map (·.2) = some x → ∃ j, x = .index j := by
  induction names generalizing i with
  | nil => exact ⟨rfl, fun x h => by cases h⟩
  | cons n names ih =>
    rw [indexEvents]
    cases h : env.exists_ (path ++ b!"/" ++ n) with
    | true =>
      refine ⟨?_, fun x hx => ⟨i, by simpa using hx.symm⟩⟩
      simp [run_nil, run_acquire, run_release, run_use, hl]
    | false =>
      obtain ⟨k1, k2⟩ := ih (i + 1)
      refine ⟨?_, k2⟩
      simp only [Bool.false_eq_true, if_false]
      rw [run_append]
      simp [run_nil, run_acquire, run_release, run_use, hl, k1]

/-- The block of the file that is sent is one of those that have no other name. -/
def IsReal (real : Thing) : Prop := real = .realPath ∨ ∃ i, real = .index i

/-- `l` is in use before the file is sent. -/
def Before (real : Thing) (l : List Thing) : Prop :=
  l = [real, .realRoot, .path, .pieces, .line, .ip, .socket] ∨ l = [.realRoot, real, .path, .pieces, .line, .ip, .socket]

theorem send_missing {real : Thing} (hr : IsReal real) {l : List Thing} (hl : Before real l) :
    run ([.use real] ++ errorEvents ++ point4 real) l = some [] := by
  rcases hr with rfl | ⟨i, rfl⟩ <;> rcases hl with rfl | rfl <;>
    simp [errorEvents, point4, point3, point2, point1, point0, run_nil, run_acquire, run_release, run_use]

theorem send_slash {real : Thing} (hr : IsReal real) {l : List Thing} (hl : Before real l) :
    run ([.use real, .use .path, .acquire .text, .use .socket, .use .text, .release .text] ++ point4 real) l = some [] := by
  rcases hr with rfl | ⟨i, rfl⟩ <;> rcases hl with rfl | rfl <;>
    simp [point4, point3, point2, point1, point0, run_nil, run_acquire, run_release, run_use]

theorem send_error {real : Thing} (hr : IsReal real) {l : List Thing} (hl : Before real l) :
    run ([.use real, .acquire .err] ++ errorEvents ++ [.release .err] ++ point4 real) l = some [] := by
  rcases hr with rfl | ⟨i, rfl⟩ <;> rcases hl with rfl | rfl <;>
    simp [errorEvents, point4, point3, point2, point1, point0, run_nil, run_acquire, run_release, run_use]

theorem send_bytes {real : Thing} (hr : IsReal real) {l : List Thing} (hl : Before real l) :
    run ([.use real, .acquire .file, .acquire .contents, .release .file, .use real, .acquire .text, .use .socket, .use .text,
      .release .text, .use .socket, .use .contents, .release .contents] ++ point4 real) l = some [] := by
  rcases hr with rfl | ⟨i, rfl⟩ <;> rcases hl with rfl | rfl <;>
    simp [point4, point3, point2, point1, point0, run_nil, run_acquire, run_release, run_use]

theorem run_send (env : Env) (path f : Str) (real : Thing) (slash : Bool) (hr : IsReal real) (l : List Thing)
    (hl : Before real l) (hh : (sendEvents env path f real slash).1 ≠ .hang) :
    run (sendEvents env path f real slash).2 l = some [] := by
  unfold sendEvents at hh ⊢
  by_cases h1 : env.exists_ f = false
  · rw [if_pos h1]
    exact send_missing hr hl
  · rw [if_neg h1] at hh ⊢
    by_cases h2 : slash = true
    · rw [if_pos h2]
      exact send_slash hr hl
    · rw [if_neg h2] at hh ⊢
      generalize env.load f = ld at hh ⊢
      cases ld with
      | hang => exact absurd rfl hh
      | error => exact send_error hr hl
      | bytes s => exact send_bytes hr hl

theorem run_serve (env : Env) (docroot path : Str) (hh : (serveEvents env docroot path).1 ≠ .hang) :
    run (serveEvents env docroot path).2 [.path, .pieces, .line, .ip, .socket] = some [] := by
  unfold serveEvents at hh ⊢
  cases h1 : env.realpath (docroot ++ b!"/" ++ path) with
  | noent => dsimp only; decide
  | error => dsimp only; decide
  | ok rp =>
    simp only [h1] at hh ⊢
    cases h2 : env.realpath docroot with
    | noent => dsimp only; decide
    | error => dsimp only; decide
    | ok root =>
      simp only [h2] at hh ⊢
      split
      · dsimp only; decide
      · rename_i h3
        simp only [if_neg h3] at hh
        cases h4 : env.isDir rp with
        | none => dsimp only; decide
        | some b =>
          cases b with
          | false =>
            simp only [h4] at hh ⊢
            rw [run_append]
            exact run_send env path rp .realPath false (.inl rfl) _ (.inr rfl) hh
          | true =>
            simp only [h4] at hh ⊢
            obtain ⟨k1, k2⟩ := run_index env rp indexNames 0 [.realRoot, .realPath, .path, .pieces, .line, .ip, .socket]
              (by simp)
            cases h5 : (indexEvents env rp indexNames 0).1 with
            | none =>
              rw [h5] at k1
              simp only [run_append]
              simp [k1, errorEvents, point4, point3, point2, point1, point0, run_nil, run_acquire, run_release, run_use]
            | some x =>
              obtain ⟨found, real⟩ := x
              obtain ⟨j, hj⟩ := k2 real (by rw [h5]; rfl)
              simp only [h5] at hh k1 ⊢
              simp only [run_append]
              generalize (decide (path.length > 0) && path.getD (path.length - 1) 0 != c!"/") = slash at hh ⊢
              have k3 := run_send env path found real slash (.inr ⟨j, hj⟩) _ (.inl rfl) hh
              subst hj
              simp [k1, run_nil, run_acquire, run_release, run_use, k3]

/-- A request that is answered keeps nothing, unless it was empty. -/
theorem run_handle {env : Env} {docroot line : Str} {o : Outcome} {tr : List Event}
    (hr : handleEvents env docroot line = .ok (o, tr)) (ho : o ≠ .hang) :
    run tr [.ip, .arg, .socket] = some (if line = [] then [.line] else []) := by
  unfold handleEvents at hr
  by_cases hl : line = []
  · simp only [if_pos hl] at hr ⊢
    cases hr
    decide
  · simp only [if_neg hl] at hr ⊢
    generalize split line c!" " 3 = ps at hr
    match ps with
    | [] => cases hr; decide
    | [_] => cases hr; decide
    | [_, _] => cases hr; decide
    | _ :: _ :: _ :: _ :: _ => cases hr; decide
    | [method, target, _] =>
      simp only at hr
      split at hr
      · cases hr; decide
      · cases h1 : split target c!"?" 2 with
        | nil => simp [h1] at hr
        | cons p _ =>
          simp only [h1] at hr
          cases h2 : urldecode p with
          | ub => simp [h2] at hr
          | ok path =>
            rw [h2] at hr
            cases hr
            rw [run_append]
            exact run_serve env docroot (cstr path) ho

/-! ## All requests -/

/-- The things of one request. -/
def things (t : Nat) (l : List (Nat × Thing)) : List Thing := (l.filter (·.1 == t)).map (·.2)

theorem mem_things {t : Nat} {x : Thing} {l : List (Nat × Thing)} : x ∈ things t l ↔ (t, x) ∈ l := by
  simp [things]

theorem things_erase (t u : Nat) (x : Thing) (l : List (Nat × Thing)) :
    things u (l.erase (t, x)) = if u = t then (things t l).erase x else things u l := by
  induction l with
  | nil => by_cases h : u = t <;> simp [things, h]
  | cons y l ih =>
    obtain ⟨v, y⟩ := y
    by_cases he : (v, y) = (t, x)
    · cases he
      by_cases h : u = t
      · simp [things, h]
      · simp [things, h, Ne.symm h]
    · rw [List.erase_cons_tail (by simpa using he)]
      have ih' := ih
      unfold things at ih' ⊢
      by_cases hv : v = u
      · subst hv
        by_cases h : v = t
        · subst h
          have hyx : y ≠ x := fun e => he (by rw [e])
          simp only [if_true] at ih' ⊢
          simp [ih', hyx]
        · simp only [if_neg h] at ih' ⊢
          simp [ih']
      · by_cases h : u = t
        · subst h
          simp only [if_true] at ih' ⊢
          simp [ih', hv]
        · simp only [if_neg h] at ih' ⊢
          simp [ih', hv]

theorem account_split {l : List (Nat × Thing)} {t : Nat} {e : Event} {l1 : List Thing} (h : step (things t l) e = some l1) :
    ∃ l', account l t e = some l' ∧ ∀ u, things u l' = if u = t then l1 else things u l := by
  cases e with
  | acquire x =>
    simp only [step, mem_things] at h
    split at h
    · cases h
    · rename_i hx
      cases h
      refine ⟨(t, x) :: l, if_neg hx, fun u => ?_⟩
      by_cases hu : u = t
      · subst hu; simp [things]
      · simp [things, hu, Ne.symm hu]
  | release x =>
    simp only [step, mem_things] at h
    split at h
    · rename_i hx
      cases h
      exact ⟨_, if_pos hx, fun u => things_erase t u x l⟩
    · cases h
  | use x =>
    simp only [step, mem_things] at h
    split at h
    · rename_i hx
      cases h
      refine ⟨l, if_pos hx, fun u => ?_⟩
      by_cases hu : u = t
      · simp [hu]
      · simp [hu]
    · cases h

theorem inUse_split (h : List (Nat × Event)) (l : List (Nat × Thing)) (left : Nat → List Thing)
    (hr : ∀ t, run (of t h) (things t l) = some (left t)) :
    ∃ l', inUse h l = some l' ∧ ∀ t, things t l' = left t := by
  induction h generalizing l with
  | nil => exact ⟨l, rfl, fun t => by simpa [of, run] using hr t⟩
  | cons x h ih =>
    obtain ⟨t, e⟩ := x
    have ht := hr t
    have e1 : of t ((t, e) :: h) = e :: of t h := by simp [of]
    rw [e1, run] at ht
    cases hs : step (things t l) e with
    | none => rw [hs] at ht; cases ht
    | some l1 =>
      rw [hs] at ht
      obtain ⟨l', k1, k2⟩ := account_split hs
      obtain ⟨l2, k3, k4⟩ := ih l' (fun u => by
        rw [k2 u]
        by_cases hu : u = t
        · subst hu; simpa using ht
        · rw [if_neg hu]
          have := hr u
          have e2 : of u ((t, e) :: h) = of u h := by simp [of, Ne.symm hu]
          rwa [e2] at this)
      exact ⟨l2, by rw [inUse, k1]; exact k3, k4⟩

theorem account_nodup {l l' : List (Nat × Thing)} {t : Nat} {e : Event} (hl : l.Nodup) (h : account l t e = some l') :
    l'.Nodup := by
  cases e with
  | acquire x =>
    simp only [account] at h
    split at h
    · cases h
    · rename_i hx
      cases h
      exact List.nodup_cons.2 ⟨hx, hl⟩
  | release x =>
    simp only [account] at h
    split at h
    · cases h
      exact hl.erase _
    · cases h
  | use x =>
    simp only [account] at h
    split at h
    · cases h
      exact hl
    · cases h

theorem inUse_nodup {h : List (Nat × Event)} {l l' : List (Nat × Thing)} (hl : l.Nodup) (hh : inUse h l = some l') :
    l'.Nodup := by
  induction h generalizing l with
  | nil => cases hh; exact hl
  | cons x h ih =>
    obtain ⟨t, e⟩ := x
    rw [inUse] at hh
    cases ha : account l t e with
    | none => rw [ha] at hh; cases hh
    | some l1 =>
      rw [ha] at hh
      exact ih (account_nodup hl ha) hh

/-- A request: the files at its time, and its first line. -/
structure Request where
  env : Env
  docroot : Str
  line : Str

/-- The events of a request that is answered: those of the main thread, src/blogc-runserver/httpd.c:364-375, then those of
its own thread. -/
def Answered (r : Request) (tr : List Event) : Prop :=
  ∃ o tr', handleEvents r.env r.docroot r.line = .ok (o, tr') ∧ o ≠ .hang ∧
    tr = [.acquire .socket, .acquire .arg, .use .arg, .acquire .ip] ++ tr'

/-- After any number of requests that were all answered, with the events of their threads in any order: nothing was used
or released that was not in use, and what is in use is one text for every request with an empty first line. -/
theorem kept (n : Nat) (r : Nat → Request) (h : List (Nat × Event)) (ha : ∀ t < n, Answered (r t) (of t h))
    (hn : ∀ t, n ≤ t → of t h = []) :
    ∃ l, inUse h [] = some l ∧ l.Perm (((List.range n).filter fun t => (r t).line == []).map fun t => (t, .line)) := by
  obtain ⟨l, k1, k2⟩ := inUse_split h [] (fun t => if t < n ∧ (r t).line = [] then [.line] else []) (by
    intro t
    by_cases ht : t < n
    · obtain ⟨o, tr', h1, h2, h3⟩ := ha t ht
      rw [h3, run_append]
      refine Eq.trans ?_ ((run_handle h1 h2).trans ?_)
      · rfl
      · simp [ht]
    · rw [hn t (by omega)]
      simp [ht, run, things])
  refine ⟨l, k1, ?_⟩
  refine (List.perm_ext_iff_of_nodup (inUse_nodup List.nodup_nil k1) ?_).2 ?_
  · exact List.Nodup.map (fun a b hab => (Prod.mk.inj hab).1) (List.nodup_range.filter _)
  · rintro ⟨t, x⟩
    rw [← mem_things, k2 t]
    by_cases hc : t < n ∧ (r t).line = []
    · simp [hc]
      exact eq_comm
    · rw [if_neg hc]
      constructor
      · intro h
        cases h
      · intro h
        obtain ⟨u, hu, he⟩ := List.mem_map.1 h
        obtain ⟨h1, h2⟩ := List.mem_filter.1 hu
        cases he
        exact absurd ⟨List.mem_range.1 h1, by simpa using h2⟩ hc

/-- If no request was empty, nothing is in use. -/
theorem kept_partial (n : Nat) (r : Nat → Request) (h : List (Nat × Event)) (ha : ∀ t < n, Answered (r t) (of t h))
    (hn : ∀ t, n ≤ t → of t h = []) (hl : ∀ t < n, (r t).line ≠ []) : inUse h [] = some [] := by
  obtain ⟨l, k1, k2⟩ := kept n r h ha hn
  have e : (List.range n).filter (fun t => (r t).line == []) = [] :=
    List.filter_eq_nil_iff.2 fun t ht => by simpa using hl t (List.mem_range.1 ht)
  rw [e] at k2
  rw [k1, k2.eq_nil]

/-- The connections that are open: those that are being answered, and one that waits for its thread. -/
def opened (s : Threads.State) : Nat :=
  (C50.live s.trace).length + if s.pc = .join ∨ s.pc = .create then 1 else 0

/-- Whatever the requests are and however they are scheduled, there are at most `max + 1` connections. -/
theorem connections (max : Nat) (hmax : 0 < max) (s : Threads.State) (h : Threads.Reaches max s) : opened s ≤ max + 1 := by
  have := C50.bounded max hmax s h
  unfold opened
  split <;> omega

/-! ## Empty requests -/

/-- A directory with an index. -/
def env : Env where
  realpath p := if p = b!"www" ∨ p = b!"www//" then .ok b!"/www" else .noent
  isDir _ := some true
  exists_ p := p == b!"/www/index.xml"
  load _ := .bytes b!"<a/>"

def answered : Request := ⟨env, b!"www", b!"GET / HTTP/1.0"⟩

def empty : Request := ⟨env, b!"www", []⟩

/-- The events of a request. -/
def eventsOf (r : Request) : List Event :=
  [.acquire .socket, .acquire .arg, .use .arg, .acquire .ip] ++
    match handleEvents r.env r.docroot r.line with
    | .ok x => x.2
    | .ub => []

theorem answered_ok : Answered answered (eventsOf answered) := by
  have h : handleEvents env b!"www" b!"GET / HTTP/1.0" =
      .ok (.answer 200 (okBytes b!"text/xml" b!"<a/>") (some b!"/www/index.xml"),
        match handleEvents env b!"www" b!"GET / HTTP/1.0" with
        | .ok x => x.2
        | .ub => []) := by
    decide +kernel
  refine ⟨_, _, h, by simp, rfl⟩

theorem empty_ok : Answered empty (eventsOf empty) := ⟨.closed, _, rfl, by simp, rfl⟩

/-- Two requests whose events alternate. -/
def interleaved : List Event → List Event → List (Nat × Event)
  | [], b => b.map fun e => (1, e)
  | a, [] => a.map fun e => (0, e)
  | x :: a, y :: b => (0, x) :: (1, y) :: interleaved a b

/-- The hypotheses of `kept_partial` hold for two requests at a time. -/
example : inUse (interleaved (eventsOf answered) (eventsOf answered)) [] = some [] := by
  refine kept_partial 2 (fun _ => answered) _ ?_ ?_ ?_
  · intro t ht
    have h0 : of 0 (interleaved (eventsOf answered) (eventsOf answered)) = eventsOf answered := by decide +kernel
    have h1 : of 1 (interleaved (eventsOf answered) (eventsOf answered)) = eventsOf answered := by decide +kernel
    match t, ht with
    | 0, _ => exact h0 ▸ answered_ok
    | 1, _ => exact h1 ▸ answered_ok
  · intro t ht
    have h : ∀ e ∈ interleaved (eventsOf answered) (eventsOf answered), e.1 < 2 := by decide +kernel
    unfold of
    rw [List.filter_eq_nil_iff.2 fun e he => by simpa using fun h' => absurd (h e he) (by omega)]
    rfl
  · intro t _
    show b!"GET / HTTP/1.0" ≠ []
    decide

/-- The events of `n` empty requests, one after the other. -/
def emptyRequests (n : Nat) : List (Nat × Event) :=
  (List.range n).flatMap fun t => (eventsOf empty).map fun e => (t, e)

theorem of_emptyRequests (n t : Nat) : of t (emptyRequests n) = if t < n then eventsOf empty else [] := by
  induction n with
  | zero => rfl
  | succ n ih =>
    have e : emptyRequests (n + 1) = emptyRequests n ++ (eventsOf empty).map fun e => (n, e) := by
      simp [emptyRequests, List.range_succ]
    have ea : ∀ a b, of t (a ++ b) = of t a ++ of t b := by simp [of]
    rw [e, ea, ih]
    by_cases h : t < n
    · have h' : ¬ n = t := by omega
      have h'' : t < n + 1 := by omega
      simp [of, List.filter_map, Function.comp_def, h, h', h'']
    · by_cases h1 : n = t
      · subst h1
        simp [of, List.filter_map, Function.comp_def]
      · have h' : ¬ t < n + 1 := by omega
        simp [of, List.filter_map, Function.comp_def, h, h1, h']

/-- Clients that close their connection without a request, one after the other, take as much memory as they like. -/
theorem kept_violated (n : Nat) : ∃ (r : Nat → Request) (h : List (Nat × Event)) (l : List (Nat × Thing)),
    (∀ t < n, Answered (r t) (of t h)) ∧ (∀ t, n ≤ t → of t h = []) ∧ inUse h [] = some l ∧ l.length = n := by
  have h1 : ∀ t < n, Answered empty (of t (emptyRequests n)) := fun t ht => by
    rw [of_emptyRequests, if_pos ht]
    exact empty_ok
  have h2 : ∀ t, n ≤ t → of t (emptyRequests n) = [] := fun t ht => by
    rw [of_emptyRequests, if_neg (by omega)]
  obtain ⟨l, k1, k2⟩ := kept n (fun _ => empty) _ h1 h2
  refine ⟨fun _ => empty, emptyRequests n, l, h1, h2, k1, ?_⟩
  rw [k2.length_eq, List.length_map]
  simp [empty]

end Blogc.C111
