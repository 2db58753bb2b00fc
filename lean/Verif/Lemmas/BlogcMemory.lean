import Verif.Spec.Account

/-!
# Lemmas about the memory of blogc
-/

namespace Blogc.BlogcMem

open Blogc Blogc.Spec.Account

theorem inUse_append (a b : List Event) (l : InUse) : inUse (a ++ b) l = (inUse a l).bind (inUse b) := by
  induction a generalizing l with
  | nil => rfl
  | cons e a ih =>
    show (account l e).bind (inUse (a ++ b)) = ((account l e).bind (inUse a)).bind (inUse b)
    cases account l e with
    | none => rfl
    | some l' => exact ih l'

theorem inUse_nil (l : InUse) : inUse [] l = some l := rfl

/-- What is in use with some things more. -/
def plus (l : InUse) (xs : List Thing) : InUse := fun x => l x || decide (x ∈ xs)

theorem plus_congr {l : InUse} {xs ys : List Thing} (h : ∀ x, x ∈ xs ↔ x ∈ ys) : plus l xs = plus l ys := by
  funext x
  simp only [plus, h]

theorem plus_plus (l : InUse) (xs ys : List Thing) : plus (plus l xs) ys = plus l (ys ++ xs) := by
  funext x
  simp only [plus, List.mem_append, Bool.decide_or, Bool.or_assoc]
  rw [Bool.or_comm (decide (x ∈ xs))]

theorem plus_nil (l : InUse) : plus l [] = l := by
  funext x
  simp [plus]

/-- The thing is not in use, and not among the new ones. -/
theorem do_acquire {l : InUse} {xs : List Thing} {x : Thing} (h : l x = false) (hx : x ∉ xs) (r : List Event) :
    inUse (.acquire x :: r) (plus l xs) = inUse r (plus l (x :: xs)) := by
  have e : mark (plus l xs) x true = plus l (x :: xs) := by
    funext y
    unfold mark plus
    by_cases hy : y = x <;> simp [hy]
  simp only [inUse, account, plus, h, hx, decide_false, Bool.or_self, Bool.false_eq_true, if_false, Option.bind_some]
  exact congrArg (inUse r) e

theorem mark_false {l : InUse} {xs : List Thing} {x : Thing} (h : l x = false) :
    mark (plus l xs) x false = plus l (xs.filter (· ≠ x)) := by
  funext y
  unfold mark plus
  by_cases hy : y = x <;> simp [hy, h]

theorem do_release {l : InUse} {xs : List Thing} {x : Thing} (h : l x = false) (hx : x ∈ xs) (r : List Event) :
    inUse (.release x :: r) (plus l xs) = inUse r (plus l (xs.filter (· ≠ x))) := by
  simp only [inUse, account, plus, hx, decide_true, Bool.or_true, if_true, Option.bind_some]
  exact congrArg (inUse r) (mark_false h)

theorem do_use {l : InUse} {xs : List Thing} {x : Thing} (h : l x = true ∨ x ∈ xs) (r : List Event) :
    inUse (.use x :: r) (plus l xs) = inUse r (plus l xs) := by
  have e : plus l xs x = true := by
    rcases h with h | h <;> simp [plus, h]
  simp only [inUse, account, e, if_true, Option.bind_some]

theorem do_give {l : InUse} {xs : List Thing} {x y : Thing} (h : l x = false) (hx : x ∈ xs) (hy : l y = true ∨ y ∈ xs)
    (hne : x ≠ y) (r : List Event) :
    inUse (.give x y :: r) (plus l xs) = inUse r (plus l (xs.filter (· ≠ x))) := by
  have e : plus l xs y = true := by
    rcases hy with h | h <;> simp [plus, h]
  have e' : plus l xs x = true := by simp [plus, hx]
  simp only [inUse, account, e, e', hne, ne_eq, not_false_eq_true, decide_true, Bool.and_self, if_true, Option.bind_some]
  exact congrArg (inUse r) (mark_false h)

/-- The things of the source parser. -/
def own (n : Nat) : List Thing :=
  [.table n, .key n, .tmp, .content, .firstHeader, .description, .endl, .headers, .toctree, .str]

/-- None of some things is in use. -/
def Free (l : InUse) (xs : List Thing) : Prop := ∀ x ∈ xs, l x = false

/-- The table, and the key if there is one. -/
def held (n : Nat) (key : Bool) : List Thing := .table n :: if key then [.key n] else []

/-- `key` is NULL except between a colon and the end of the line. -/
def KeyInv (st : Source.St) : Prop := st.key.isSome = decide (st.state = .valueStart ∨ st.state = .value)

/-- Where errors go. -/
def IsErr (e : Thing) : Prop := e = .err ∨ e = .tmpErr

theorem giveUp_ok {l : InUse} {n : Nat} {e : Thing} (he : IsErr e) (hl : Free l (own n)) (k : Bool) :
    inUse (giveUp n k) (plus l (e :: held n k)) = some (plus l [e]) := by
  simp only [Free, own, List.forall_mem_cons] at hl
  rcases he with rfl | rfl <;> cases k <;>
    simp [giveUp, held, do_release, hl, inUse_nil]

theorem putNew_ok {l : InUse} {xs : List Thing} {y : Thing} (h : l .str = false) (hs : .str ∉ xs)
    (hy : l y = true ∨ y ∈ xs) (hne : y ≠ .str) (r : List Event) :
    inUse (putNew y ++ r) (plus l xs) = inUse r (plus l xs) := by
  unfold putNew
  rw [List.cons_append, List.cons_append, List.nil_append, do_acquire h hs,
    do_give h (by simp) (hy.imp_right (List.mem_cons_of_mem _)) hne.symm]
  congr 1
  refine plus_congr fun x => ?_
  simp only [ne_eq, decide_not, List.filter_cons, decide_true, Bool.not_true, Bool.false_eq_true, if_false, List.mem_filter,
    Bool.not_eq_true', decide_eq_false_iff_not]
  exact ⟨fun h => h.1, fun h => ⟨h, fun e => hs (e ▸ h)⟩⟩

/-! ## The source parser -/

theorem content_ok {l : InUse} {n : Nat} {e : Thing} (he : IsErr e) (hl : Free l (own n)) (hle : l e = false)
    (m : Int) (t : Trie Str) (r : Content.BSt) :
    (∀ t', Source.addResults m t r = .ok (.ok t') →
      inUse (contentEvents e n m t r) (plus l [.table n]) = some (plus l [.table n])) ∧
    (∀ er, Source.addResults m t r = .ok (.error er) →
      inUse (contentEvents e n m t r) (plus l [.table n]) = some (plus l [e, .table n])) := by
  simp only [Free, own, List.forall_mem_cons] at hl
  have hne : e ≠ .tmp ∧ e ≠ .content ∧ e ≠ .firstHeader ∧ e ≠ .description ∧ e ≠ .endl ∧ e ≠ .headers ∧ e ≠ .toctree ∧
      e ≠ .str ∧ e ≠ .table n := by
    rcases he with rfl | rfl <;> simp
  unfold Source.addResults contentEvents
  generalize hx : Source.tableOfContents m
    (Source.insertNew (Source.insertNew t b!"FIRST_HEADER" r.firstHeader) b!"DESCRIPTION" r.description) r = x
  cases x with
  | ub => simp
  | out => simp
  | ok y =>
    cases y with
    | error er =>
      refine ⟨by simp, fun er' _ => ?_⟩
      have hh : r.headers ≠ [] := by
        intro hh
        simp [Source.tableOfContents, hh] at hx
      simp only [tocEvents, if_neg hh, hx]
      by_cases h1 : t.lookup b!"FIRST_HEADER" = none <;>
      by_cases h2 : (Source.insertNew t b!"FIRST_HEADER" r.firstHeader).lookup b!"DESCRIPTION" = none <;>
      revert h2 <;>
      rcases he with rfl | rfl <;> cases r.firstHeader <;> cases r.description <;> intro h2 <;>
        simp only [putOrFree, h1, h2, if_true, if_false] <;>
        simp [do_acquire, do_release, do_use, do_give, hl, hle, inUse_nil]
    | ok t' =>
      refine ⟨fun t'' _ => ?_, by simp⟩
      simp only [tocEvents, hx]
      by_cases h1 : t.lookup b!"FIRST_HEADER" = none <;>
      by_cases h2 : (Source.insertNew t b!"FIRST_HEADER" r.firstHeader).lookup b!"DESCRIPTION" = none <;>
      by_cases h3 : r.headers = [] <;>
      by_cases h4 : t'.lookup b!"TOCTREE" = none <;>
      revert h2 <;> cases r.firstHeader <;> cases r.description <;> intro h2 <;>
        simp only [putOrFree, h1, h2, h3, h4, if_true, if_false] <;>
        simp [do_acquire, do_release, do_use, do_give, hl, hle, inUse_nil, putNew]

/-- What the `switch` does with `key`. -/
theorem step_key {cp : Str → Bool → Run Content.BSt} {m : Int} {src : Str} {current : Nat} {st st' : Source.St} {c : Byte}
    (hk : KeyInv st) (h : Source.step cp m src current st c = .ok (.ok st')) :
    KeyInv st' ∧ (Source.isNl c = true → st'.key = none) := by
  obtain ⟨start, key, rv, state⟩ := st
  unfold KeyInv at hk
  cases state <;> simp only [Source.step] at h
  · have : key = none := by simpa using hk
    subst this
    split at h
    · cases h; exact ⟨rfl, fun _ => rfl⟩
    · split at h
      · cases h; exact ⟨rfl, fun _ => rfl⟩
      · split at h
        · cases h; exact ⟨rfl, fun _ => rfl⟩
        · cases h
  · have : key = none := by simpa using hk
    subst this
    split at h
    · cases h; exact ⟨rfl, fun _ => rfl⟩
    · split at h
      · rename_i hc
        subst hc
        split at h
        · cases h
        · cases h; exact ⟨rfl, fun hn => by simp [Source.isNl] at hn⟩
      · cases h
  · cases key with
    | none => simp at hk
    | some k =>
      split at h
      · rename_i hn
        cases h
        exact ⟨rfl, fun h => by simp [h] at hn⟩
      · cases h; exact ⟨rfl, fun _ => rfl⟩
  · cases key with
    | none => simp at hk
    | some k =>
      split at h
      · cases h; exact ⟨rfl, fun _ => rfl⟩
      · rename_i hn
        cases h
        exact ⟨rfl, fun h => absurd h hn⟩
  · have : key = none := by simpa using hk
    subst this
    split at h
    · cases h; exact ⟨rfl, fun _ => rfl⟩
    · split at h
      · cases h; exact ⟨rfl, fun _ => rfl⟩
      · cases h
  · have : key = none := by simpa using hk
    subst this
    split at h
    · cases h; exact ⟨rfl, fun _ => rfl⟩
    · cases h; exact ⟨rfl, fun _ => rfl⟩
  · have : key = none := by simpa using hk
    subst this
    split at h
    · split at h
      · cases h
      · cases h; exact ⟨rfl, fun _ => rfl⟩
      · cases h
      · cases h
    · cases h; exact ⟨rfl, fun _ => rfl⟩

/-- What the `switch` allocates and releases. -/
theorem step_ok {cp : Str → Bool → Run Content.BSt} {m : Int} {src : Str} {current : Nat} {st : Source.St} {c : Byte}
    {l : InUse} {n : Nat} {e : Thing} (he : IsErr e) (hl : Free l (own n)) (hle : l e = false) (hk : KeyInv st) :
    (∀ st', Source.step cp m src current st c = .ok (.ok st') →
      inUse (stepEvents cp e n m src current st (Source.step cp m src current st c)) (plus l (held n st.key.isSome)) =
        some (plus l (held n st'.key.isSome))) ∧
    (∀ er, Source.step cp m src current st c = .ok (.error er) →
      inUse (stepEvents cp e n m src current st (Source.step cp m src current st c)) (plus l (held n st.key.isSome)) =
        some (plus l (e :: held n (keyAfter st er)))) := by
  have hl' := hl
  simp only [Free, own, List.forall_mem_cons] at hl'
  obtain ⟨start, key, rv, state⟩ := st
  unfold KeyInv at hk
  have hne : e ≠ .key n ∧ e ≠ .table n := by
    rcases he with rfl | rfl <;> simp
  cases state <;> simp only [Source.step, stepEvents]
  · have : key = none := by simpa using hk
    subst this
    split
    · exact ⟨fun st' h => by cases h; rfl, fun er h => by cases h⟩
    · split
      · exact ⟨fun st' h => by cases h; rfl, fun er h => by cases h⟩
      · split
        · exact ⟨fun st' h => by cases h; rfl, fun er h => by cases h⟩
        · refine ⟨fun st' h => (by cases h), fun er h => ?_⟩
          cases h
          simp only [held, keyAfter, Option.isSome_none, Bool.false_eq_true, if_false]
          rw [do_acquire hle (by simp [hne.2]), inUse_nil]
  · have : key = none := by simpa using hk
    subst this
    split
    · exact ⟨fun st' h => by cases h; rfl, fun er h => by cases h⟩
    · split
      · split
        · refine ⟨fun st' h => (by cases h), fun er h => ?_⟩
          cases h
          simp only [held, keyAfter, Option.isSome_none, Bool.false_eq_true, if_false, if_true]
          rw [do_acquire hl'.2.1 (by simp), do_acquire hle (by simp [hne]), do_use (.inr (by simp)), inUse_nil]
          exact congrArg some (plus_congr fun x => by simp [or_comm, or_left_comm])
        · refine ⟨fun st' h => ?_, fun er h => by cases h⟩
          cases h
          simp only [held, Option.isSome_none, Bool.false_eq_true, if_false, if_true, Option.isSome_some]
          rw [do_acquire hl'.2.1 (by simp), inUse_nil]
          exact congrArg some (plus_congr fun x => by simp [or_comm])
      · refine ⟨fun st' h => (by cases h), fun er h => ?_⟩
        cases h
        simp only [held, keyAfter, Option.isSome_none, Bool.false_eq_true, if_false]
        rw [do_acquire hle (by simp [hne.2]), inUse_nil]
  · cases key with
    | none => simp at hk
    | some k =>
      split
      · exact ⟨fun st' h => by cases h; rfl, fun er h => by cases h⟩
      · refine ⟨fun st' h => ?_, fun er h => by cases h⟩
        cases h
        simp [Source.St.insert, held, do_acquire, do_release, do_use, do_give, hl', inUse_nil]
  · cases key with
    | none => simp at hk
    | some k =>
      split
      · refine ⟨fun st' h => ?_, fun er h => by cases h⟩
        cases h
        simp [Source.St.insert, held, do_acquire, do_release, do_use, do_give, hl', inUse_nil]
      · exact ⟨fun st' h => by cases h; rfl, fun er h => by cases h⟩
  · have : key = none := by simpa using hk
    subst this
    split
    · exact ⟨fun st' h => by cases h; rfl, fun er h => by cases h⟩
    · split
      · exact ⟨fun st' h => by cases h; rfl, fun er h => by cases h⟩
      · refine ⟨fun st' h => (by cases h), fun er h => ?_⟩
        cases h
        simp only [held, keyAfter, Option.isSome_none, Bool.false_eq_true, if_false]
        rw [do_acquire hle (by simp [hne.2]), inUse_nil]
  · have : key = none := by simpa using hk
    subst this
    split <;> exact ⟨fun st' h => by cases h; rfl, fun er h => by cases h⟩
  · have : key = none := by simpa using hk
    subst this
    split
    · simp only [Source.finishContent]
      cases hcp : cp (cstr (src.drop start))
          (decide (((rv.insert b!"RAW_CONTENT" (cstr (src.drop start))).1.lookup b!"TOCTREE") = none)) with
      | ub => exact ⟨fun st' h => (by cases h), fun er h => by cases h⟩
      | out => exact ⟨fun st' h => (by cases h), fun er h => by cases h⟩
      | ok r =>
        have hc := content_ok he hl hle m (rv.insert b!"RAW_CONTENT" (cstr (src.drop start))).1 r
        simp only [Run.bind_ok]
        cases ha : Source.addResults m (rv.insert b!"RAW_CONTENT" (cstr (src.drop start))).1 r with
        | ub => exact ⟨fun st' h => (by cases h), fun er h => by cases h⟩
        | out => exact ⟨fun st' h => (by cases h), fun er h => by cases h⟩
        | ok y =>
          cases y with
          | ok t => exact ⟨fun st' h => by cases h; exact hc.1 t ha, fun er h => by cases h⟩
          | error er =>
            refine ⟨fun st' h => (by cases h), fun er' h => ?_⟩
            cases h
            rw [show keyAfter ⟨start, none, rv, .content⟩ er = false from ?_]
            · exact hc.2 er ha
            · have : ∃ v, er = .invalidMaxdepth v := by
                revert ha
                unfold Source.addResults
                generalize Source.insertNew (Source.insertNew _ _ _) _ _ = t
                intro ha
                split at ha
                · cases ha
                · rename_i er' hx
                  cases ha
                  unfold Source.tableOfContents at hx
                  split at hx
                  · cases hx
                  · split at hx
                    · split at hx
                      · cases hx
                        exact ⟨_, rfl⟩
                      · revert hx
                        unfold Source.insertToc
                        split <;> intro hx <;> cases hx
                    · revert hx
                      unfold Source.insertToc
                      split <;> intro hx <;> cases hx
                · cases ha
                · cases ha
              obtain ⟨v, rfl⟩ := this
              rfl
    · exact ⟨fun st' h => by cases h; rfl, fun er h => by cases h⟩

theorem finish_ok {st : Source.St} (current : Nat) {l : InUse} {n : Nat} {e : Thing} (he : IsErr e) (hl : Free l (own n))
    (hle : l e = false) :
    (∀ t, Source.finish current st = .ok t →
      inUse (finishEvents e n current st) (plus l (held n st.key.isSome)) = some (plus l (held n st.key.isSome))) ∧
    (∀ er, Source.finish current st = .error er →
      inUse (finishEvents e n current st) (plus l (held n st.key.isSome)) = some (plus l [e])) := by
  unfold finishEvents
  cases h : Source.finish current st with
  | ok t => exact ⟨fun _ _ => rfl, fun _ h => (by cases h)⟩
  | error er =>
    refine ⟨fun _ h => (by cases h), fun _ _ => ?_⟩
    have hne : e ∉ held n st.key.isSome := by
      rcases he with rfl | rfl <;> cases st.key <;> simp [held]
    simp only [List.cons_append, List.nil_append]
    rw [do_acquire hle hne]
    have hu : inUse ((if st.key.isSome then [Event.use (.key n)] else []) ++ giveUp n st.key.isSome)
        (plus l (e :: held n st.key.isSome)) = inUse (giveUp n st.key.isSome) (plus l (e :: held n st.key.isSome)) := by
      cases st.key with
      | none => rfl
      | some k => exact do_use (.inr (by simp [held])) _
    rw [hu, giveUp_ok he hl]

theorem loop_ok {cp : Str → Bool → Run Content.BSt} {m : Int} {src : Str} {l : InUse} {n : Nat} {e : Thing} (he : IsErr e)
    (hl : Free l (own n)) (hle : l e = false) : ∀ (rest : Str) (current : Nat) (st : Source.St), KeyInv st →
    (∀ t, Source.loop cp m src rest current st = .ok (.ok t) → ∃ k,
      inUse (loopEvents cp e n m src rest current st) (plus l (held n st.key.isSome)) = some (plus l (held n k)) ∧
      (rest = [] → k = st.key.isSome) ∧ ∀ c, rest.getLast? = some c → Source.isNl c = true → k = false) ∧
    (∀ er, Source.loop cp m src rest current st = .ok (.error er) →
      inUse (loopEvents cp e n m src rest current st) (plus l (held n st.key.isSome)) = some (plus l [e]))
  | [], current, st, _ => by
    have h := finish_ok (st := st) current he hl hle
    refine ⟨fun t ht => ⟨_, h.1 t (by simpa [Source.loop] using ht), fun _ => rfl, fun c hc => by cases hc⟩, fun er hr => h.2 er ?_⟩
    simpa [Source.loop] using hr
  | c :: rest, current, st, hk => by
    have hs := step_ok (cp := cp) (m := m) (src := src) (current := current) (st := st) (c := c) he hl hle hk
    simp only [Source.loop, loopEvents, inUse_append]
    cases hstep : Source.step cp m src current st c with
    | ub => exact ⟨fun _ h => (by cases h), fun _ h => (by cases h)⟩
    | out => exact ⟨fun _ h => (by cases h), fun _ h => (by cases h)⟩
    | ok y =>
      rw [hstep] at hs
      cases y with
      | error er =>
        refine ⟨fun _ h => (by cases h), fun _ _ => ?_⟩
        simp only [hs.2 er rfl, Option.bind_some]
        exact giveUp_ok he hl _
      | ok st' =>
        have hk' := step_key hk hstep
        have ih := loop_ok (cp := cp) (m := m) (src := src) he hl hle rest (current + 1) st' hk'.1
        simp only [hs.1 st' rfl, Option.bind_some]
        refine ⟨fun t ht => ?_, ih.2⟩
        obtain ⟨k, h1, h2, h3⟩ := ih.1 t ht
        refine ⟨k, h1, fun h => (by cases h), fun d hd hn => ?_⟩
        cases rest with
        | nil =>
          cases hd
          rw [h2 rfl, hk'.2 hn]
          rfl
        | cons a as => exact h3 d (by rwa [List.getLast?_cons_cons] at hd) hn

/-- Parsing leaves the table, and the key if the text breaks off in a line of a variable; after an error, only the error. -/
theorem parse_ok (cp : Str → Bool → Run Content.BSt) (m : Int) (src : Str) {l : InUse} {n : Nat} {e : Thing} (he : IsErr e)
    (hl : Free l (own n)) (hle : l e = false) :
    (∀ t, Source.parse cp src m = .ok (.ok t) → ∃ k,
      inUse (parseEvents cp e n src m) l = some (plus l (held n k)) ∧
      ∀ c, src.getLast? = some c → Source.isNl c = true → k = false) ∧
    (∀ er, Source.parse cp src m = .ok (.error er) → inUse (parseEvents cp e n src m) l = some (plus l [e])) := by
  have h := loop_ok (cp := cp) (m := m) (src := src) he hl hle src 0 Source.St.init rfl
  have hh : held n Source.St.init.key.isSome = [.table n] := rfl
  have hi : inUse (parseEvents cp e n src m) l = inUse (loopEvents cp e n m src src 0 Source.St.init) (plus l [.table n]) := by
    have := do_acquire (xs := []) (hl (.table n) (by simp [own])) (by simp) (loopEvents cp e n m src src 0 Source.St.init)
    rwa [plus_nil] at this
  rw [hi, ← hh]
  refine ⟨fun t ht => ?_, fun er hr => h.2 er hr⟩
  obtain ⟨k, h1, -, h3⟩ := h.1 t ht
  exact ⟨k, h1, h3⟩

/-! ## Reading a source file -/

/-- The things used for a file. -/
def ownFile (n : Nat) : List Thing := [.file, .text, .nameCopy, .filename] ++ own n

theorem Free.plus {l : InUse} {xs ys : List Thing} (h : Free l xs) (hd : ∀ x ∈ xs, x ∉ ys) : Free (plus l ys) xs := by
  intro x hx
  simp [BlogcMem.plus, h x hx, hd x hx]

theorem Free.sub {l : InUse} {xs ys : List Thing} (h : Free l xs) (hd : ∀ x ∈ ys, x ∈ xs) : Free l ys :=
  fun x hx => h x (hd x hx)

/-- Reading a file leaves the table, and perhaps the key; after an error, only the error. -/
theorem source_ok {w : World} {m : Option Str} {f : Str} {l : InUse} {n : Nat} {e : Thing} (he : IsErr e)
    (hl : Free l (ownFile n)) (hle : l e = false) (hc : l .config = true) {r : Option (Trie Str)}
    (hr : Program.readSource w.files w.depth w.fuel m f = .ok r) :
    (r.isSome = true → ∃ k, inUse (sourceEvents w e n m f) l = some (plus l (held n k)) ∧
      ((∀ s, Program.readText w.files w.fuel f = .ok (some s) → ∃ c, s.getLast? = some c ∧ Source.isNl c = true) → k = false)) ∧
    (r = none → inUse (sourceEvents w e n m f) l = some (plus l [e])) := by
  have hl' := hl
  simp only [Free, ownFile, own, List.cons_append, List.nil_append, List.forall_mem_cons] at hl'
  have hne : e ≠ .text ∧ e ≠ .file ∧ e ∉ own n := by
    rcases he with rfl | rfl <;> simp [own]
  unfold Program.readSource at hr
  unfold sourceEvents readEvents
  cases ht : Program.readText w.files w.fuel f with
  | ub => rw [ht] at hr; cases hr
  | out => rw [ht] at hr; cases hr
  | ok s =>
    rw [ht] at hr
    cases s with
    | none =>
      have : r = none := by cases hr; rfl
      subst this
      refine ⟨fun h => by simp at h, fun _ => ?_⟩
      cases w.files f with
      | none =>
        have := do_acquire (xs := []) hle (by simp) []
        rw [plus_nil] at this
        simpa [inUse_nil] using this
      | some b =>
        rw [← plus_nil l]
        simp [do_acquire, do_release, do_use, hl', inUse_nil, hle, hne]
        simp [plus_nil]
    | some s =>
      have hf : ∃ b, w.files f = some b := by
        cases hf : w.files f with
        | none => simp [Program.readText, hf] at ht
        | some b => exact ⟨b, rfl⟩
      obtain ⟨b, hf⟩ := hf
      simp only [hf, List.append_nil]
      have hfree : Free (plus l [.text]) (own n) := (hl.sub fun x hx => by simp [ownFile, hx]).plus (by simp [own])
      have hle' : plus l [.text] e = false := by simp [plus, hle, hne.1]
      have hp := parse_ok (Content.parse w.depth) (Program.maxdepthOf m) s he hfree hle'
      have h0 : ∀ rest, inUse ([.acquire .file, .acquire .text, .use .file, .use .text, .release .file] ++ rest) l =
          inUse rest (plus l [.text]) := by
        intro rest
        conv => lhs; rw [← plus_nil l]
        simp [do_acquire, do_release, do_use, hl']
      rw [h0]
      simp only [List.append_assoc]
      rw [List.singleton_append, do_use (.inl hc), inUse_append]
      simp only [Run.bind_ok] at hr
      cases hpp : Source.parse (Content.parse w.depth) s (Program.maxdepthOf m) with
      | ub => rw [hpp] at hr; cases hr
      | out => rw [hpp] at hr; cases hr
      | ok y =>
        rw [hpp] at hr hp
        cases y with
        | error er =>
          have : r = none := by cases hr; rfl
          subst this
          refine ⟨fun h => by simp at h, fun _ => ?_⟩
          rw [hp.2 er rfl]
          simp only [Option.bind_some, List.nil_append, plus_plus]
          rw [do_release hl'.2.1 (by simp), inUse_nil]
          simp [hne.1]
        | ok t =>
          have : r.isSome = true := by cases hr; rfl
          obtain ⟨k, h1, h2⟩ := hp.1 t rfl
          refine ⟨fun _ => ⟨k, ?_, fun h => ?_⟩, fun h => by simp [h] at this⟩
          · rw [h1]
            simp only [Option.bind_some, plus_plus, filenameEvents]
            cases k <;> cases getFilename (some f) <;>
              simp [held, do_acquire, do_release, do_use, do_give, hl', inUse_nil]
          · obtain ⟨c, hc, hn⟩ := h s rfl
            exact h2 c hc hn

end Blogc.BlogcMem
