import Verif.Model.ServerMain
import Verif.Spec.ServerArgs
import Verif.Lemmas.Numbers
import Verif.Props.C56
import Verif.Props.C57

/-!
# C93: the web server listens where it is told to and serves what it is told to
-/

namespace Blogc.C93

open Blogc Blogc.ServerMain Blogc.ServerArgs

/-! ## The loop over the arguments -/

/-- The variables after an item. -/
def after (o : Opts) : Item → Opts
  | .host _ v => { o with host := some v }
  | .port _ v => { o with port := some v }
  | .threads _ v => { o with threads := strtoul v }
  | .root d => { o with docroot := some d }

theorem loop_opt (c : Byte) (hc : c = c!"t" ∨ c = c!"p" ∨ c = c!"m") (j : Bool) (v : Str) (hv : j = true → v ≠ [])
    (rest : List Str) (o : Opts) :
    argLoop none (opt [c!"-", c] j v ++ rest) o = argLoop none rest (withValue c v o) := by
  have hh : ¬ (c = c!"h" ∨ c = c!"v") := by rcases hc with rfl | rfl | rfl <;> decide
  cases j with
  | true =>
    have hv := hv rfl
    show argLoop none ((c!"-" :: c :: v) :: rest) o = _
    rw [argLoop, if_pos (by rfl)]
    simp only [List.tail_cons]
    rw [if_neg hh, if_pos hc, if_neg hv]
  | false =>
    show argLoop none ([c!"-", c] :: v :: rest) o = _
    rw [argLoop, if_pos (by rfl)]
    simp only [List.tail_cons]
    rw [if_neg hh, if_pos hc, if_pos trivial, argLoop]

theorem loop_item (i : Item) (hi : i.Ok) (rest : List Str) (o : Opts)
    (ho : i.root? = none ∨ o.docroot = none) :
    argLoop none (i.args ++ rest) o = argLoop none rest (after o i) := by
  cases i with
  | host j v => exact loop_opt c!"t" (by simp) j v hi rest o
  | port j v => exact loop_opt c!"p" (by simp) j v hi rest o
  | threads j v => exact loop_opt c!"m" (by simp) j v hi rest o
  | root d =>
    have ho : o.docroot = none := by rcases ho with h | h; cases h; exact h
    show argLoop none (d :: rest) o = _
    rw [argLoop, if_neg hi, if_neg (by simp [ho])]
    rfl

theorem loop_second (d : Str) (hd : (Item.root d).Ok) (rest : List Str) (o : Opts) (ho : o.docroot.isSome) :
    argLoop none (d :: rest) o = .error (.exit 1) := by
  rw [argLoop, if_neg hd, if_pos ho]

/-- The variables after all items. -/
def afterAll (o : Opts) (items : List Item) : Opts := items.foldl after o

theorem after_docroot (o : Opts) (i : Item) : (after o i).docroot = i.root?.or o.docroot := by
  cases i <;> rfl

theorem loop_items (items : List Item) (hi : ∀ i ∈ items, i.Ok) (rest : List Str) (o : Opts)
    (ho : (items.filterMap Item.root?).length + o.docroot.toList.length ≤ 1) :
    argLoop none (args items ++ rest) o = argLoop none rest (afterAll o items) := by
  induction items generalizing o with
  | nil => rfl
  | cons i items ih =>
    have e : args (i :: items) = i.args ++ args items := by simp [args]
    rw [e, List.append_assoc]
    have h1 : i.root? = none ∨ o.docroot = none := by
      cases h : i.root? with
      | none => exact Or.inl rfl
      | some d =>
        right
        rw [List.filterMap_cons_some h] at ho
        cases h2 : o.docroot with
        | none => rfl
        | some x => rw [h2] at ho; simp at ho
    rw [loop_item i (hi i (by simp)) _ _ h1, ih (fun j hj => hi j (by simp [hj]))]
    · rfl
    · rw [after_docroot]
      cases h : i.root? with
      | none =>
        rw [List.filterMap_cons_none h] at ho
        simpa using ho
      | some d =>
        rw [List.filterMap_cons_some h] at ho
        rw [List.length_cons] at ho
        simp only [Option.some_or, Option.toList_some, List.length_singleton]
        omega

theorem loop_twice (items : List Item) (hi : ∀ i ∈ items, i.Ok) (rest : List Str) (o : Opts)
    (ho : 1 < (items.filterMap Item.root?).length + o.docroot.toList.length) (hl : o.docroot.toList.length ≤ 1) :
    argLoop none (args items ++ rest) o = .error (.exit 1) := by
  induction items generalizing o with
  | nil => simp at ho; omega
  | cons i items ih =>
    have e : args (i :: items) = i.args ++ args items := by simp [args]
    rw [e, List.append_assoc]
    by_cases h1 : i.root? = none ∨ o.docroot = none
    · rw [loop_item i (hi i (by simp)) _ _ h1]
      apply ih (fun j hj => hi j (by simp [hj]))
      · rw [after_docroot]
        cases h : i.root? with
        | none =>
          rw [List.filterMap_cons_none h] at ho
          simpa using ho
        | some d =>
          have h2 : o.docroot = none := by rcases h1 with h1 | h1; rw [h] at h1; cases h1; exact h1
          rw [List.filterMap_cons_some h, h2] at ho
          simp only [Option.some_or, Option.toList_some, List.length_singleton]
          simpa using ho
      · rw [after_docroot]
        cases i.root? with
        | none => simpa using hl
        | some d => simp
    · rw [not_or] at h1
      cases i with
      | root d =>
        exact loop_second d (hi _ (by simp)) _ _ (by
          cases h : o.docroot with
          | none => exact absurd h h1.2
          | some x => rfl)
      | host => exact absurd rfl h1.1
      | port => exact absurd rfl h1.1
      | threads => exact absurd rfl h1.1

theorem last_cons (f : Item → Option Str) (i : Item) (items : List Item) :
    last f (i :: items) = (last f items).or (f i) := by
  unfold last
  cases h : f i with
  | none => rw [List.filterMap_cons_none h]; simp
  | some v =>
    rw [List.filterMap_cons_some h, List.getLast?_cons]
    cases (items.filterMap f).getLast? <;> rfl

theorem afterAll_eq (items : List Item) (o : Opts) :
    afterAll o items =
      { host := (last Item.host? items).or o.host
        port := (last Item.port? items).or o.port
        docroot := (last Item.root? items).or o.docroot
        threads := (last Item.threads? items).elim o.threads strtoul } := by
  induction items generalizing o with
  | nil => simp [afterAll, last]
  | cons i items ih =>
    show afterAll (after o i) items = _
    rw [ih, last_cons, last_cons, last_cons, last_cons]
    cases i <;> simp [after, Item.host?, Item.port?, Item.root?, Item.threads?] <;>
      cases last Item.threads? items <;> simp

/-! ## The property -/

/-- What the server does for a command line that gives the directories `roots`,
and a host, a port and a number of threads. -/
def meant (envHost envPort : Option Str) (items : List Item) : Outcome :=
  match items.filterMap Item.root? with
  | [dir] =>
    if 1 ≤ threads items ∧ threads items ≤ 1000 then
      .run ((last Item.host? items).getD (envHost.getD b!"127.0.0.1"))
        ((last Item.port? items).getD (envPort.getD b!"8080")) dir (threads items)
    else .exit 1
  | _ => .exit 1

/-- Whatever the order of the options and the directory, and whether values are
joined to the options or not: the server listens on the last host and the last
port given, or else on those of the environment, or else on 127.0.0.1 port 8080,
and serves the one directory given; with no directory, with two, or with a number
of threads outside of 1 … 1000 it refuses to start. -/
theorem listens_partial (envHost envPort : Option Str) (items : List Item) (hi : ∀ i ∈ items, i.Ok) :
    main envHost envPort (args items) = meant envHost envPort items := by
  unfold main meant
  have e : args items = args items ++ [] := by simp
  rw [e]
  by_cases h : (items.filterMap Item.root?).length ≤ 1
  · rw [loop_items items hi [] {} (by simpa using h), argLoop]
    simp only
    rw [afterAll_eq]
    simp only [Option.or_none]
    cases hr : items.filterMap Item.root? with
    | nil => simp [last, hr]
    | cons d l =>
      cases l with
      | cons d' l => rw [hr] at h; simp at h
      | nil =>
        have h2 : last Item.root? items = some d := by simp [last, hr]
        simp only [h2]
        show (if threads items = 0 ∨ 1000 < threads items then _ else _) = _
        by_cases ht : 1 ≤ threads items ∧ threads items ≤ 1000
        · rw [if_pos ht, if_neg (by omega)]
          rfl
        · rw [if_neg ht, if_pos (by omega)]
  · rw [loop_twice items hi [] {} (by simp; omega) (by simp)]
    simp only
    match hr : items.filterMap Item.root? with
    | [] => rfl
    | [d] => rw [hr] at h; simp at h
    | _ :: _ :: _ => rfl

/-- The options `-h` and `-v` end the program with status 0, and any other option
with status 1, whatever follows them. -/
theorem stops (envHost envPort : Option Str) (items : List Item) (hi : ∀ i ∈ items, i.Ok)
    (hr : (items.filterMap Item.root?).length ≤ 1) (c : Byte) (more : Str) (rest : List Str)
    (hc : c ≠ c!"t" ∧ c ≠ c!"p" ∧ c ≠ c!"m") :
    main envHost envPort (args items ++ (c!"-" :: c :: more) :: rest) =
      .exit (if c = c!"h" ∨ c = c!"v" then 0 else 1) := by
  unfold main
  rw [loop_items items hi _ {} (by simpa using hr), argLoop, if_pos (by rfl)]
  simp only [List.tail_cons]
  by_cases h : c = c!"h" ∨ c = c!"v"
  · rw [if_pos h, if_pos h]
  · rw [if_neg h, if_neg h, if_neg (by simp [hc])]

/-- Whatever the arguments, if the server starts then it serves one of the
arguments, with between 1 and 1000 threads. -/
theorem bounded (envHost envPort : Option Str) (as : List Str) (host port dir : Str) (n : Nat)
    (h : main envHost envPort as = .run host port dir n) : dir ∈ as ∧ 1 ≤ n ∧ n ≤ 1000 := by
  have key : ∀ (as : List Str) (p : Option Byte) (o o' : Opts), argLoop p as o = .ok o' →
      o'.docroot = o.docroot ∨ ∃ d ∈ as, o'.docroot = some d := by
    intro as
    induction as with
    | nil =>
      intro p o o' h
      left
      cases p with
      | none => rw [argLoop] at h; cases h; rfl
      | some c =>
        rw [argLoop] at h
        unfold withoutValue at h
        split at h
        · cases h
        · rename_i o2 h2
          cases h
          split at h2
          · cases h2; rfl
          · split at h2
            · cases h2; rfl
            · cases h2
    | cons a as ih =>
      have up : ∀ (p : Option Byte) (o1 o o' : Opts), argLoop p as o1 = .ok o' → o1.docroot = o.docroot →
          o'.docroot = o.docroot ∨ ∃ d ∈ a :: as, o'.docroot = some d := by
        intro p o1 o o' h e
        rcases ih p o1 o' h with h | ⟨d, hd, h⟩
        · exact Or.inl (h.trans e)
        · exact Or.inr ⟨d, by simp [hd], h⟩
      have wv : ∀ c v (o : Opts), (withValue c v o).docroot = o.docroot := by
        intro c v o
        unfold withValue
        split
        · rfl
        · split <;> rfl
      intro p o o' h
      cases p with
      | some c =>
        rw [argLoop] at h
        exact up _ _ _ _ h (wv _ _ _)
      | none =>
        rw [argLoop] at h
        split at h
        · split at h
          · cases h
          · split at h
            · cases h
            · split at h
              · split at h
                · exact up _ _ _ _ h rfl
                · exact up _ _ _ _ h (wv _ _ _)
              · cases h
        · split at h
          · cases h
          · rcases ih _ _ _ h with h | ⟨d, hd, h⟩
            · exact Or.inr ⟨a, by simp, h⟩
            · exact Or.inr ⟨d, by simp [hd], h⟩
  unfold main at h
  split at h
  · rename_i e he
    subst h
    exfalso
    have : ∀ (as : List Str) (p : Option Byte) (o : Opts) (e : Outcome), argLoop p as o = .error e →
        e = .undefined ∨ ∃ n, e = .exit n := by
      intro as
      induction as with
      | nil =>
        intro p o e h
        cases p with
        | none => rw [argLoop] at h; cases h
        | some c =>
          rw [argLoop] at h
          split at h
          · cases h; exact Or.inl rfl
          · cases h
      | cons a as ih =>
        intro p o e h
        cases p with
        | some c => rw [argLoop] at h; exact ih _ _ _ h
        | none =>
          rw [argLoop] at h
          split at h
          · split at h
            · cases h; exact Or.inr ⟨_, rfl⟩
            · split at h
              · cases h; exact Or.inr ⟨_, rfl⟩
              · split at h
                · split at h
                  · exact ih _ _ _ h
                  · exact ih _ _ _ h
                · cases h; exact Or.inr ⟨_, rfl⟩
          · split at h
            · cases h; exact Or.inr ⟨_, rfl⟩
            · exact ih _ _ _ h
    rcases this _ _ _ _ he with h | ⟨n, h⟩ <;> cases h
  · rename_i o ho
    split at h
    · cases h
    · rename_i d hd
      split at h
      · cases h
      · rename_i ht
        cases h
        refine ⟨?_, by omega, by omega⟩
        rcases key _ _ _ _ ho with h | ⟨d', hd', h⟩
        · rw [h] at hd; cases hd
        · rw [h] at hd; cases hd; exact hd'

theorem last_filter (f : Item → Option Str) (p : Item → Bool) (items : List Item)
    (h : ∀ i, p i = false → f i = none) : last f (items.filter p) = last f items := by
  have e : (items.filter p).filterMap f = items.filterMap f := by
    induction items with
    | nil => rfl
    | cons i items ih =>
      cases hp : p i with
      | true => rw [List.filter_cons_of_pos hp, List.filterMap_cons, List.filterMap_cons, ih]
      | false => rw [List.filter_cons_of_neg (by simp [hp]), List.filterMap_cons_none (h i hp), ih]
  unfold last
  rw [e]

theorem last_gone (f : Item → Option Str) (items : List Item) :
    last f (items.filter fun i => (f i).isNone) = none := by
  have e : (items.filter fun i => (f i).isNone).filterMap f = [] := by
    rw [List.filterMap_eq_nil_iff]
    intro i hi
    simpa using (List.mem_filter.1 hi).2
  unfold last
  rw [e]
  rfl

/-- An option `-t` or `-p` without its value at the end of the command line is not refused;
the host (the port) is then that of the environment, even if another one was given before. -/
theorem missing_value (envHost envPort : Option Str) (items : List Item) (hi : ∀ i ∈ items, i.Ok) :
    main envHost envPort (args items ++ [b!"-t"]) =
      meant envHost envPort (items.filter fun i => i.host?.isNone) ∧
    main envHost envPort (args items ++ [b!"-p"]) =
      meant envHost envPort (items.filter fun i => i.port?.isNone) := by
  have key : ∀ (c : Byte) (p : Item → Bool) (g : Opts → Opts), (∀ i, p i = false → i.root? = none) →
      (∀ i, p i = false → i.threads? = none) → c = c!"t" ∨ c = c!"p" →
      (∀ o, withoutValue c o = some (g o)) → (∀ o, (g o).docroot = o.docroot ∧ (g o).threads = o.threads) →
      (last Item.host? (items.filter p) = (g (afterAll {} items)).host) →
      (last Item.port? (items.filter p) = (g (afterAll {} items)).port) →
      main envHost envPort (args items ++ [[c!"-", c]]) = meant envHost envPort (items.filter p) := by
    intro c p g hroot hthr hc hw hg hh hp
    have e0 : (items.filter p).filterMap Item.root? = items.filterMap Item.root? := by
      clear hh hp hi
      induction items with
      | nil => rfl
      | cons i items ih =>
        cases hp : p i with
        | true => rw [List.filter_cons_of_pos hp, List.filterMap_cons, List.filterMap_cons, ih]
        | false => rw [List.filter_cons_of_neg (by simp [hp]), List.filterMap_cons_none (hroot i hp), ih]
    have e1 : threads (items.filter p) = threads items := by
      unfold threads
      rw [last_filter _ _ _ hthr]
    have stop : ∀ o, argLoop none [[c!"-", c]] o = .ok (g o) := by
      intro o
      have hh : ¬ (c = c!"h" ∨ c = c!"v") := by rcases hc with rfl | rfl <;> decide
      have h3 : c = c!"t" ∨ c = c!"p" ∨ c = c!"m" := by rcases hc with h | h <;> simp [h]
      rw [argLoop, if_pos (by rfl)]
      simp only [List.tail_cons]
      rw [if_neg hh, if_pos h3, if_pos trivial, argLoop, hw]
    unfold main meant
    rw [e0, e1, hh, hp]
    by_cases h : (items.filterMap Item.root?).length ≤ 1
    · rw [loop_items items hi _ {} (by simpa using h), stop]
      simp only
      rw [(hg _).1, (hg _).2]
      have e2 : (afterAll {} items).docroot = last Item.root? items := by rw [afterAll_eq]; simp
      have e3 : (afterAll {} items).threads = threads items := by rw [afterAll_eq]; rfl
      rw [e2, e3]
      cases hr : items.filterMap Item.root? with
      | nil => simp [last, hr]
      | cons d l =>
        cases l with
        | cons d' l => rw [hr] at h; simp at h
        | nil =>
          have h2 : last Item.root? items = some d := by simp [last, hr]
          simp only [h2]
          by_cases ht : 1 ≤ threads items ∧ threads items ≤ 1000
          · rw [if_pos ht, if_neg (by omega)]
          · rw [if_neg ht, if_pos (by omega)]
    · rw [loop_twice items hi _ {} (by simp; omega) (by simp)]
      simp only
      match hr : items.filterMap Item.root? with
      | [] => rfl
      | [d] => rw [hr] at h; simp at h
      | _ :: _ :: _ => rfl
  constructor
  · refine key c!"t" _ (fun o => { o with host := none }) ?_ ?_ (Or.inl rfl) (fun _ => rfl) (fun _ => ⟨rfl, rfl⟩)
      (last_gone _ _) ?_
    · intro i h; cases i <;> first | rfl | cases h
    · intro i h; cases i <;> first | rfl | cases h
    · rw [last_filter _ _ _ (by intro i h; cases i <;> first | rfl | cases h), afterAll_eq]
      simp
  · refine key c!"p" _ (fun o => { o with port := none }) ?_ ?_ (Or.inr rfl) (fun _ => rfl) (fun _ => ⟨rfl, rfl⟩)
      ?_ (last_gone _ _)
    · intro i h; cases i <;> first | rfl | cases h
    · intro i h; cases i <;> first | rfl | cases h
    · rw [last_filter _ _ _ (by intro i h; cases i <;> first | rfl | cases h), afterAll_eq]
      simp

/-- An option without its value at the end of the command line is ignored (`-t`,
`-p`), but for the number of threads the behaviour is undefined. -/
theorem missing_value_violated (envHost envPort : Option Str) :
    main envHost envPort [b!"site", b!"-t"] = main envHost envPort [b!"site"] ∧
    main envHost envPort [b!"site", b!"-p"] = main envHost envPort [b!"site"] ∧
    main envHost envPort [b!"site", b!"-m"] = .undefined := ⟨rfl, rfl, rfl⟩

/-- A number of threads outside of 1 … 1000 is not always refused. -/
theorem negative_violated (envHost envPort : Option Str) :
    ∃ host port, main envHost envPort [b!"-m", b!"-18446744073709551612", b!"site"] = .run host port b!"site" 4 :=
  ⟨_, _, rfl⟩

/-! ## The rule of blogc-make -/

/-- The arguments of the command that blogc-make runs. -/
def given (host port threads : Option Str) (dir : Str) : List Item :=
  (host.map (Item.host false)).toList ++ (port.map (Item.port false)).toList ++
    (threads.map (Item.threads false)).toList ++ [.root dir]

/-- `blogc-make runserver:…` starts the server on exactly the host and the port of
its arguments, and with exactly that number of threads; and what it serves is the
output directory. -/
theorem rule_serves_partial (bin exe dir : Str) (hbin : Shell.words bin = some [exe]) (hd : NulFree dir)
    (habs : dir.head? = some c!"/") (envHost envPort : Option Str)
    (l : List (Str × Str)) (hl : C56.Plain l) (hne : l ≠ []) (hk : Spec.CKeys l) (hv : ∀ kv ∈ l, NulFree kv.2)
    (n : Nat) (h1 : 1 ≤ n) (h2 : n ≤ 1000)
    (hn : Spec.lastValue l b!"threads" = some (decNat n) ∨ Spec.lastValue l b!"threads" = none ∧ n = 20) :
    ∃ args serverArgs, Make.ruleParts (b!"runserver:" ++ C56.written l) = some (b!"runserver", some args) ∧
      Shell.words (Make.runserverCmd bin (args.lookup b!"host") (args.lookup b!"port") (args.lookup b!"threads") dir) =
        some (exe :: serverArgs) ∧
      main envHost envPort serverArgs =
        .run ((Spec.lastValue l b!"host").getD (envHost.getD b!"127.0.0.1"))
          ((Spec.lastValue l b!"port").getD (envPort.getD b!"8080")) dir n := by
  obtain ⟨t, ht, hlook⟩ := C56.rule_parsed b!"runserver" (by decide) l hl hne hk
  have hmem : ∀ k v, Spec.lastValue l k = some v → NulFree v := by
    intro k v h
    unfold Spec.lastValue at h
    obtain ⟨kv, h1, rfl⟩ := Option.map_eq_some_iff.1 h
    exact hv kv (List.mem_reverse.1 (List.mem_of_find?_eq_some h1))
  have e1 : t.lookup b!"host" = Spec.lastValue l b!"host" := hlook _ (by decide)
  have e2 : t.lookup b!"port" = Spec.lastValue l b!"port" := hlook _ (by decide)
  have e3 : t.lookup b!"threads" = Spec.lastValue l b!"threads" := hlook _ (by decide)
  refine ⟨t, args (given (Spec.lastValue l b!"host") (Spec.lastValue l b!"port") (Spec.lastValue l b!"threads") dir),
    ht, ?_, ?_⟩
  · rw [e1, e2, e3, C57.runserver_command bin exe _ _ _ dir hbin (fun v h => hmem _ v h) (fun v h => hmem _ v h)
      (fun v h => hmem _ v h) hd]
    unfold given
    cases Spec.lastValue l b!"host" <;> cases Spec.lastValue l b!"port" <;>
      cases Spec.lastValue l b!"threads" <;> rfl
  · rw [listens_partial]
    · have hu : strtoul (decNat n) = n := strtoul_decNat n (by omega)
      have ht : threads (given (Spec.lastValue l b!"host") (Spec.lastValue l b!"port")
          (Spec.lastValue l b!"threads") dir) = n := by
        rcases hn with hn | ⟨hn, h20⟩
        · rw [hn]
          refine Eq.trans ?_ hu
          cases Spec.lastValue l b!"host" <;> cases Spec.lastValue l b!"port" <;> rfl
        · rw [hn, h20]
          cases Spec.lastValue l b!"host" <;> cases Spec.lastValue l b!"port" <;> rfl
      have hr : (given (Spec.lastValue l b!"host") (Spec.lastValue l b!"port")
          (Spec.lastValue l b!"threads") dir).filterMap Item.root? = [dir] := by
        cases Spec.lastValue l b!"host" <;> cases Spec.lastValue l b!"port" <;>
          cases Spec.lastValue l b!"threads" <;> rfl
      unfold meant
      rw [hr, ht]
      simp only
      rw [if_pos ⟨h1, h2⟩]
      cases Spec.lastValue l b!"host" <;> cases Spec.lastValue l b!"port" <;>
        cases Spec.lastValue l b!"threads" <;> rfl
    · have hroot : (Item.root dir).Ok := by
        show dir.head? ≠ some c!"-"
        rw [habs]; decide
      unfold given
      cases Spec.lastValue l b!"host" <;> cases Spec.lastValue l b!"port" <;>
        cases Spec.lastValue l b!"threads" <;> simp [Item.Ok] <;> exact hroot

/-! ## Samples -/

def sample : List Item :=
  [.port true b!"80", .root b!"_build", .host false b!"-x", .threads true b!"3", .port false b!"81"]

example : ∀ i ∈ sample, i.Ok := by decide
example : args sample = [b!"-p80", b!"_build", b!"-t", b!"-x", b!"-m3", b!"-p", b!"81"] := by decide
example : meant (some b!"::1") none sample = .run b!"-x" b!"81" b!"_build" 3 := by decide

def sampleArgs : List (Str × Str) := [(b!"port", b!"80"), (b!"threads", b!"7"), (b!"host", b!"my host")]

example : C56.written sampleArgs = b!"port=80,threads=7,host=my host" := by decide
example : C56.Plain sampleArgs ∧ Spec.CKeys sampleArgs ∧ (∀ kv ∈ sampleArgs, NulFree kv.2) ∧
    Spec.lastValue sampleArgs b!"threads" = some (decNat 7) := by
  refine ⟨?_, ?_, ?_, ?_⟩
  · unfold C56.Plain; decide
  · unfold Spec.CKeys; decide
  · decide
  · decide +kernel

end Blogc.C93
