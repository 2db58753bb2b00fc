import Verif.Lemmas.BlogcMemoryBody
import Verif.Props.C112

/-!
# Lemmas about the memory of blogc: the output, and a whole run
-/

namespace Blogc.BlogcMem

open Blogc Blogc.Spec.Account

theorem read_ok {w : World} {t : Str} {l : InUse} (hl : Base l) {xs : List Thing} (h1 : .file ∉ xs) (h2 : .text ∉ xs)
    (h3 : .err ∉ xs) (r : List Event) :
    (∀ s, Program.readText w.files w.fuel t = .ok (some s) →
      inUse (readEvents w .err t ++ r) (plus l xs) = inUse r (plus l (.text :: xs))) ∧
    (Program.readText w.files w.fuel t = .ok none →
      inUse (readEvents w .err t ++ r) (plus l xs) = inUse r (plus l (.err :: xs))) := by
  unfold readEvents
  cases hf : w.files t with
  | none =>
    have hr : Program.readText w.files w.fuel t = .ok none := by simp only [Program.readText, hf]
    rw [hr]
    refine ⟨fun s h => (by cases h), fun _ => ?_⟩
    simp only [List.cons_append, List.nil_append]
    rw [do_acquire (hl.off rfl) h3]
  | some bytes =>
    have hpre : ∀ r, inUse ([.acquire .file, .acquire .text, .use .file, .use .text, .release .file] ++ r) (plus l xs) =
        inUse r (plus l (.text :: xs)) := by
      intro r
      simp only [List.cons_append, List.nil_append]
      rw [do_acquire (hl.off rfl) h1, do_acquire (hl.off rfl) (by simp [h2]), do_use (.inr (by simp)), do_use (.inr (by simp)),
        do_release (hl.off rfl) (by simp)]
      congr 1
      refine plus_congr fun x => ?_
      simp only [List.mem_filter, List.mem_cons]
      grind
    refine ⟨fun s h => ?_, fun h => ?_⟩
    · simp only [h, List.append_nil]
      exact hpre r
    · simp only [h, List.append_assoc]
      rw [hpre]
      simp only [List.cons_append, List.nil_append]
      rw [do_acquire (hl.off rfl) (by simp [h3]), do_release (hl.off rfl) (by simp)]
      congr 1
      refine plus_congr fun x => ?_
      simp only [List.mem_filter, List.mem_cons]
      grind

/-- Writing the page. -/
theorem write_ok {disk : Disk} {s : Slots} {o : Main.Opts} {hasOut : Bool} {l : InUse} (hl : Base l)
    (hs : ∀ x ∈ slotThings s, l x = true) {xs : List Thing} (h1 : .dirName ∉ xs) (h2 : .outFile ∉ xs)
    (h3 : hasOut = true → .out ∈ xs) :
    ((writeEvents disk s o hasOut).1 = false → ∀ r,
      inUse ((writeEvents disk s o hasOut).2 ++ r) (plus l xs) = inUse r (plus l xs)) ∧
    ((writeEvents disk s o hasOut).1 = true → disk = .noDirectory ∧
      ∃ l', inUse (writeEvents disk s o hasOut).2 (plus l xs) = some l') := by
  have hout : ∀ r, inUse ((if hasOut then [.use .out] else []) ++ r) (plus l xs) = inUse r (plus l xs) := by
    intro r
    cases hasOut
    · rfl
    · exact do_use (.inr (h3 rfl)) r
  unfold writeEvents
  cases hso : s.output with
  | none => exact ⟨fun _ r => hout r, fun h => by cases h⟩
  | some i =>
    have hi : l (.output i) = true := hs _ (by simp [slotThings, hso])
    have hpre : ∀ r, inUse ([.use (.output i), .acquire .dirName, .use .dirName, .release .dirName] ++ r) (plus l xs) =
        inUse r (plus l xs) := by
      intro r
      simp only [List.cons_append, List.nil_append]
      rw [do_use (.inl hi), do_acquire (hl.off rfl) h1, do_use (.inr (by simp)), do_release (hl.off rfl) (by simp)]
      congr 1
      refine plus_congr fun x => ?_
      simp only [List.mem_filter, List.mem_cons]
      grind
    simp only
    split
    · refine ⟨fun _ r => ?_, fun h => by cases h⟩
      simp only [List.cons_append, List.nil_append]
      rw [do_use (.inl hi), hout]
    · cases disk with
      | noDirectory =>
        refine ⟨fun h => (by cases h), fun _ => ⟨rfl, ?_⟩⟩
        have := hpre []
        rw [List.append_nil] at this
        exact ⟨_, this⟩
      | noFile =>
        refine ⟨fun _ r => ?_, fun h => by cases h⟩
        rw [List.append_assoc, hpre, List.singleton_append, do_use (.inl hi)]
      | fine =>
        refine ⟨fun _ r => ?_, fun h => by cases h⟩
        simp only [List.append_assoc]
        rw [hpre, List.singleton_append, do_acquire (hl.off rfl) h2]
        have hout' : ∀ r, inUse ((if hasOut then [.use .out] else []) ++ r) (plus l (.outFile :: xs)) =
            inUse r (plus l (.outFile :: xs)) := by
          intro r
          cases hasOut
          · rfl
          · exact do_use (.inr (List.mem_cons_of_mem _ (h3 rfl))) r
        rw [hout', List.cons_append, List.cons_append, List.nil_append, do_use (.inr (by simp)),
          do_release (hl.off rfl) (by simp)]
        congr 1
        refine plus_congr fun x => ?_
        simp only [List.mem_filter, List.mem_cons]
        grind

/-- Rendering and writing the page. -/
theorem ast_ok {disk : Disk} {s : Slots} {o : Main.Opts} {ts : List Nat} {l : InUse} (hl : Base l) (hc : l .config = true)
    (hs : ∀ x ∈ slotThings s, l x = true) {xs : List Thing} (ht : ∀ i ∈ ts, .table i ∈ xs) (x2 : .text ∉ xs) (x3 : .err ∉ xs)
    (x5 : .ast ∉ xs) (x6 : .out ∉ xs) (x7 : .outFile ∉ xs) (x8 : .dirName ∉ xs)
    {p : Res (Except Template.Err (List Template.Node))} (hp : p ≠ .ub) :
    ((astEvents disk s o ts p).2.1 = false → ∀ r,
      inUse ((astEvents disk s o ts p).2.2 ++ r) (plus l (.text :: xs)) =
        inUse r (plus l ((if (astEvents disk s o ts p).1 then [.err] else []) ++ xs))) ∧
    ((astEvents disk s o ts p).2.1 = true → disk = .noDirectory ∧
      ∃ l', inUse (astEvents disk s o ts p).2.2 (plus l (.text :: xs)) = some l') := by
  unfold astEvents
  cases p with
  | ub => exact absurd rfl hp
  | ok p =>
    cases p with
    | error e =>
      refine ⟨fun _ r => ?_, fun h => by cases h⟩
      simp only [List.cons_append, List.nil_append, if_true]
      rw [do_use (.inr (by simp)), do_acquire (hl.off rfl) (by simp [x3]),
        do_release (hl.off rfl) (by simp), do_use (.inr (by simp))]
      congr 1
      refine plus_congr fun x => ?_
      simp only [List.mem_filter, List.mem_cons]
      grind
    | ok ns =>
      cases ns with
      | nil =>
        simp only [List.cons_append, List.nil_append, Bool.false_eq_true, if_false]
        have hpre : ∀ r, inUse (.use .text :: .release .text :: r) (plus l (.text :: xs)) = inUse r (plus l xs) := by
          intro r
          rw [do_use (.inr (by simp)), do_release (hl.off rfl) (by simp)]
          congr 1
          refine plus_congr fun x => ?_
          simp only [List.mem_filter, List.mem_cons]
          grind
        obtain ⟨w1, w2⟩ := write_ok (disk := disk) (s := s) (o := o) (hasOut := false) hl hs x8 x7 (by simp)
        refine ⟨fun h r => ?_, fun h => ?_⟩
        · rw [hpre, w1 h]
        · rw [hpre]
          exact w2 h
      | cons n ns =>
        simp only [List.append_assoc, List.cons_append, List.nil_append, Bool.false_eq_true, if_false]
        have hpre : ∀ r, inUse (.use .text :: .acquire .ast :: .release .text :: .use .ast :: .use .config ::
            (ts.map (fun n => .use (.table n)) ++ .acquire .out :: r)) (plus l (.text :: xs)) =
            inUse r (plus l (.out :: .ast :: xs)) := by
          intro r
          have e : ∀ r, inUse r (plus l (List.filter (fun x => decide (x ≠ .text)) (.ast :: .text :: xs))) =
              inUse r (plus l (.ast :: xs)) := by
            intro r
            congr 1
            refine plus_congr fun x => ?_
            simp only [List.mem_filter, List.mem_cons]
            grind
          rw [do_use (.inr (by simp)), do_acquire (hl.off rfl) (by simp [x5]),
            do_release (hl.off rfl) (by simp), e, do_use (.inr (by simp)), do_use (.inl hc),
            tables_used ts (fun i hi => List.mem_cons_of_mem _ (ht i hi)), do_acquire (hl.off rfl) (by simp [x6])]
        obtain ⟨w1, w2⟩ := write_ok (disk := disk) (s := s) (o := o) (hasOut := true) hl hs
          (xs := .out :: .ast :: xs) (by simp [x8]) (by simp [x7]) (by simp)
        refine ⟨fun h r => ?_, fun h => ?_⟩
        · rw [hpre, w1 h, h]
          simp only [Bool.false_eq_true, if_false, List.cons_append, List.nil_append]
          rw [do_release (hl.off rfl) (by simp), do_release (hl.off rfl) (by simp)]
          congr 1
          refine plus_congr fun x => ?_
          simp only [List.mem_filter, List.mem_cons]
          grind
        · rw [hpre, h]
          simp only [if_true, List.append_nil]
          exact w2 h

/-- Printing a variable, or making the page. -/
theorem output_ok {w : World} {disk : Disk} {s : Slots} {o : Main.Opts} {found : Bool} {ts : List Nat} {l : InUse}
    (hl : Base l) (hc : l .config = true) (hs : ∀ x ∈ slotThings s, l x = true) {xs : List Thing}
    (ht : ∀ i ∈ ts, .table i ∈ xs)
    (hx : ∀ x ∈ [Thing.file, .text, .err, .value, .ast, .out, .outFile, .dirName], x ∉ xs)
    (htm : ∀ t, o.template = some t → ∃ r, Program.readTemplate w.files w.fuel t = .ok r) :
    ((outputEvents w disk s o found ts).2.1 = false → ∀ r,
      inUse ((outputEvents w disk s o found ts).2.2 ++ r) (plus l xs) =
        inUse r (plus l ((if (outputEvents w disk s o found ts).1 then [.err] else []) ++ xs))) ∧
    ((outputEvents w disk s o found ts).2.1 = true → disk = .noDirectory ∧
      ∃ l', inUse (outputEvents w disk s o found ts).2.2 (plus l xs) = some l') := by
  simp only [List.forall_mem_cons] at hx
  obtain ⟨x1, x2, x3, x4, x5, x6, x7, x8, -⟩ := hx
  unfold outputEvents
  cases hp : s.print with
  | some i =>
    have hi : l (.print i) = true := hs _ (by simp [slotThings, hp])
    refine ⟨fun _ r => ?_, fun h => by cases h⟩
    simp only [List.append_assoc, List.cons_append, List.nil_append, Bool.false_eq_true, if_false]
    rw [do_use (.inl hi), do_use (.inl hc), tables_used ts ht]
    cases found with
    | false => rfl
    | true =>
      simp only [if_true, List.cons_append, List.nil_append]
      rw [do_acquire (hl.off rfl) x4, do_use (.inr (by simp)), do_release (hl.off rfl) (by simp)]
      congr 1
      refine plus_congr fun x => ?_
      simp only [List.mem_filter, List.mem_cons]
      grind
  | none =>
    simp only
    cases hst : s.template with
    | none => exact ⟨fun _ r => rfl, fun h => by cases h⟩
    | some i =>
      have hi : l (.template i) = true := hs _ (by simp [slotThings, hst])
      cases hot : o.template with
      | none => exact ⟨fun _ r => rfl, fun h => by cases h⟩
      | some t =>
        obtain ⟨rt, hrt⟩ := htm t hot
        have hread := fun r => read_ok (w := w) (t := t) hl x1 x2 x3 r
        simp only [List.append_assoc, List.cons_append, List.nil_append]
        simp only [do_use (.inl hi)]
        unfold Program.readTemplate at hrt
        have htx : Program.readText w.files w.fuel t = .ok none ∨
            ∃ text, Program.readText w.files w.fuel t = .ok (some text) ∧ Template.parse text ≠ .ub := by
          revert hrt
          cases Program.readText w.files w.fuel t with
          | ub => exact fun h => by cases h
          | out => exact fun h => by cases h
          | ok text =>
            cases text with
            | none => exact fun _ => .inl rfl
            | some text =>
              refine fun h => .inr ⟨text, rfl, fun e => ?_⟩
              simp only [Run.bind_ok, e] at h
              cases h
        rcases htx with htx | ⟨text, htx, hub⟩
        · simp only [htx]
          refine ⟨fun _ r => ?_, fun h => by cases h⟩
          rw [(hread _).2 htx]
          simp only [textEvents, List.cons_append, List.nil_append, if_true]
          rw [do_use (.inr (by simp))]
        · simp only [htx]
          have ha := ast_ok hl hc hs ht x2 x3 x5 x6 x7 x8 (disk := disk) (o := o) (p := Template.parse text) hub
          refine ⟨fun h r => ?_, fun h => ?_⟩
          · rw [(hread _).1 _ htx]
            exact ha.1 h r
          · rw [(hread _).1 _ htx]
            exact ha.2 h

/-! ## The list of sources on standard input -/

theorem rawLines_strip : ∀ (src : Str) (st : FileList.State) (line : Str),
    (rawLines st line src).map strip = FileList.loop st line src
  | [], st, line => by cases st <;> rfl
  | c :: rest, st, line => by
    cases st <;> simp only [rawLines, FileList.loop]
    all_goals
      repeat' split
      all_goals first | exact rawLines_strip rest _ _ | (rw [List.map_cons, rawLines_strip rest])

/-! ## A whole run -/

theorem Base.args {i : Nat} {lost : List Thing} {o : Main.Opts} {s : Slots} (hlost : ValuesBelow i lost) :
    Base (plus nothing (argState lost o s)) := by
  intro x hx
  have hx : x ∈ argState lost o s := by simpa [plus, nothing] using hx
  unfold argState at hx
  rcases List.mem_append.1 hx with h | h
  · obtain ⟨j, -, rfl | rfl | rfl⟩ := hlost x h <;> rfl
  · rw [List.cons_append, List.mem_cons] at h
    rcases h with rfl | h
    · rfl
    · rcases List.mem_append.1 h with h | h
      · rcases slots_mem h with ⟨j, rfl⟩ | ⟨j, rfl⟩ | ⟨j, rfl⟩ <;> rfl
      · rcases names_mem h with rfl | rfl <;> rfl

/-- What the files of a run must be. -/
structure FilesOk (w : World) (m : Option Str) (sources entries : List Str) (template : Option Str) : Prop where
  sources : ∀ f ∈ sources, Readable w m f
  entries : ∀ f ∈ entries, f ≠ [] → Readable w m f
  template : ∀ t, template = some t → ∃ r, Program.readTemplate w.files w.fuel t = .ok r

/-- The sources of a run. -/
def allSources (h : Host) (o : Main.Opts) : List Str :=
  o.sources ++ if o.stdin then FileList.parse (stdinRead [] h.stdin) else []

/-- What is left at the end: values and keys that were lost. -/
def Left (h : Host) (lost : List Thing) (ended : Prop) (l : InUse) : Prop :=
  h.disk ≠ .noDirectory → ∃ ys K n, l = plus nothing ys ∧ (∀ y ∈ ys, y ∈ K ∨ y ∈ lost) ∧ KeysBelow n K ∧ (ended → K = [])

theorem stdin_ok {h : Host} {o : Main.Opts} {s : Slots} {i : Nat} {lost : List Thing} (hlost : ValuesBelow i lost)
    (hs : ValuesBelow i (slotThings s)) (sources : List Str) (hsrc : sources = [] ↔ o.sources = [] ∧ stdinLines h o = []) (r : List Event) :
    inUse (stdinEvents h o ++ r) (plus nothing (argState lost o s)) =
      inUse r (plus nothing (argState lost { o with sources := sources } s)) := by
  have hin : Thing.input ∉ argState lost o s := argState_not hlost hs (by simp) (by simp) fun h => by
    rcases names_mem h with h | h <;> cases h
  unfold stdinEvents
  by_cases ho : o.stdin = true
  · simp only [ho, if_true, List.append_assoc, List.cons_append, List.nil_append]
    rw [do_acquire (nothing_off _) hin, do_use (.inr (by simp))]
    have hfin : ∀ zs, (∀ x, x ∈ zs ↔ x = .input ∨ x ∈ argState lost { o with sources := sources } s) →
        inUse (.release .input :: r) (plus nothing zs) = inUse r (plus nothing (argState lost { o with sources := sources } s)) := by
      intro zs hz
      rw [do_release (nothing_off _) ((hz _).2 (.inl rfl))]
      congr 1
      refine plus_congr fun x => ?_
      have : Thing.input ∉ argState lost { o with sources := sources } s := argState_not hlost hs (by simp) (by simp) fun h => by
        rcases names_mem h with h | h <;> cases h
      rw [List.mem_filter, hz]
      grind
    by_cases hl : stdinLines h o = []
    · rw [if_pos hl, List.nil_append]
      refine hfin _ fun x => ?_
      have : sources = [] ↔ o.sources = [] := by simp [hsrc, hl]
      simp [argState, nameThings, this]
    · rw [if_neg hl, List.singleton_append]
      have hne : sources ≠ [] := fun e => hl (hsrc.1 e).2
      unfold appendTo
      by_cases hos : o.sources = []
      · simp only [hos, List.isEmpty_nil, if_true]
        rw [do_acquire (nothing_off _) (by
          rw [List.mem_cons]
          rintro (h | h)
          · cases h
          · exact argState_not hlost hs (by simp) (by simp) (sources_not hos) h)]
        refine hfin _ fun x => ?_
        simp [argState, nameThings, hne, hos]
        grind
      · have hem : o.sources.isEmpty = false := by simpa using hos
        simp only [hem, Bool.false_eq_true, if_false]
        rw [do_use (.inr (by simp [argState, nameThings, hos]))]
        refine hfin _ fun x => ?_
        simp [argState, nameThings, hne, hos]
  · have hl : stdinLines h o = [] := by simp [stdinLines, ho]
    have : sources = [] ↔ o.sources = [] := by simp [hsrc, hl]
    simp [ho, argState, nameThings, this]

theorem rest_ok {h : Host} {w : World} {o : Main.Opts} {s : Slots} {i : Nat} {lost : List Thing} (hlost : ValuesBelow i lost)
    (hf : FilesOk w (o.config.lookup b!"TOCTREE_MAXDEPTH") o.sources o.entries o.template) :
    ∃ l, inUse (restEvents h w o s o.sources true) (plus nothing (argState lost o s)) = some l ∧
      Left h lost (∀ f ∈ o.sources ++ o.entries, Ended w f) l := by
  have hbase : Base (plus nothing (argState lost o s)) := Base.args hlost
  have hc : plus nothing (argState lost o s) .config = true := by simp [plus, argState]
  have hslot : ∀ x ∈ slotThings s, plus nothing (argState lost o s) x = true := by
    intro x hx
    simp [plus, argState, hx]
  unfold restEvents
  simp only
  split
  · obtain ⟨ys, h1, h2⟩ := end_ok (kept := []) (err := false) (s := s) (o := o) (es := []) (K := []) (lost := lost)
      (xs := argState lost o s) (by simp) (by simp) (by simp) (fun x => by simp [listed, entryThings])
    exact ⟨_, h2, fun _ => ⟨ys, [], 0, rfl, h1, (fun x hx => by cases hx), fun _ => rfl⟩⟩
  · obtain ⟨K, k1, k2, k3⟩ := files_ok (w := w) (stamp := h.stamp) (conf := o.config) hbase hc o.sources hf.sources
    cases hfe : (filesEvents w h.stamp o.config o.sources).1 with
    | none =>
      rw [hfe] at k3
      simp only at k3 ⊢
      rw [List.append_assoc, List.append_assoc, inUse_append, k3, Option.bind_some, List.singleton_append, do_use (.inr (by simp)),
        plus_plus]
      obtain ⟨ys, h1, h2⟩ := end_ok (kept := []) (err := true) (s := s) (o := o) (es := []) (K := K) (lost := lost)
        (xs := .err :: K ++ argState lost o s) (by simp) (by simp) (by simp) (fun x => by simp [listed, entryThings, or_assoc])
      exact ⟨_, h2, fun _ => ⟨ys, K, _, rfl, h1, k1, fun h => k2 fun f hf => h f (by simp [hf])⟩⟩
    | some ts =>
      rw [hfe] at k3
      simp only at k3 ⊢
      obtain ⟨n1, n2, k3⟩ := k3
      -- the entries
      have hent : ∃ K', KeysBelow (o.sources.length + o.entries.length) K' ∧ ((∀ f ∈ o.entries, Ended w f) → K' = []) ∧
          ((if o.listing then entryEvents w (o.config.lookup b!"TOCTREE_MAXDEPTH") o.sources.length [] o.entries
            else ([], false, [])).1.filterMap id).Nodup ∧
          (∀ i, some i ∈ (if o.listing then entryEvents w (o.config.lookup b!"TOCTREE_MAXDEPTH") o.sources.length [] o.entries
            else ([], false, [])).1 → o.sources.length ≤ i) ∧
          inUse (if o.listing then entryEvents w (o.config.lookup b!"TOCTREE_MAXDEPTH") o.sources.length [] o.entries
            else ([], false, [])).2.2 (plus (plus nothing (argState lost o s)) (K ++ listed .kept (ts.map (·.1)))) =
            some (plus (plus nothing (argState lost o s)) ((if (if o.listing then
              entryEvents w (o.config.lookup b!"TOCTREE_MAXDEPTH") o.sources.length [] o.entries
              else ([], false, [])).2.1 then [.err] else []) ++ K' ++ (K ++ listed .kept (ts.map (·.1))) ++
              entryThings (if o.listing then entryEvents w (o.config.lookup b!"TOCTREE_MAXDEPTH") o.sources.length [] o.entries
                else ([], false, [])).1)) := by
        have hnone : ∃ K', KeysBelow (o.sources.length + o.entries.length) K' ∧ ((∀ f ∈ o.entries, Ended w f) → K' = []) ∧
            ((([] : List (Option Nat)).filterMap id).Nodup) ∧ (∀ i, some i ∈ ([] : List (Option Nat)) → o.sources.length ≤ i) ∧
            inUse [] (plus (plus nothing (argState lost o s)) (K ++ listed .kept (ts.map (·.1)))) =
              some (plus (plus nothing (argState lost o s)) ([] ++ K' ++ (K ++ listed .kept (ts.map (·.1))) ++ entryThings [])) :=
          ⟨[], (fun x hx => by cases hx), fun _ => rfl, by simp, by simp, by simp [entryThings, inUse_nil]⟩
        cases hlist : o.listing with
        | false => exact hnone
        | true =>
          simp only [if_true]
          by_cases hes : o.entries = []
          · rw [hes] at hnone ⊢
            exact hnone
          · obtain ⟨K', e1, e2, e3, e4, e5⟩ := entries_ok (w := w) (m := o.config.lookup b!"TOCTREE_MAXDEPTH") hbase hc
              (by simp [plus, argState, nameThings, hes]) o.entries o.sources.length [] (K ++ listed .kept (ts.map (·.1)))
              hf.entries (fun x hx => by
                rcases List.mem_append.1 hx with hx | hx
                · obtain ⟨i, hi, e⟩ := k1 x hx
                  exact .inr ⟨i, hi, .inl e⟩
                · unfold listed at hx
                  rcases List.mem_append.1 hx with hx | hx
                  · exact .inl (opt_mem hx)
                  · obtain ⟨i, hi, rfl⟩ := List.mem_map.1 hx
                    exact .inr ⟨i, n2 i hi, .inr rfl⟩) (by simp) (by simp)
            refine ⟨K', e1, e2, e3, fun i hi => (e4 i hi).resolve_left (by simp), ?_⟩
            rw [← e5]
            simp [entryThings]
      obtain ⟨K', e1, e2, e3, e4, e5⟩ := hent
      generalize (if o.listing then entryEvents w (o.config.lookup b!"TOCTREE_MAXDEPTH") o.sources.length [] o.entries
        else ([], false, [])) = e at *
      have hdis : ∀ i ∈ ts.map (·.1), some i ∉ e.1 := fun i hi h => by
        have := n2 i hi
        have := e4 i h
        omega
      have hKK : KeysBelow (o.sources.length + o.entries.length) (K ++ K') := fun x hx =>
        (List.mem_append.1 hx).elim (k1.mono (Nat.le_add_right _ _) x) (e1 x)
      have hKe : (∀ f ∈ o.sources ++ o.entries, Ended w f) → K ++ K' = [] := fun h => by
        rw [k2 fun f hf => h f (by simp [hf]), e2 fun f hf => h f (by simp [hf])]
        rfl
      cases he : e.2.1 with
      | true =>
        simp only [if_true]
        rw [he] at e5
        rw [List.append_assoc, List.append_assoc, inUse_append, k3, Option.bind_some, inUse_append, e5, Option.bind_some, plus_plus]
        obtain ⟨ys, h1, h2⟩ := end_ok (kept := ts.map (·.1)) (err := true) (s := s) (o := o) (es := e.1) (K := K ++ K') (lost := lost)
          (xs := ([Thing.err] ++ K' ++ (K ++ listed .kept (ts.map (·.1))) ++ entryThings e.1) ++ argState lost o s) n1 e3 hdis
          (fun x => by simp only [List.mem_append, List.mem_singleton]; grind)
        exact ⟨_, h2, fun _ => ⟨ys, K ++ K', _, rfl, h1, hKK, hKe⟩⟩
      | false =>
        simp only [Bool.false_eq_true, if_false]
        rw [he] at e5
        simp only [Bool.false_eq_true, if_false, List.nil_append] at e5
        have hout := output_ok (w := w) (disk := h.disk) (s := s) (o := o) (found := h.found)
          (ts := ts.map (·.1) ++ e.1.filterMap id) hbase hc hslot
          (xs := K' ++ (K ++ listed .kept (ts.map (·.1))) ++ entryThings e.1)
          (fun i hi => by
            rcases List.mem_append.1 hi with hi | hi
            · refine List.mem_append_left _ (List.mem_append_right _ (List.mem_append_right _ ?_))
              unfold listed
              exact List.mem_append_right _ (List.mem_map_of_mem hi)
            · refine List.mem_append_right _ ?_
              unfold entryThings
              exact List.mem_append_right _ (List.mem_map_of_mem hi))
          (fun x hx hm => by
            have h1 : x ≠ .kept ∧ x ≠ .entrySources ∧ (∀ i, x ≠ .table i) ∧ ∀ i, x ≠ .key i := by
              simp only [List.mem_cons, List.not_mem_nil, or_false] at hx
              rcases hx with rfl | rfl | rfl | rfl | rfl | rfl | rfl | rfl <;> simp
            rcases List.mem_append.1 hm with hm | hm
            · rcases List.mem_append.1 hm with hm | hm
              · exact e1.plain h1.2.2.2 hm
              · rcases List.mem_append.1 hm with hm | hm
                · exact k1.plain h1.2.2.2 hm
                · unfold listed at hm
                  rcases List.mem_append.1 hm with hm | hm
                  · exact h1.1 (opt_mem hm)
                  · obtain ⟨i, -, e⟩ := List.mem_map.1 hm
                    exact h1.2.2.1 i e.symm
            · rcases entryThings_mem.1 hm with ⟨-, e⟩ | ⟨i, -, e⟩
              · exact h1.2.1 e
              · exact h1.2.2.1 i e)
          hf.template
        generalize outputEvents w h.disk s o h.found (ts.map (·.1) ++ e.1.filterMap id) = p at *
        rw [List.append_assoc, List.append_assoc, inUse_append, k3, Option.bind_some, inUse_append, e5, Option.bind_some]
        cases hp : p.2.1 with
        | true =>
          obtain ⟨hd, l', hl'⟩ := hout.2 hp
          simp only [if_true, List.append_nil]
          exact ⟨l', hl', fun hn => absurd hd hn⟩
        | false =>
          simp only [Bool.false_eq_true, if_false]
          rw [hout.1 hp, plus_plus]
          obtain ⟨ys, h1, h2⟩ := end_ok (kept := ts.map (·.1)) (err := p.1) (s := s) (o := o) (es := e.1) (K := K ++ K') (lost := lost)
            (xs := ((if p.1 then [Thing.err] else []) ++ (K' ++ (K ++ listed .kept (ts.map (·.1))) ++ entryThings e.1)) ++
              argState lost o s) n1 e3 hdis
            (fun x => by cases p.1 <;> simp only [List.mem_append, List.mem_singleton] <;> grind)
          exact ⟨_, h2, fun _ => ⟨ys, K ++ K', _, rfl, h1, hKK, hKe⟩⟩

theorem body_ok {h : Host} {w : World} {o : Main.Opts} {s : Slots} {i : Nat} {lost : List Thing} (hlost : ValuesBelow i lost)
    (hs : ValuesBelow i (slotThings s)) (hk : (stdinLines h o).all keepsAddress = true)
    (hf : FilesOk w (o.config.lookup b!"TOCTREE_MAXDEPTH") (allSources h o) o.entries o.template) :
    ∃ l, inUse (bodyEvents h w o s) (plus nothing (argState lost o s)) = some l ∧
      Left h lost (∀ f ∈ allSources h o ++ o.entries, Ended w f) l := by
  have hall : o.sources ++ (stdinLines h o).map strip = allSources h o := by
    unfold stdinLines allSources FileList.parse
    split
    · rw [rawLines_strip]
    · rfl
  unfold bodyEvents
  rw [stdin_ok hlost hs (allSources h o) (by rw [← hall]; simp), hall, hk]
  exact rest_ok (o := { o with sources := allSources h o }) hlost hf

/-- A whole run. -/
theorem main_ok {h : Host} {w : World} {args : List Str}
    (hk : ∀ o, Main.argLoop h.make none args (Main.initial h.version) = .ok (.ok o) →
      (stdinLines h o).all keepsAddress = true ∧
      FilesOk w (o.config.lookup b!"TOCTREE_MAXDEPTH") (allSources h o) o.entries o.template) :
    ∃ l, inUse (mainEvents h w args) nothing = some l ∧ (h.disk ≠ .noDirectory →
      ∃ ys K lost n, l = plus nothing ys ∧ (∀ y ∈ ys, y ∈ K ∨ y ∈ lost) ∧ KeysBelow n K ∧ ValuesBelow n lost ∧
        (Once none args {} → lost = []) ∧
        ((∀ o, Main.argLoop h.make none args (Main.initial h.version) = .ok (.ok o) →
          ∀ f ∈ allSources h o ++ o.entries, Ended w f) → K = [])) := by
  obtain ⟨lost, a1, a2, a3, a4⟩ := args_ok h.make args none 1 (Main.initial h.version) {} [] (by simp) (fun x hx => by cases hx)
    (fun x hx => by simp [slotThings] at hx)
  obtain ⟨b1, b2⟩ := args_same h.make args none 1 (Main.initial h.version) {} (by simp)
  have hinit : argState [] (Main.initial h.version) {} = [.config] := by
    simp [argState, slotThings, nameThings, Main.initial]
  rw [hinit] at a4
  have hpre : ∀ r, inUse ([.acquire .config] ++ putNew .config ++ r) nothing = inUse r (plus nothing [.config]) := by
    intro r
    have := do_acquire (l := nothing) (xs := []) (x := .config) rfl (by simp) (putNew .config ++ r)
    rw [plus_nil] at this
    rw [List.append_assoc, List.singleton_append, this, putNew_ok rfl (by simp) (.inr (by simp)) (by simp)]
  obtain ⟨r, hr⟩ := Main.argLoop_defined h.make args none (Main.initial h.version)
  unfold mainEvents
  simp only
  rw [List.append_assoc, hpre, inUse_append, a4, Option.bind_some]
  cases r with
  | error e =>
    rw [b2 e hr]
    simp only [if_true]
    obtain ⟨ys, h1, h2⟩ := end_ok (kept := []) (err := false) (s := (argEvents h.make none 1 args (Main.initial h.version) {}).2.2.1)
      (o := (argEvents h.make none 1 args (Main.initial h.version) {}).2.1) (es := []) (K := []) (lost := lost)
      (xs := argState lost (argEvents h.make none 1 args (Main.initial h.version) {}).2.1
        (argEvents h.make none 1 args (Main.initial h.version) {}).2.2.1) (by simp) (by simp) (by simp)
      (fun x => by simp [listed, entryThings])
    exact ⟨_, h2, fun _ => ⟨ys, [], lost, _, rfl, h1, (fun x hx => by cases hx), a1, a3, fun _ => rfl⟩⟩
  | ok o =>
    obtain ⟨c1, c2⟩ := b1 o hr
    obtain ⟨d1, d2⟩ := hk o hr
    rw [c1, c2]
    simp only [Bool.false_eq_true, if_false]
    obtain ⟨l, l1, l2⟩ := body_ok a1 a2 d1 d2
    refine ⟨l, l1, fun hd => ?_⟩
    obtain ⟨ys, K, n, e1, e2, e3, e4⟩ := l2 hd
    exact ⟨ys, K, lost, n + (1 + args.length), e1, e2, e3.mono (Nat.le_add_right _ _), a1.mono (Nat.le_add_left _ _), a3,
      fun h => e4 (h o hr)⟩

end Blogc.BlogcMem
