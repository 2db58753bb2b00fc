import Verif.Lemmas.BlogcMemoryVars

/-!
# C115: a run of blogc gives back all it takes

`BlogcMem.mainEvents` are the allocations, uses and releases of a run; `Spec.Account.inUse` keeps account of
them: it gives nothing if something is used or released that is not in use, acquired twice, or released
by an address that was not returned.
-/

namespace Blogc.C115

open Blogc Blogc.Spec Blogc.Spec.Account Blogc.Spec.CommandValues Blogc.BlogcMem

/-- What a run reads: `o` is its command line. -/
structure Given (h : Host) (w : World) (o : Main.Opts) : Prop where
  /-- The files of sources and entries are manageable (C112). -/
  sources : ∀ f ∈ allSources h o ++ o.entries, ∀ bytes, w.files f = some bytes → ManageableSource (dropBom bytes)
  /-- The bounds of the model suffice for them and for the template. -/
  bounds : ∀ f bytes, w.files f = some bytes → bytes.length < w.depth ∧ bytes.length + 2 < w.fuel
  /-- No line with a name begins with `\v` or `\f`. -/
  lines : ∀ line ∈ stdinLines h o, line.head? ≠ some 11 ∧ line.head? ≠ some 12

/-- The options that a command line has, if it is accepted. -/
def Accepted (h : Host) (args : List Str) (o : Main.Opts) : Prop :=
  Main.argLoop h.make none args (Main.initial h.version) = .ok (.ok o)

/-- The last byte of a file is a line end. -/
def EndsLine (bytes : Str) : Prop := bytes.getLast? = some c!"\n" ∨ bytes.getLast? = some c!"\r"

theorem readable {w : World} (hb : ∀ f bytes, w.files f = some bytes → bytes.length < w.depth ∧ bytes.length + 2 < w.fuel) {f : Str}
    (hs : ∀ bytes, w.files f = some bytes → ManageableSource (dropBom bytes)) (m : Option Str) : Readable w m f := by
  cases hf : w.files f with
  | none => exact ⟨none, by simp only [Program.readSource, Program.readText, hf]; rfl⟩
  | some bytes => exact C112.source_partial w.files f bytes hf (hs bytes hf) m w.depth w.fuel (hb f bytes hf).1 (hb f bytes hf).2

theorem files_ok {h : Host} {w : World} {o : Main.Opts} (hg : Given h w o) (m : Option Str) :
    FilesOk w m (allSources h o) o.entries o.template where
  sources f hf := readable hg.bounds (hg.sources f (by simp [hf])) m
  entries f hf _ := readable hg.bounds (hg.sources f (by simp [hf])) m
  template t _ := C112.template_read w.files t w.fuel fun bytes hb => (hg.bounds t bytes hb).2

/-- The first byte of a line is none of those skipped before it. -/
theorem line_start : ∀ (src : Str) (st : FileList.State) (line : Str),
    (st = .line → ∃ c, line.head? = some c ∧ c ≠ c!" " ∧ c ≠ c!"\t" ∧ c ≠ c!"\r" ∧ c ≠ c!"\n") → (st ≠ .line → line = []) →
    ∀ l ∈ rawLines st line src, ∀ c, l.head? = some c → c ≠ c!" " ∧ c ≠ c!"\t" ∧ c ≠ c!"\r" ∧ c ≠ c!"\n"
  | [], st, line, _, _, l, hl => by cases st <;> cases hl
  | b :: rest, st, line, h1, h2, l, hl => by
    have hnew : ∀ l ∈ rawLines .lineStart [] rest, ∀ c, l.head? = some c → c ≠ c!" " ∧ c ≠ c!"\t" ∧ c ≠ c!"\r" ∧ c ≠ c!"\n" :=
      line_start rest .lineStart [] (by simp) (by simp)
    have hcstr : ∀ (s : Str) c, (cstr s).head? = some c → s.head? = some c := by
      intro s c h
      cases s with
      | nil => exact h
      | cons a s =>
        unfold cstr at h
        rw [List.takeWhile_cons] at h
        split at h
        · exact h
        · cases h
    cases st with
    | comment =>
      rw [h2 (by simp)] at hl
      simp only [rawLines] at hl
      split at hl
      · exact hnew l hl
      · exact line_start rest .comment [] (by simp) (by simp) l hl
    | lineStart =>
      rw [h2 (by simp)] at hl
      simp only [rawLines] at hl
      split at hl
      · exact line_start rest .comment [] (by simp) (by simp) l hl
      · split at hl
        · exact hnew l hl
        next hb =>
          simp only [Bool.or_eq_true, beq_iff_eq, not_or] at hb
          have hb' : b ≠ c!" " ∧ b ≠ c!"\t" ∧ b ≠ c!"\r" ∧ b ≠ c!"\n" := ⟨hb.1.1.1, hb.1.1.2, hb.1.2, hb.2⟩
          split at hl
          · rcases List.mem_cons.1 hl with rfl | hl
            · intro c hc
              have hc := hcstr _ _ hc
              split at hc
              · simp only [List.nil_append, List.head?_cons, Option.some.injEq] at hc
                exact hc ▸ hb'
              · cases hc
            · exact hnew l hl
          · exact line_start rest .line [b] (fun _ => ⟨b, rfl, hb'⟩) (by simp) l hl
    | line =>
      obtain ⟨a, ha, ha'⟩ := h1 rfl
      simp only [rawLines] at hl
      have hl' : ∀ s, line ++ s = line ++ s → (line ++ s).head? = some a := by
        intro s _
        cases line with
        | nil => cases ha
        | cons x line => exact ha
      split at hl
      · rcases List.mem_cons.1 hl with rfl | hl
        · intro c hc
          have hc := hcstr _ _ hc
          split at hc
          · rw [hl' _ rfl] at hc
            cases hc
            exact ha'
          · rw [ha] at hc
            cases hc
            exact ha'
        · exact hnew l hl
      · exact line_start rest .line (line ++ [b]) (fun _ => ⟨a, hl' _ rfl, ha'⟩) (by simp) l hl

theorem keeps {line : Str} (h : ∀ c, line.head? = some c → isSpace c = false) : keepsAddress line = true := by
  unfold keepsAddress
  rw [beq_iff_eq, C04.lstrip_eq]
  cases hr : rstrip line with
  | nil => rfl
  | cons c rest =>
    have : line.head? = some c := by
      have hp : rstrip line <+: line := by
        rw [C04.rstrip_eq]
        have := List.dropWhile_suffix (l := line.reverse) isSpace
        have := List.reverse_prefix.2 this
        rwa [List.reverse_reverse] at this
      obtain ⟨t, ht⟩ := hp
      rw [← ht, hr]
      rfl
    rw [List.dropWhile_cons_of_neg (by simp [h c this])]

theorem lines_keep {h : Host} {w : World} {o : Main.Opts} (hg : Given h w o) : (stdinLines h o).all keepsAddress = true := by
  rw [List.all_eq_true]
  intro line hl
  have h1 := hg.lines line hl
  refine keeps fun c hc => ?_
  have h2 : c ≠ c!" " ∧ c ≠ c!"\t" ∧ c ≠ c!"\r" ∧ c ≠ c!"\n" := by
    unfold stdinLines at hl
    split at hl
    · exact line_start _ _ [] (by simp) (by simp) line hl c hc
    · cases hl
  have h3 : c ≠ 11 ∧ c ≠ 12 := ⟨fun e => h1.1 (e ▸ hc), fun e => h1.2 (e ▸ hc)⟩
  rw [← Bool.not_eq_true, C04.isSpace_iff]
  unfold White
  grind

theorem ended {w : World} (hb : ∀ f bytes, w.files f = some bytes → bytes.length < w.depth ∧ bytes.length + 2 < w.fuel) {f : Str}
    (he : ∀ bytes, w.files f = some bytes → EndsLine bytes) : Ended w f := by
  intro s hs
  cases hf : w.files f with
  | none => simp only [Program.readText, hf] at hs; cases hs
  | some bytes =>
    rcases C112.text_read hf (hb f bytes hf).2 with h | h
    · rw [h] at hs
      cases hs
      have hlast : (dropBom bytes).getLast? = bytes.getLast? := by
        unfold dropBom
        split
        next hp =>
          obtain ⟨t, ht⟩ := List.isPrefixOf_iff_prefix.1 hp
          subst ht
          cases t with
          | nil => rcases he _ hf with h | h <;> revert h <;> decide
          | cons a t => simp [bom]
        · rfl
      rw [hlast]
      rcases he _ hf with h | h
      · exact ⟨_, h, by decide⟩
      · exact ⟨_, h, by decide⟩
    · rw [h] at hs
      cases hs

/-- Whatever the command line and the files are, a run uses and releases only what is in use, each thing
once and by its own address. What is missing are files that are not manageable (C112), and names on standard
input after `\v` or `\f`, for which it does not hold (`wrong_address_violated`). -/
theorem safe_partial (h : Host) (w : World) (args : List Str) (hg : ∀ o, Accepted h args o → Given h w o) :
    ∃ l, inUse (mainEvents h w args) nothing = some l := by
  obtain ⟨l, hl, -⟩ := main_ok (h := h) (w := w) (args := args) fun o ho => ⟨lines_keep (hg o ho), files_ok (hg o ho) _⟩
  exact ⟨l, hl⟩

/-- If the directories of the output can be made, then only values of options and keys of headers may be
in use at the end. -/
theorem leftover_partial (h : Host) (w : World) (args : List Str) (hg : ∀ o, Accepted h args o → Given h w o)
    (hd : h.disk ≠ .noDirectory) :
    ∃ l, inUse (mainEvents h w args) nothing = some l ∧
      ∀ x, l x = true → ∃ i, x = .key i ∨ x = .template i ∨ x = .output i ∨ x = .print i := by
  obtain ⟨l, hl, h2⟩ := main_ok (h := h) (w := w) (args := args) fun o ho => ⟨lines_keep (hg o ho), files_ok (hg o ho) _⟩
  obtain ⟨ys, K, lost, n, rfl, hy, hK, hlost, -, -⟩ := h2 hd
  refine ⟨_, hl, fun x hx => ?_⟩
  have hx : x ∈ ys := by simpa [plus, nothing] using hx
  rcases hy x hx with h | h
  · obtain ⟨i, -, e⟩ := hK x h
    exact ⟨i, .inl e⟩
  · obtain ⟨i, -, e⟩ := hlost x h
    exact ⟨i, .inr e⟩

/-- If, besides, no option gets a value twice and all source files end with a line end, then nothing is in use
at the end, whether the run succeeds or not. -/
theorem returned_partial (h : Host) (w : World) (args : List Str) (hg : ∀ o, Accepted h args o → Given h w o)
    (hd : h.disk ≠ .noDirectory)
    (honce : times c!"t" args ≤ 1 ∧ times c!"o" args ≤ 1 ∧ times c!"p" args ≤ 1)
    (hends : ∀ o, Accepted h args o → ∀ f ∈ allSources h o ++ o.entries, ∀ bytes, w.files f = some bytes → EndsLine bytes) :
    inUse (mainEvents h w args) nothing = some nothing := by
  obtain ⟨l, hl, h2⟩ := main_ok (h := h) (w := w) (args := args) fun o ho => ⟨lines_keep (hg o ho), files_ok (hg o ho) _⟩
  obtain ⟨ys, K, lost, n, rfl, hy, -, -, h3, h4⟩ := h2 hd
  have e1 : lost = [] := h3 (by simpa [Once, left] using honce)
  have e2 : K = [] := h4 fun o ho f hf => ended (hg o ho).bounds (hends o ho f hf)
  subst e1 e2
  have : ys = [] := List.eq_nil_iff_forall_not_mem.2 fun y h => by simpa using hy y h
  rw [hl, this, plus_nil]

/-! ## The ledger follows the program

The events are those of the run that Main and Loader describe. -/

/-- The command line is read in the same way. -/
theorem same_command_line (h : Host) (args : List Str) :
    (∀ o, Accepted h args o → (argEvents h.make none 1 args (Main.initial h.version) {}).1 = false ∧
      (argEvents h.make none 1 args (Main.initial h.version) {}).2.1 = o) ∧
    (∀ e, Main.argLoop h.make none args (Main.initial h.version) = .ok (.error e) →
      (argEvents h.make none 1 args (Main.initial h.version) {}).1 = true) :=
  args_same h.make args none 1 _ _ (by simp)

/-- The same sources are loaded, selected and kept, in the same order, or there is an error in both. -/
theorem same_sources (h : Host) (w : World) (conf : Trie Str) (l : List Str) {r : Option (List (Trie Str) × Trie Str)}
    (hr : Loader.fromFiles (loaderEnv w h.stamp) conf l = .ok r) :
    (filesEvents w h.stamp conf l).1.map (·.map (·.2)) = r.map (·.1) :=
  files_same conf l hr

/-- When sources are selected, as many texts are given to the table of variables as there are variables that the loader
defines for their first and last one and for the page, if none of them was defined before. -/
theorem same_variables (conf : Trie Str) (list : Thing) (l : Tables) {kept : List (Trie Str)} {conf' : Trie Str}
    (hr : Loader.select conf (l.map (·.2)) = .ok (kept, conf')) (hc : ∀ n ∈ loaderNames, conf.lookup n = none) :
    (selectEvents conf list l).2.count (.give .str .config) =
      (loaderNames.filter fun n => (conf'.lookup n).isSome).length := by
  obtain ⟨ks, h1, h2, h3⟩ := select_puts conf list l hr
  rw [adds_count h2 h3 hc]
  exact h1

/-- The second of three pages, with a source that has a date and no file name: seven variables. -/
example : ∃ r, Loader.select (Trie.inserts [(b!"FILTER_PAGE", b!"2"), (b!"FILTER_PER_PAGE", b!"1")]).1
      (([(0, Trie.nil), (1, (Trie.inserts [(b!"DATE", b!"x")]).1), (2, Trie.nil)] : Tables).map (·.2)) = .ok r ∧
    (loaderNames.filter fun n => (r.2.lookup n).isSome) = [b!"DATE_FIRST", b!"DATE_LAST", b!"CURRENT_PAGE",
      b!"PREVIOUS_PAGE", b!"NEXT_PAGE", b!"FIRST_PAGE", b!"LAST_PAGE"] :=
  ⟨_, rfl, by decide +kernel⟩

/-! ## A sample -/

def host (stdin : Str) (disk : Disk) : Host where
  make := false
  version := b!"1"
  stdin := stdin
  stamp := some
  disk := disk
  found := true

/-- A post, a post without a line end, and a template. -/
def files : Program.Files := fun f =>
  if f = b!"post" then some (b!"TITLE: x\n---\n" ++ C112.content)
  else if f = b!"short" then some b!"TITLE: x\nDATE: y"
  else if f = b!"t" then some b!"<{{ TITLE }}>"
  else none

def world : World := ⟨files, 100, 100⟩

def options : Main.Opts :=
  { template := some b!"t", stdin := true, config := (Trie.nil.insert b!"BLOGC_VERSION" b!"1").1 }

example : Accepted (host b!"post\n" .fine) [b!"-i", b!"-t", b!"t"] options := rfl

theorem sample_names {f : Str} (hf : f ∈ allSources (host b!"post\n" .fine) options ++ options.entries) : f = b!"post" := by
  have e : allSources (host b!"post\n" .fine) options ++ options.entries = [b!"post"] := by decide +kernel
  rw [e] at hf
  simpa using hf

example : Given (host b!"post\n" .fine) world options where
  sources f hf bytes hb := by
    have := sample_names hf
    subst this
    cases hb
    exact C112.post_manageable
  bounds f bytes hb := by
    simp only [world, files] at hb
    split at hb
    · cases hb; decide +kernel
    · split at hb
      · cases hb; decide +kernel
      · split at hb
        · cases hb; decide +kernel
        · cases hb
  lines := by decide +kernel

example : ∀ f ∈ allSources (host b!"post\n" .fine) options ++ options.entries, ∀ bytes, world.files f = some bytes →
    EndsLine bytes := by
  intro f hf bytes hb
  have := sample_names hf
  subst this
  cases hb
  exact .inl (by decide +kernel)

example : times c!"t" [b!"-i", b!"-t", b!"t"] = 1 := by decide +kernel

example : ((filesEvents world some options.config [b!"post"]).1.map (·.map (·.1))) = some [0] := by decide +kernel

/-- There is something to be returned. -/
example : 50 < (mainEvents (host b!"post\n" .fine) world [b!"-i", b!"-t", b!"t"]).length := by decide +kernel

/-! ## Where it does not hold -/

/-- A name on standard input after a vertical tab: what is released is not the address that was returned. -/
theorem wrong_address_violated :
    (inUse (mainEvents (host b!"\x0bpost\n" .fine) world [b!"-i", b!"-t", b!"t"]) nothing).isNone = true := by decide +kernel

/-- An option with two values: the first is lost. -/
theorem twice_violated :
    (inUse (mainEvents (host [] .fine) world [b!"-t", b!"t", b!"-t", b!"t", b!"post"]) nothing).map
      (fun l => (l (.template 2), l (.template 4), l .config)) = some (true, false, false) := by decide +kernel

/-- A file that ends within a header: its key is lost. -/
theorem key_violated :
    (inUse (mainEvents (host [] .fine) world [b!"-p", b!"TITLE", b!"short"]) nothing).map
      (fun l => (l (.key 0), l .config)) = some (true, false) := by decide +kernel

/-- A directory that cannot be made ends the process at once. -/
theorem directory_violated :
    (inUse (mainEvents (host [] .noDirectory) world [b!"-t", b!"t", b!"-o", b!"a/b", b!"post"]) nothing).map
      (fun l => (l .config, l .out, l .ast)) = some (true, true, true) := by decide +kernel

end Blogc.C115
