import Verif.Model.Program
import Verif.Spec.Orderly
import Verif.Lemmas.SourceDefined
import Verif.Lemmas.MainDefined
import Verif.Props.C12
import Verif.Props.C40
import Verif.Props.C74

/-!
# C112: blogc ends in an orderly way, whatever it is given

`Program.run` is the whole program on a set of files; `readSource` and `readTemplate` are its readers.
-/

namespace Blogc.C112

open Blogc Blogc.Spec Blogc.Program Blogc.Main

/-- A regular file is read to its end. -/
theorem text_read {files : Files} {f bytes : Str} (hf : files f = some bytes) {fuel : Nat}
    (hfuel : bytes.length + 2 < fuel) :
    readText files fuel f = .ok (some (dropBom bytes)) ∨ readText files fuel f = .ok none := by
  obtain ⟨h1, h2⟩ := C12.load_text bytes fuel hfuel
  unfold readText
  rw [hf]
  by_cases h : WellFormedUtf8 (dropBom bytes)
  · left; simp only [h1 h]
  · right; simp only [h2 h]

theorem text_same {files : Files} {f bytes : Str} (hf : files f = some bytes) {n m : Nat}
    (hn : bytes.length + 2 < n) (hm : bytes.length + 2 < m) : readText files n f = readText files m f := by
  obtain ⟨h1, h2⟩ := C12.load_text bytes n hn
  obtain ⟨h3, h4⟩ := C12.load_text bytes m hm
  unfold readText
  rw [hf]
  by_cases h : WellFormedUtf8 (dropBom bytes)
  · simp only [h1 h, h3 h]
  · simp only [h2 h, h4 h]

theorem dropBom_length (s : Str) : (dropBom s).length ≤ s.length := by
  unfold dropBom
  split
  · simp
  · exact Nat.le_refl _

/-- A manageable content is parsed. -/
theorem content_parsed {s : Str} (hn : NulFree s) (h : Manageable s) {depth : Nat} (hd : s.length < depth)
    (b : Bool) : ∃ r, Content.parse depth s b = .ok r := by
  cases h with
  | plain he ho hb hl =>
    exact C40.parses_partial s _ hn he ho hb hl depth (Nat.lt_of_le_of_lt List.count_le_length hd) b
  | lists he ho hb hl =>
    exact C40.lists_parsed_partial s _ hn he ho hb hl depth (Nat.lt_of_le_of_lt List.count_le_length hd) b
  | written he hdoc =>
    obtain ⟨r, hr, -⟩ := C74.documented_partial _ s _ he hdoc hn depth hd b
    exact ⟨r, hr⟩

theorem maxdepth_range (m : Option Str) : -(2 ^ 31) ≤ maxdepthOf m ∧ maxdepthOf m < 2 ^ 31 := by
  cases m with
  | none => decide
  | some m => exact C17.toInt_range _

theorem doc_content_length (d : Source.Doc) : d.content.length ≤ d.text.length := by
  simp only [Source.Doc.text, List.length_append]
  omega

/-- A file with a manageable content. -/
theorem manageable_of (d : Source.Doc) (hd : d.Ok) (h2 : 2 ≤ d.content.length) (hn : NulFree d.text)
    (hs : d.text.length < 2 ^ 63) (hm : Manageable d.content) : ManageableSource d.text where
  text := hn
  small := hs
  content d' hd' h2' he := by rw [Source.content_unique hd' hd h2' h2 he]; exact hm

/-- Every source file, with any headers, is accepted or rejected. What is missing are the contents that are
not manageable, some of which lead to undefined behaviour or to an endless loop (below). -/
theorem source_partial (files : Files) (f bytes : Str) (hf : files f = some bytes)
    (hs : ManageableSource (dropBom bytes)) (m : Option Str) (depth fuel : Nat) (hd : bytes.length < depth)
    (hfuel : bytes.length + 2 < fuel) : ∃ r, readSource files depth fuel m f = .ok r := by
  unfold readSource
  rcases text_read hf hfuel with h | h
  · have hp : ∃ r, Source.parse (Content.parse depth) (dropBom bytes) (maxdepthOf m) = .ok r := by
      refine Source.parse_defined hs.text fun d hok h2 htext T => ?_
      have hlen : d.content.length ≤ (dropBom bytes).length := htext ▸ doc_content_length d
      have := dropBom_length bytes
      have := hs.small
      exact Source.finishContent_defined T (by omega) (maxdepth_range m).1 (maxdepth_range m).2
        fun b => content_parsed hok.content (hs.content d hok h2 htext) (by omega) b
    obtain ⟨r, hr⟩ := hp
    rw [h]
    simp only [Run.bind_ok, hr]
    cases r <;> exact ⟨_, rfl⟩
  · rw [h]
    exact ⟨_, rfl⟩

/-- Every template file is accepted or rejected. -/
theorem template_read (files : Files) (f : Str) (fuel : Nat) (hfuel : ∀ bytes, files f = some bytes → bytes.length + 2 < fuel) :
    ∃ r, readTemplate files fuel f = .ok r := by
  unfold readTemplate
  cases hf : files f with
  | none => exact ⟨none, by simp only [readText, hf]; rfl⟩
  | some bytes =>
    rcases text_read hf (hfuel bytes hf) with h | h
    · obtain ⟨r, hr⟩ := C21.in_bounds (dropBom bytes)
      rw [h]
      simp only [Run.bind_ok, hr]
      cases r <;> exact ⟨_, rfl⟩
    · rw [h]
      exact ⟨_, rfl⟩

/-- The source files a command line names: its arguments, those on standard input, and those of `-e`. -/
def named (h : Host) (o : Opts) : List Str :=
  o.sources ++ (if o.stdin then FileList.parse (stdinRead [] h.stdin) else []) ++ o.entries

/-- What a run is given: files that are manageable, a template that is not cut off, and numbers of pages
that can be computed with. -/
structure Given (h : Host) (files : Files) (o : Opts) : Prop where
  sources : ∀ f ∈ named h o, ∀ bytes, files f = some bytes → ManageableSource (dropBom bytes)
  template : ∀ t bytes, o.template = some t → files t = some bytes → Template.Complete (dropBom bytes)
  few : (named h o).length < 2 ^ 24
  pages : ∀ p, o.config.lookup b!"FILTER_PAGE" = some p →
    0 < Loader.perPageOf (o.config.lookup b!"FILTER_PER_PAGE") ∧
    (Loader.pageOf (some p) - 1) * Loader.perPageOf (o.config.lookup b!"FILTER_PER_PAGE") < 2 ^ 63
  print : o.print ≠ some []

/-- Any command line that is not accepted ends blogc at once, with a status. -/
theorem rejected (h : Host) (files : Files) (args : List Str) (depth fuel : Nat) :
    (∃ s : Stop, run h files depth fuel args = .ret (.exit s.status)) ∨
      ∃ o, argLoop h.make none args (initial h.version) = .ok (.ok o) ∧
        run h files depth fuel args = body (env h files depth fuel) o := by
  obtain ⟨r, hr⟩ := argLoop_defined h.make args none (initial h.version)
  unfold run Main.main
  rw [show (env h files depth fuel).make = h.make from rfl, show (env h files depth fuel).version = h.version from rfl, hr]
  cases r with
  | error s => exact .inl ⟨s, rfl⟩
  | ok o => exact .inr ⟨o, rfl, rfl⟩

/-- The length of the longest of some files. -/
def longest (files : Files) (l : List Str) : Nat := (l.map fun f => ((files f).getD []).length).foldr max 0

theorem longest_le {files : Files} {l : List Str} {f bytes : Str} (hf : f ∈ l) (hb : files f = some bytes) :
    bytes.length ≤ longest files l := by
  unfold longest
  induction l with
  | nil => cases hf
  | cons a l ih =>
    rw [List.map_cons, List.foldr_cons]
    rcases List.mem_cons.1 hf with rfl | hf
    · rw [hb]; exact Nat.le_max_left _ _
    · exact Nat.le_trans (ih hf) (Nat.le_max_right _ _)

/-- blogc ends with an exit status, whatever the arguments, the headers, the templates and the answers of the
system: neither reading the files nor the rest of the program goes wrong or hangs. -/
theorem orderly_partial (h : Host) (files : Files) (args : List Str) (o : Opts)
    (ho : argLoop h.make none args (initial h.version) = .ok (.ok o)) (hg : Given h files o) (depth : Nat)
    (hd : longest files (named h o) < depth) :
    ∃ n, ∀ fuel, n ≤ fuel →
      (∀ f ∈ named h o, ∀ m, ∃ r, readSource files depth fuel m f = .ok r) ∧
      (∀ t, o.template = some t → ∃ r, readTemplate files fuel t = .ok r) ∧
      ∀ trace outcome, (run h files depth fuel args).Exec trace outcome → ∃ status, outcome = .exit status := by
  let K := longest files (named h o) + longest files o.template.toList + 3
  have hsrc : ∀ f ∈ named h o, ∀ fuel, K ≤ fuel → ∀ m, ∃ r, readSource files depth fuel m f = .ok r := by
    intro f hf fuel hK m
    cases hb : files f with
    | none =>
      refine ⟨none, ?_⟩
      simp only [readSource, readText, hb]
      rfl
    | some bytes =>
      have := longest_le hf hb
      exact source_partial files f bytes hb (hg.sources f hf bytes hb) m depth fuel (by omega) (by omega)
  have hread : ∀ f, (f ∈ named h o ∨ f ∈ o.template.toList) → ∀ fuel, K ≤ fuel → readText files fuel f = readText files K f := by
    intro f hf fuel hK
    cases hb : files f with
    | none => simp only [readText, hb]
    | some bytes =>
      have : bytes.length ≤ longest files (named h o) ∨ bytes.length ≤ longest files o.template.toList :=
        hf.imp (fun hf => longest_le hf hb) (fun hf => longest_le hf hb)
      exact text_same hb (by omega) (by omega)
  have htmpl : ∀ t, o.template = some t → ∀ fuel, K ≤ fuel → ∃ r, readTemplate files fuel t = .ok r := by
    intro t ht fuel hK
    refine template_read files t fuel fun bytes hb => ?_
    have := longest_le (files := files) (l := o.template.toList) (f := t) (by simp [ht]) hb
    omega
  obtain ⟨n, hn⟩ := body_ends (env h files depth K) o
    (Loader.fromFiles_defined _ _ _ (by
      have := hg.few
      rw [named, List.length_append] at this
      exact Nat.lt_of_le_of_lt (Nat.le_add_right _ _) this) hg.pages)
    (by
      intro t l ht hl ctx entries g
      cases hb : files t with
      | none =>
        refine absurd hl ?_
        simp only [env, readTemplate, readText, hb]
        simp [value, Run.pure_eq]
      | some bytes =>
        have := longest_le (files := files) (l := o.template.toList) (f := t) (by simp [ht]) hb
        have hl' : value (readTemplate files K t) = some l := hl
        unfold readTemplate at hl'
        rcases text_read hb (fuel := K) (by omega) with h1 | h1
        · rw [h1] at hl'
          simp only [Run.bind_ok] at hl'
          cases hp : Template.parse (dropBom bytes) with
          | ub => rw [hp] at hl'; cases hl'
          | ok r =>
            rw [hp] at hl'
            cases r with
            | error e => cases hl'
            | ok ns =>
              cases hl'
              exact C23.renders_partial _ (dropBom bytes) _ (hg.template t bytes ht hb) hp ctx entries g
        · rw [h1] at hl'
          cases hl') hg.print
  refine ⟨max n K, fun fuel hfuel => ⟨fun f hf m => hsrc f hf fuel (by omega) m,
    fun t ht => htmpl t ht fuel (by omega), ?_⟩⟩
  have hbody : body (env h files depth fuel) o = body { env h files depth K with fuel := fuel } o := by
    refine body_congr (o := o) (o' := o) ⟨rfl, rfl, rfl, fun f hf d => ?_, fun t ht => ?_⟩ rfl rfl rfl rfl rfl rfl (fun _ => rfl)
    · show value (readSource files depth fuel d f) = value (readSource files depth K d f)
      rw [readSource, readSource, hread f (.inl hf) fuel (by omega)]
    · show value (readTemplate files fuel t) = value (readTemplate files K t)
      rw [readTemplate, readTemplate, hread t (.inr (by simp [ht])) fuel (by omega)]
  rcases rejected h files args depth fuel with ⟨s, hs⟩ | ⟨o', ho', hrun⟩
  · rw [hs]
    exact ends_ret _
  · rw [ho] at ho'
    cases ho'
    rw [hrun, hbody]
    exact hn fuel (by omega)

/-! ## Inputs with which it does not -/

def host : Host := ⟨b!"1", false, [], C27.bare⟩

/-- A content with lists. -/
def content : Str := b!"* i\r\n  j\r\n* k\r\n\r\n1. x\r\n2. y\r\n\r\n---\r\n  c\r\n  d\r\n\r\n<p>\r\n"

/-- Some files. -/
def disk : Files := fun f =>
  if f = b!"post" then some (b!"TITLE: x\n---\n" ++ content)
  else if f = b!"list" then some b!"TITLE: x\n---\n* a\nb\n\n* c\n"
  else if f = b!"mixed" then some (b!"TITLE: x\n---\n" ++ C40.loopFile)
  else if f = b!"t" then some b!"<h1>{{ TITLE }}</h1>{{ CONTENT }}"
  else if f = b!"cut" then some b!"{% ifdef A %}x{% endif "
  else none

def isUb {α : Type} : Run α → Bool
  | .ub => true
  | _ => false

theorem eq_ub {α : Type} {x : Run α} (h : isUb x = true) : x = .ub := by
  cases x <;> first | rfl | cases h

def isUndefined : Prog Call Outcome → Bool
  | .ret .undefined => true
  | _ => false

theorem eq_undefined {p : Prog Call Outcome} (h : isUndefined p = true) : p = .ret .undefined := by
  match p, h with
  | .ret .undefined, _ => rfl

/-- A list that breaks off, followed by another: memory is used after it was released. -/
theorem list_violated : readSource disk 5 100 none b!"list" = .ub := eq_ub (by decide +kernel)

theorem head_ok (c : Str) (hn : NulFree c) (hc : ∀ x, c.head? = some x → ¬ Source.Newline x) :
    Source.Doc.Ok ⟨[⟨[], b!"TITLE", b!" ", b!"x", [], c!"\n"⟩], [], 3, b!"\n", c⟩ where
  headers h hh := by
    rw [List.mem_singleton.1 hh]
    exact ⟨by simp, ⟨_, _, rfl, by decide, by decide⟩, by decide, by simp [White, Source.Newline], by simp,
      by simp [Source.Newline], by simp [White], by simp [White], by simp [Source.Newline]⟩
  blanks := by simp
  dashes := Nat.succ_pos _
  nls := by simp [Source.Newline]
  nls_ne := by simp
  content := hn
  content_first := hc

/-- A title and quotations with two kinds of line endings: the parser of the content calls itself without
end. -/
theorem hang_violated (depth fuel : Nat) (hf : 100 < fuel) : readSource disk depth fuel none b!"mixed" = .out := by
  have hd : disk b!"mixed" = some (b!"TITLE: x\n---\n" ++ C40.loopFile) := by decide
  have h1 : readText disk 100 b!"mixed" = .ok (some (b!"TITLE: x\n---\n" ++ C40.loopFile)) := by decide +kernel
  have h2 := text_same hd (n := fuel) (m := 100) (Nat.lt_trans (by decide) hf) (by decide)
  have h3 := Source.parse_doc (cp := Content.parse depth) (m := -1)
    ⟨[⟨[], b!"TITLE", b!" ", b!"x", [], c!"\n"⟩], [], 3, b!"\n", C40.loopFile⟩ (head_ok _ (by decide) (by simp [C40.loopFile, Source.Newline])) (by decide)
  rw [readSource, h2, h1]
  simp only [Run.bind_ok]
  rw [show maxdepthOf none = -1 from rfl]
  rw [show b!"TITLE: x\n---\n" ++ C40.loopFile = Source.Doc.text ⟨[⟨[], b!"TITLE", b!" ", b!"x", [], c!"\n"⟩], [], 3, b!"\n", C40.loopFile⟩ from by decide, h3]
  simp only [Source.finishContent, Content.parse, C40.loopFile_out]
  rfl

/-- A template cut off within its last statement. -/
theorem cut_violated : run host disk 5 100 [b!"-t", b!"cut", b!"post"] = .ret .undefined :=
  eq_undefined (by decide +kernel)

/-- Pages of no entries. -/
theorem pages_violated :
    run host disk 5 100 [b!"-t", b!"t", b!"-l", b!"-D", b!"FILTER_PAGE=1", b!"-D", b!"FILTER_PER_PAGE=0", b!"post"] =
      .ret .undefined :=
  eq_undefined (by decide +kernel)

/-- The product of two numbers that are accepted does not fit. -/
theorem product_violated :
    run host disk 5 100 [b!"-t", b!"t", b!"-l", b!"-D", b!"FILTER_PAGE=9000000000",
      b!"-D", b!"FILTER_PER_PAGE=9000000000", b!"post"] = .ret .undefined :=
  eq_undefined (by decide +kernel)

/-- An empty name after `-p`. -/
theorem print_violated : run host disk 5 100 [b!"-p", b!"", b!"post"] = .ret .undefined :=
  eq_undefined (by decide +kernel)

/-! Non-vacuity: a post with lists, and a template. -/

def options : Opts :=
  { template := some b!"t", sources := [b!"post"], config := (Trie.nil.insert b!"BLOGC_VERSION" b!"1").1 }

theorem post_manageable : ManageableSource (dropBom (b!"TITLE: x\n---\n" ++ content)) := by
  have h := manageable_of _ (head_ok content (by decide) (by simp [content, Source.Newline])) (by decide) (by decide +kernel)
    (by decide +kernel) (.written (.inr (.inr (.inl rfl))) C74.sample2_doc)
  have e : dropBom (b!"TITLE: x\n---\n" ++ content) = Source.Doc.text
      ⟨[⟨[], b!"TITLE", b!" ", b!"x", [], c!"\n"⟩], [], 3, b!"\n", content⟩ := by decide +kernel
  rw [e]
  exact h

example : argLoop host.make none [b!"-t", b!"t", b!"post"] (initial host.version) = .ok (.ok options) := rfl

example : Given host disk options where
  sources f hf bytes hb := by
    have : f = b!"post" := List.mem_singleton.1 hf
    subst this
    cases hb
    exact post_manageable
  template t bytes ht hb := by
    cases ht
    cases hb
    exact Template.complete_of (by decide +kernel)
  few := by decide
  pages p hp := by cases hp
  print := by decide

example : longest disk (named host options) < 100 := by decide +kernel

end Blogc.C112
