import Verif.Lemmas.SitePages
import Verif.Lemmas.IncrementalSample

/-!
# The settings file of the site in C103
-/

namespace Blogc.SettingsSample

open Blogc Blogc.Make Blogc.Spec Blogc.Spec.Config Blogc.Spec.MakeSettings Blogc.Spec.SitePages Blogc.SitePages
open Blogc.C100 (sampleCfg)

deriving instance DecidableEq for Trie
deriving instance DecidableEq for Blogc.MakeSettings.Settings
deriving instance DecidableEq for Except

def doc : Config.Doc where
  preamble := [.comment c!"#" b!" A site"]
  sections :=
    [⟨b!"global", [.pair b!"AUTHOR_NAME" b!"A" false, .pair b!"AUTHOR_EMAIL" b!"a@b" false,
        .pair b!"SITE_TITLE" b!"T\"" true, .pair b!"SITE_TAGLINE" b!"g" false, .pair b!"BASE_DOMAIN" b!"http://d" false]⟩,
      ⟨b!"settings", [.pair b!"posts_per_page" b!"2" false]⟩, ⟨b!"posts", [.item b!"one" false]⟩,
      ⟨b!"pages", [.item b!"about" false]⟩, ⟨b!"tags", [.item b!"x" false]⟩]

def blogcfile : Str :=
  b!"# A site\n[global]\nAUTHOR_NAME = A\nAUTHOR_EMAIL = a@b\nSITE_TITLE = \"T\\\"\"\nSITE_TAGLINE = g\nBASE_DOMAIN = http://d\n[settings]\nposts_per_page = 2\n[posts]\none\n[pages]\nabout\n[tags]\nx\n"

theorem blogcfile_eq : blogcfile = doc.render := by decide +kernel

theorem parsed : Blogc.MakeSettings.parse blogcfile = some (.ok (.ok sampleCfg)) := by decide +kernel

/-! A test for documents. -/

def trimmed (s : Str) : Bool := s.head?.all (fun c => !isSpace c) && s.getLast?.all (fun c => !isSpace c)

def noNl (s : Str) : Bool := decide (c!"\n" ∉ s ∧ c!"\r" ∉ s)

def plainOk (v : Str) : Bool :=
  decide (NulFree v) && noNl v && decide (c!"\\" ∉ v) && trimmed v && decide (v.head? ≠ some c!"\"")

def firstOk (v : Str) : Bool :=
  decide (v ≠ [] ∧ v.head? ≠ some c!"#" ∧ v.head? ≠ some c!";" ∧ v.head? ≠ some c!"[")

def valueOk (v : Str) (q : Bool) : Bool := if q then decide (NulFree v) else plainOk v

def keyOk (k : Str) : Bool := decide (NulFree k) && noNl k && decide (c!"=" ∉ k) && trimmed k && firstOk k

def lineOk (isList : Bool) : Line → Bool
  | .pair k v q => !isList && keyOk k && valueOk v q
  | .item v q => isList && valueOk v q && (q || firstOk v)
  | .blank ws => ws.all fun c => c == c!" " || c == c!"\t"
  | .comment m t => (m == c!"#" || m == c!";") && noNl t

def nameOk (n : Str) : Bool := decide (n ≠ []) && decide (NulFree n) && noNl n && decide (c!"]" ∉ n)

theorem trimmed_ok {s : Str} (h : trimmed s = true) : Trimmed s := by
  rw [trimmed, Bool.and_eq_true] at h
  exact C62.trimmed_of h.1 h.2

theorem noNl_ok {s : Str} (h : noNl s = true) : NoNl s := of_decide_eq_true h

theorem plain_ok {v : Str} (h : plainOk v = true) : PlainOk v := by
  simp only [plainOk, Bool.and_eq_true] at h
  exact ⟨of_decide_eq_true h.1.1.1.1, noNl_ok h.1.1.1.2, of_decide_eq_true h.1.1.2, trimmed_ok h.1.2, of_decide_eq_true h.2⟩

theorem first_ok {v : Str} (h : firstOk v = true) : FirstOk v := by
  unfold firstOk at h
  have := of_decide_eq_true h
  exact this

theorem value_ok {v : Str} {q : Bool} (h : valueOk v q = true) : ValueOk v q := by
  cases q with
  | true =>
    have : NulFree v := of_decide_eq_true h
    exact this
  | false => exact plain_ok h

theorem key_ok {k : Str} (h : keyOk k = true) : KeyOk k := by
  simp only [keyOk, Bool.and_eq_true] at h
  exact ⟨of_decide_eq_true h.1.1.1.1, noNl_ok h.1.1.1.2, of_decide_eq_true h.1.1.2, trimmed_ok h.1.2, first_ok h.2⟩

theorem line_ok {b : Bool} {l : Line} (h : lineOk b l = true) : l.Ok b := by
  cases l with
  | blank ws => simpa [lineOk, Line.Ok, Line.OkPre] using h
  | comment m t =>
    simp only [lineOk, Bool.and_eq_true, Bool.or_eq_true, beq_iff_eq] at h
    exact ⟨h.1, noNl_ok h.2⟩
  | pair k v q =>
    simp only [lineOk, Bool.and_eq_true, Bool.not_eq_true'] at h
    exact ⟨h.1.1, key_ok h.1.2, value_ok h.2⟩
  | item v q =>
    simp only [lineOk, Bool.and_eq_true, Bool.or_eq_true] at h
    exact ⟨h.1.1, value_ok h.1.2, fun hq => first_ok (h.2.resolve_left (by simp [hq]))⟩

theorem name_ok {n : Str} (h : nameOk n = true) : NameOk n := by
  simp only [nameOk, Bool.and_eq_true] at h
  exact ⟨of_decide_eq_true h.1.1.1, of_decide_eq_true h.1.1.2, noNl_ok h.1.2, of_decide_eq_true h.2⟩

theorem preamble_ok : ∀ l ∈ doc.preamble, l.OkPre := by
  intro l hl
  rw [List.mem_singleton.1 (show l ∈ [_] from hl)]
  exact ⟨.inl rfl, noNl_ok (by decide)⟩

theorem doc_ok : doc.Ok lists := by
  refine ⟨preamble_ok, fun s hs => ?_⟩
  have h := (show ∀ s ∈ doc.sections, nameOk s.name = true ∧ s.lines.all (lineOk (decide (s.name ∈ lists))) = true by
    decide +kernel) s hs
  exact ⟨name_ok h.1, fun l hl => line_ok (List.all_eq_true.1 h.2 l hl)⟩

theorem doc_acceptable : Acceptable doc := by
  refine ⟨fun p hp => ?_, fun r hr => ?_⟩
  · exact C100.validKey_of ((show ∀ p ∈ globals doc, C100.keyOk p.1 = true by decide +kernel) p hp)
  · have h := (show ∀ r ∈ required, ((lastValue (globals doc) r).any fun v => decide (v ≠ [])) = true by
      decide +kernel) r hr
    cases hl : lastValue (globals doc) r with
    | none => rw [hl] at h; cases h
    | some v => rw [hl] at h; exact ⟨v, rfl, of_decide_eq_true h⟩

/-- The settings file is as blogcfile(5) describes. -/
theorem written {files : Str → Option Str} {f : Str} (h : files f = some blogcfile)
    (hu : WellFormedUtf8 blogcfile) : SettingsWritten files f doc where
  text := ⟨blogcfile, h, by rw [show dropBom blogcfile = blogcfile by decide +kernel]; exact hu, by
    rw [show dropBom blogcfile = blogcfile by decide +kernel, blogcfile_eq]
    exact C92.render_written doc lists doc_ok⟩
  ok := doc_ok
  acceptable := doc_acceptable

/-- The settings that are read from it. -/
theorem read {files : Str → Option Str} {f : Str} (h : files f = some blogcfile)
    (hu : WellFormedUtf8 blogcfile) : ReadAs files f sampleCfg :=
  ⟨blogcfile, h, by rw [show dropBom blogcfile = blogcfile by decide +kernel]; exact hu, by
    rw [show dropBom blogcfile = blogcfile by decide +kernel]; exact parsed⟩

/-! The same with a directory of static files. -/

def copyDoc : Config.Doc := { doc with sections := doc.sections ++ [⟨b!"copy", [.item b!"static" false]⟩] }

def copyfile : Str := blogcfile ++ b!"[copy]\nstatic\n"

theorem copyfile_eq : copyfile = copyDoc.render := by decide +kernel

theorem copy_parsed :
    Blogc.MakeSettings.parse copyfile = some (.ok (.ok { sampleCfg with copy := some [b!"static"] })) := by decide +kernel

theorem copyDoc_ok : copyDoc.Ok lists := by
  refine ⟨preamble_ok, fun s hs => ?_⟩
  have h := (show ∀ s ∈ copyDoc.sections, nameOk s.name = true ∧ s.lines.all (lineOk (decide (s.name ∈ lists))) = true by
    decide +kernel) s hs
  exact ⟨name_ok h.1, fun l hl => line_ok (List.all_eq_true.1 h.2 l hl)⟩

theorem copyDoc_acceptable : Acceptable copyDoc := by
  have h : globals copyDoc = globals doc := by decide +kernel
  have := doc_acceptable
  unfold Acceptable at this ⊢
  rw [h]
  exact this

theorem copy_written {files : Str → Option Str} {f : Str} (h : files f = some copyfile)
    (hu : WellFormedUtf8 copyfile) : SettingsWritten files f copyDoc where
  text := ⟨copyfile, h, by rw [show dropBom copyfile = copyfile by decide +kernel]; exact hu, by
    rw [show dropBom copyfile = copyfile by decide +kernel, copyfile_eq]
    exact C92.render_written copyDoc lists copyDoc_ok⟩
  ok := copyDoc_ok
  acceptable := copyDoc_acceptable

theorem copy_read {files : Str → Option Str} {f : Str} (h : files f = some copyfile)
    (hu : WellFormedUtf8 copyfile) : ReadAs files f { sampleCfg with copy := some [b!"static"] } :=
  ⟨copyfile, h, by rw [show dropBom copyfile = copyfile by decide +kernel]; exact hu, by
    rw [show dropBom copyfile = copyfile by decide +kernel]; exact copy_parsed⟩

end Blogc.SettingsSample
