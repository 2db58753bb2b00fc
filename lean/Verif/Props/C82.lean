import Verif.Model.GitHooks
import Verif.Props.C14
import Verif.Props.C81

/-!
# C82: the settings of a repository are those of its section

The settings are in `BASE/blogc-git-receiver.ini`; the section `[repo:NAME]` is that of the repository
`BASE/repos/NAME`.
-/

namespace Blogc.C82

open Blogc Blogc.GitHooks
open Blogc.Config (Config parse)
open Blogc.Spec.Config

/-- The section is that of the repository `repo`. -/
def SectionOf (env : Env) (bd repo sec : Str) : Prop :=
  ∃ name, sec = b!"repo:" ++ name ∧ env.realpath (bd ++ b!"/repos/" ++ name) = some repo

theorem sectionLoop_some (env : Env) (bd repo : Str) (l : List Str) (s : Str) (h : sectionLoop env bd repo l = some s) :
    s ∈ l ∧ SectionOf env bd repo s := by
  induction l with
  | nil => simp [sectionLoop] at h
  | cons x l ih =>
    have next : sectionLoop env bd repo l = some s → s ∈ x :: l ∧ SectionOf env bd repo s :=
      fun h => ⟨List.mem_cons_of_mem _ (ih h).1, (ih h).2⟩
    unfold sectionLoop at h
    split at h
    · next hp =>
      split at h
      · exact next h
      · next p hr =>
        split at h
        · next he =>
          have e : x = s := by simpa using h
          subst e
          refine ⟨by simp, x.drop 5, ?_, by rw [hr, he]⟩
          have h5 : x.take 5 = b!"repo:" := by
            unfold startsWith at hp
            split at hp
            · cases hp
            · simpa using hp
          rw [← h5, List.take_append_drop]
        · exact next h
    · exact next h

theorem sectionLoop_none (env : Env) (bd repo : Str) (l : List Str) (h : sectionLoop env bd repo l = none) :
    ∀ s ∈ l, ¬ SectionOf env bd repo s := by
  induction l with
  | nil => simp
  | cons x l ih =>
    rintro s hs ⟨name, rfl, hn⟩
    unfold sectionLoop at h
    rcases List.mem_cons.mp hs with rfl | hs
    · rw [if_pos (by simp [startsWith])] at h
      have e : (b!"repo:" ++ name).drop 5 = name := rfl
      rw [e, hn] at h
      simp at h
    · have : sectionLoop env bd repo l = none := by
        split at h
        · split at h
          · exact h
          · split at h
            · cases h
            · exact h
        · exact h
      exact ih this _ hs ⟨name, rfl, hn⟩

/-- The base directory: `BLOGC_GIT_RECEIVER_BASE_DIR`, or else `HOME`. -/
theorem base_dir (env : Env) (bd : Str) :
    baseDir env.base env.home = some bd ↔ env.base = some bd ∨ (env.base = none ∧ env.home = some bd) := by
  unfold baseDir
  cases env.base <;> simp

/-- The value of a setting is the one that the file gives in the section of the repository. `d` is the
content of the file. -/
theorem setting_exact (env : Env) (bd repo : Str) (hb : baseDir env.base env.home = some bd) (d : Doc)
    (hd : d.Ok []) (hc : ∃ cfg, parse d.render [] = some (.ok (.ok cfg)) ∧
      env.config (bd ++ b!"/blogc-git-receiver.ini") = some cfg)
    (sec : Str) (hm : ∃ s ∈ d.sections, s.name = sec) (hs : SectionOf env bd repo sec)
    (hu : ∀ s ∈ d.sections, SectionOf env bd repo s.name → s.name = sec) (key : Str) (hk : NulFree key) :
    setting env repo key = d.get [] sec key := by
  obtain ⟨cfg, hp, hc⟩ := hc
  obtain ⟨cfg', hp', ha⟩ := C14.round_trip d [] hd
  rw [hp] at hp'
  cases hp'
  obtain ⟨a1, -, a3, -⟩ := ha
  unfold setting settings
  rw [hb]
  simp only [hc]
  cases hl : sectionLoop env bd repo cfg.sections with
  | none =>
    exfalso
    exact sectionLoop_none env bd repo _ hl sec ((a3 sec).mpr hm) hs
  | some s =>
    obtain ⟨h1, h2⟩ := sectionLoop_some env bd repo _ s hl
    obtain ⟨x, hx, e⟩ := (a3 s).mp h1
    have : s = sec := by rw [← e]; exact hu x hx (by rw [e]; exact h2)
    subst this
    obtain ⟨y, hy, e'⟩ := hm
    simp only
    exact a1 s key (by rw [← e']; exact (hd.2 y hy).1.2.1) hk

/-- Without a section of the repository there are no settings. -/
theorem no_section (env : Env) (bd repo : Str) (hb : baseDir env.base env.home = some bd) (d : Doc)
    (hd : d.Ok []) (hc : ∃ cfg, parse d.render [] = some (.ok (.ok cfg)) ∧
      env.config (bd ++ b!"/blogc-git-receiver.ini") = some cfg)
    (hu : ∀ s ∈ d.sections, ¬ SectionOf env bd repo s.name) (key : Str) : setting env repo key = none := by
  obtain ⟨cfg, hp, hc⟩ := hc
  obtain ⟨cfg', hp', ha⟩ := C14.round_trip d [] hd
  rw [hp] at hp'
  cases hp'
  obtain ⟨-, -, a3, -⟩ := ha
  unfold setting settings
  rw [hb]
  simp only [hc]
  cases hl : sectionLoop env bd repo cfg.sections with
  | none => rfl
  | some s =>
    obtain ⟨h1, h2⟩ := sectionLoop_some env bd repo _ s hl
    obtain ⟨x, hx, e⟩ := (a3 s).mp h1
    exact absurd (by rw [e]; exact h2) (hu x hx)

/-- Without the file, or a base directory, there are no settings. -/
theorem no_file (env : Env) (repo key : Str)
    (h : ∀ bd, baseDir env.base env.home = some bd → env.config (bd ++ b!"/blogc-git-receiver.ini") = none) :
    setting env repo key = none := by
  unfold setting settings
  cases hb : baseDir env.base env.home with
  | none => rfl
  | some bd => simp [h bd hb]

/-- The public link is `htdocs` in the repository, or the `symlink` of the settings, relative to the
repository. -/
theorem link (env : Env) (repo : Str) :
    (setting env repo b!"symlink" = none → linkPath env repo = repo ++ b!"/htdocs") ∧
    (∀ p, setting env repo b!"symlink" = some (c!"/" :: p) → linkPath env repo = c!"/" :: p) ∧
    (∀ p, p.head? ≠ some c!"/" → setting env repo b!"symlink" = some p → linkPath env repo = repo ++ b!"/" ++ p) := by
  refine ⟨fun h => by simp [linkPath, h], fun p h => by simp [linkPath, h, startsWith], fun p hp h => ?_⟩
  have : startsWith p b!"/" = false := by
    cases p with
    | nil => rfl
    | cons c p =>
      have : c ≠ c!"/" := by simpa using hp
      simpa [startsWith] using this
  simp [linkPath, h, this]

/-! ## A case -/

/-- `[repo:s.git]` with a mirror and a link. -/
def sampleDoc : Doc :=
  ⟨[], [⟨b!"repo:o.git", [.pair b!"mirror" b!"x" false]⟩,
        ⟨b!"repo:s.git", [.pair b!"mirror" b!"git@h:s.git" false, .pair b!"symlink" b!"/srv/www" false]⟩]⟩

theorem sampleDoc_ok : sampleDoc.Ok [] := by
  refine ⟨by simp [sampleDoc], ?_⟩
  intro s hs
  simp only [sampleDoc, List.mem_cons, List.not_mem_nil, or_false] at hs
  rcases hs with rfl | rfl <;>
  simp [NameOk, NulFree, NoNl, Line.Ok, KeyOk, ValueOk, PlainOk, Trimmed, FirstOk, Spec.White]

/-- The environment of `C80.sample` with these settings. -/
def sampleEnv (cfg : Config) : Env :=
  { C80.sample with
    config := fun p => if p = b!"/h/blogc-git-receiver.ini" then some cfg else none
    realpath := fun p => if p = b!"/h/repos/s.git" then some b!"/h/repos/s.git" else none }

example : ∃ cfg, parse sampleDoc.render [] = some (.ok (.ok cfg)) ∧
    setting (sampleEnv cfg) b!"/h/repos/s.git" b!"mirror" = some b!"git@h:s.git" ∧
    linkPath (sampleEnv cfg) b!"/h/repos/s.git" = b!"/srv/www" := by
  obtain ⟨cfg, hp, -⟩ := C14.round_trip sampleDoc [] sampleDoc_ok
  have key := fun k hk => setting_exact (sampleEnv cfg) b!"/h" b!"/h/repos/s.git" rfl sampleDoc sampleDoc_ok
    ⟨cfg, hp, rfl⟩ b!"repo:s.git" ⟨_, List.mem_cons_of_mem _ (List.mem_cons_self ..), rfl⟩ ⟨b!"s.git", rfl, rfl⟩
    (by
      intro s hs h
      simp only [sampleDoc, List.mem_cons, List.not_mem_nil, or_false] at hs
      rcases hs with rfl | rfl
      · exfalso
        obtain ⟨name, h1, h2⟩ := h
        cases h1
        have : (none : Option Str) = some b!"/h/repos/s.git" := h2
        cases this
      · rfl) k hk
  refine ⟨cfg, hp, ?_, ?_⟩
  · rw [key b!"mirror" (by decide)]; decide +kernel
  · refine (link _ _).2.1 b!"srv/www" ?_
    rw [key b!"symlink" (by decide)]; decide +kernel

end Blogc.C82
