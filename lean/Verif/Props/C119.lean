import Verif.Lemmas.Dirname
import Verif.Props.C57

/-!
# C119: blogc-make runs the blogc that is meant
-/

namespace Blogc.C119

open Blogc Blogc.Make Blogc.Shell Blogc.Programs

/-- A blogc-make in `/opt/my site/bin`, with a blogc beside it, and no
environment. -/
def sample : Host where
  argv0 := some b!"/opt/my site/bin/blogc-make"
  env := fun _ => none
  kind := fun p => if p = b!"/opt/my site/bin/blogc" then .program else .missing

theorem sample_strings : CStrings sample := by
  refine ⟨fun a h => ?_, fun v e h => nomatch h⟩
  injection h with h
  subst h
  decide

theorem sample_dir : InDir b!"/opt/my site/bin/blogc-make" b!"/opt/my site/bin" :=
  (inDir_iff _ _ (by decide)).mpr (by decide +kernel)

/-- The path looked at is in the directory of the running program. -/
theorem beside_iff (h : Host) (name a : Str) (ha : h.argv0 = some a) (hs : c!"/" ∈ a) (p : Str) :
    Beside h name p ↔ p = besidePath a name ∧ h.kind p = .program := by
  have hne : a ≠ [] := fun e => by rw [e] at hs; cases hs
  constructor
  · rintro ⟨a', d, h1, -, h3, h4, h5⟩
    rw [ha] at h1
    injection h1 with h1
    subst h1
    refine ⟨?_, h5⟩
    rw [h4, besidePath, dirname_of a d h3]
  · rintro ⟨h1, h2⟩
    exact ⟨a, dirname a, ha, hs, (inDir_iff a _ hne).mpr rfl, h1, h2⟩

/-- The program meant is one: what is meant leaves no choice. -/
theorem unique (embedded : Bool) (h : Host) (name var w w' : Str) (hw : Intended embedded h name var w)
    (hw' : Intended embedded h name var w') : w = w' := by
  cases hw with
  | self a h1 h2 =>
    cases hw' with
    | self _ _ h4 => rw [h2] at h4; injection h4
    | told _ h3 => exact absurd h1 h3
    | beside _ h3 => exact absurd h1 h3
    | search h3 => exact absurd h1 h3
  | told e h1 h2 =>
    cases hw' with
    | self _ h3 => exact absurd h3 h1
    | told _ _ h4 => rw [h2] at h4; injection h4
    | beside _ _ h4 => rw [h2] at h4; cases h4
    | search _ h4 => rw [h2] at h4; cases h4
  | beside p h1 h2 h3 =>
    cases hw' with
    | self _ h4 => exact absurd h4 h1
    | told _ _ h4 => rw [h2] at h4; cases h4
    | beside _ _ _ h4 =>
      obtain ⟨a, d, ha, hs, -⟩ := id h3
      rw [((beside_iff h name a ha hs _).mp h3).1, ((beside_iff h name a ha hs _).mp h4).1]
    | search _ _ h4 => exact absurd h3 (h4 _)
  | search h1 h2 h3 =>
    cases hw' with
    | self _ h4 => exact absurd h4 h1
    | told _ _ h4 => rw [h2] at h4; cases h4
    | beside _ _ _ h4 => exact absurd h4 (h3 _)
    | search => rfl

example : Intended false sample b!"blogc" b!"BLOGC" b!"/opt/my site/bin/blogc" :=
  .beside _ (fun h => nomatch h.1) rfl ⟨_, _, rfl, by decide, sample_dir, by decide, by decide⟩

/-- The second try finds what is meant, when no directory stands there. -/
theorem near_spec (h : Host) (name : Str) (hf : NoFolder h name) :
    (∀ p, nearBinary h name = some p → Beside h name p) ∧
      (nearBinary h name = none → ∀ p, ¬ Beside h name p) := by
  unfold nearBinary
  cases ha : h.argv0 with
  | none =>
    refine ⟨fun p hp => (by cases hp), fun _ p hb => ?_⟩
    obtain ⟨a, d, h1, -⟩ := hb
    rw [ha] at h1
    cases h1
  | some a =>
    simp only
    by_cases hs : c!"/" ∈ a
    · have hne : a ≠ [] := fun e => by rw [e] at hs; cases hs
      have hfold : h.kind (besidePath a name) ≠ .folder :=
        hf a (dirname a) ha hs ((inDir_iff a _ hne).mpr rfl)
      rw [if_pos hs]
      unfold Host.accessX
      constructor
      · intro p hp
        cases hk : h.kind (besidePath a name) <;> rw [hk] at hp
        · cases hp
        · injection hp with hp
          exact (beside_iff h name a ha hs p).mpr ⟨hp.symm, hp ▸ hk⟩
        · exact absurd hk hfold
        · cases hp
      · intro hn p hb
        obtain ⟨h1, h2⟩ := (beside_iff h name a ha hs p).mp hb
        rw [h1] at h2
        rw [h2] at hn
        cases hn
    · rw [if_neg hs]
      refine ⟨fun p hp => (by cases hp), fun _ p hb => ?_⟩
      obtain ⟨a', d, h1, h2, -⟩ := hb
      rw [ha] at h1
      injection h1 with h1
      exact hs (h1 ▸ h2)

theorem near_strings (h : Host) (name : Str) (hs : CStrings h) (hn : NulFree name) :
    C57.OptOk (nearBinary h name) := by
  intro p hp
  unfold nearBinary at hp
  cases ha : h.argv0 with
  | none => rw [ha] at hp; cases hp
  | some a =>
    rw [ha] at hp
    simp only at hp
    by_cases hsl : c!"/" ∈ a
    · rw [if_pos hsl] at hp
      have hne : a ≠ [] := fun e => by rw [e] at hsl; cases hsl
      by_cases hx : h.accessX (besidePath a name) = true
      · rw [if_pos hx] at hp
        injection hp with hp
        rw [← hp]
        intro b hb
        have hd := inDir_part a _ ((inDir_iff a _ hne).mpr rfl) (hs.argv0 a ha)
        unfold besidePath at hb
        rcases List.mem_append.mp hb with h1 | h1
        · rcases List.mem_append.mp h1 with h2 | h2
          · exact hd b h2
          · have : b = c!"/" := by simpa using h2
            subst this
            decide
        · exact hn b h1
      · rw [if_neg hx] at hp; cases hp
    · rw [if_neg hsl] at hp; cases hp

/-- The shell always reads the text as one word, also when a directory is in the way:
no part of a path becomes an argument or another command. -/
theorem one_word (embedded : Bool) (h : Host) (name var : Str) (hs : CStrings h) (hp : C57.Plain name)
    (hne : name ≠ []) (hn : NulFree name) : ∃ w, words (lookBinary embedded h name var) = some [w] := by
  unfold lookBinary
  split
  · rename_i a ha
    have : h.argv0 = some a := by
      by_cases hc : embedded = true ∧ name = b!"blogc"
      · rwa [if_pos hc] at ha
      · rw [if_neg hc] at ha; cases ha
    exact ⟨a, C06.quote_word a (hs.argv0 a this)⟩
  · exact ⟨_, C57.binary_word name (h.env var) (nearBinary h name) hp hne (fun v e => hs.env var v e)
      (near_strings h name hs hn)⟩

example : ∃ w, words (lookBinary false sample b!"blogc" b!"BLOGC") = some [w] :=
  one_word false sample b!"blogc" b!"BLOGC" sample_strings (by decide +kernel) (by decide) (by decide)

/-- Proved part: the shell runs exactly the program meant, whatever the name
blogc-make is run by, the environment and the files, when no directory stands at
the path of the program. Missing: see `folder_violated`. -/
theorem runs_partial (embedded : Bool) (h : Host) (name var : Str) (hs : CStrings h) (hp : C57.Plain name)
    (hne : name ≠ []) (hn : NulFree name) (hf : NoFolder h name) (w : Str) :
    words (lookBinary embedded h name var) = some [w] ↔ Intended embedded h name var w := by
  have key : ∃ w', words (lookBinary embedded h name var) = some [w'] ∧ Intended embedded h name var w' := by
    by_cases hself : IsSelf embedded h name
    · obtain ⟨a, ha⟩ := Option.ne_none_iff_exists'.mp hself.2.2
      refine ⟨a, ?_, .self a hself ha⟩
      unfold lookBinary
      rw [if_pos ⟨hself.1, hself.2.1⟩, ha]
      exact C06.quote_word a (hs.argv0 a ha)
    · have e : lookBinary embedded h name var = findBinary name (h.env var) (nearBinary h name) := by
        unfold lookBinary
        by_cases hc : embedded = true ∧ name = b!"blogc"
        · have ha : h.argv0 = none := Classical.byContradiction fun hx => hself ⟨hc.1, hc.2, hx⟩
          rw [if_pos hc, ha]
        · rw [if_neg hc]
      rw [e]
      unfold findBinary
      cases he : h.env var with
      | some x => exact ⟨x, C06.quote_word x (hs.env var x he), .told x hself he⟩
      | none =>
        cases hx : nearBinary h name with
        | some p =>
          exact ⟨p, C06.quote_word p (near_strings h name hs hn p hx),
            .beside p hself he ((near_spec h name hf).1 p hx)⟩
        | none => exact ⟨name, C57.words_plain name hp hne, .search hself he ((near_spec h name hf).2 hx)⟩
  obtain ⟨w', h1, h2⟩ := key
  constructor
  · intro hw
    rw [h1] at hw
    injection hw with hw
    injection hw with hw
    exact hw ▸ h2
  · intro hw
    rw [unique embedded h name var w w' hw h2]
    exact h1

theorem sample_noFolder (name : Str) : NoFolder sample name := by
  intro a d _ _ _ hk
  have : ∀ p, sample.kind p ≠ .folder := by
    intro p
    show (if p = b!"/opt/my site/bin/blogc" then PathKind.program else .missing) ≠ .folder
    split <;> decide
  exact this _ hk

example : words (blogcBinary false sample) = some [b!"/opt/my site/bin/blogc"] ∧
    words (runserverBinary false sample) = some [b!"blogc-runserver"] := by
  refine ⟨(runs_partial false sample _ _ sample_strings (by decide +kernel) (by decide) (by decide)
      (sample_noFolder _) _).mpr
      (.beside _ (fun h => nomatch h.1) rfl ⟨_, _, rfl, by decide, sample_dir, by decide, by decide⟩),
    (runs_partial false sample _ _ sample_strings (by decide +kernel) (by decide) (by decide)
      (sample_noFolder _) _).mpr (.search (fun h => nomatch h.1) rfl ?_)⟩
  intro p hp
  obtain ⟨h1, h2⟩ := (beside_iff sample _ _ rfl (by decide) p).mp hp
  rw [h1] at h2
  revert h2
  decide +kernel

/-- Proved part: the command for a page begins with the program meant (after the
assignment for the locale), and its arguments are those meant. Missing: as for
`runs_partial`, and tags with a quote. -/
theorem page_command_partial (embedded : Bool) (h : Host) (exe : Str) (hs : CStrings h)
    (hf : NoFolder h b!"blogc") (hexe : Intended embedded h b!"blogc" b!"BLOGC" exe)
    (settings : Option CmdSettings) (globals locals : Option (Trie Str))
    (print : Option Str) (listing : Bool) (listingEntry template output : Option Str) (dev stdin : Bool)
    (hset : C57.VarsOk (settings.map (·.globals))) (hloc : C57.OptOk (settings.bind (·.locale)))
    (htags : ∀ tags, settings.bind (·.tags) = some tags → ∀ t ∈ tags, NulFree t ∧ c!"'" ∉ t)
    (hg : C57.VarsOk globals) (hl : C57.VarsOk locals)
    (hp : ∀ p, print = some p → C57.Plain p ∧ p ≠ [])
    (he : C57.OptOk listingEntry) (ht : C57.OptOk template) (ho : C57.OptOk output) :
    C57.Correct (blogcBinary embedded h) exe settings globals locals print listing listingEntry template output
      dev stdin :=
  C57.command_partial _ exe settings globals locals print listing listingEntry template output dev stdin
    ((runs_partial embedded h _ _ hs (by decide +kernel) (by decide) (by decide) hf exe).mpr hexe)
    hset hloc htags hg hl hp he ht ho

example : C57.Correct (blogcBinary false sample) b!"/opt/my site/bin/blogc" none none none none true none
    (some b!"templates/main.tmpl") (some b!"_build/it's.html") false true :=
  page_command_partial false sample _ sample_strings (sample_noFolder _)
    (.beside _ (fun h => nomatch h.1) rfl ⟨_, _, rfl, by decide, sample_dir, by decide, by decide⟩)
    none none none none true none _ _ false true (fun _ h => nomatch h) (fun _ h => nomatch h)
    (fun _ h => nomatch h) (fun _ h => nomatch h) (fun _ h => nomatch h) (fun _ h => nomatch h)
    (fun _ h => nomatch h) (fun v h => by injection h with h; subst h; decide)
    (fun v h => by injection h with h; subst h; decide)

/-- Proved part: the same for the web server. -/
theorem server_command_partial (embedded : Bool) (h : Host) (exe : Str) (hs : CStrings h)
    (hf : NoFolder h b!"blogc-runserver")
    (hexe : Intended embedded h b!"blogc-runserver" b!"BLOGC_RUNSERVER" exe)
    (host port threads : Option Str) (dir : Str) (hh : C57.OptOk host) (hp : C57.OptOk port)
    (ht : C57.OptOk threads) (hd : NulFree dir) :
    words (runserverCmd (runserverBinary embedded h) host port threads dir) =
      some (exe :: C57.flag b!"-t" host ++ C57.flag b!"-p" port ++ C57.flag b!"-m" threads ++ [dir]) :=
  C57.runserver_command _ exe host port threads dir
    ((runs_partial embedded h _ _ hs (by decide +kernel) (by decide) (by decide) hf exe).mpr hexe) hh hp ht hd

example : words (runserverCmd (runserverBinary true sample) (some b!"127.0.0.1") none none b!"/my site/_build") =
    some [b!"blogc-runserver", b!"-t", b!"127.0.0.1", b!"/my site/_build"] :=
  server_command_partial true sample _ sample_strings (sample_noFolder _)
    (.search (fun h => absurd h.2.1 (by decide)) rfl fun p hp => by
      obtain ⟨h1, h2⟩ := (beside_iff sample _ _ rfl (by decide) p).mp hp
      rw [h1] at h2
      revert h2
      decide +kernel)
    _ none none _ (fun v h => by injection h with h; subst h; decide) (fun _ h => nomatch h)
    (fun _ h => nomatch h) (by decide)

/-- A checkout where `blogc` beside blogc-make is a directory. -/
def checkout : Host where
  argv0 := some b!"./src/blogc-make"
  env := fun _ => none
  kind := fun p => if p = b!"./src/blogc" then .folder else .missing

/-- The property fails when a directory with the name of the program stands
beside blogc-make, as in the sources of blogc: `access` succeeds for it, and the
shell is told to run the directory, although the program in `PATH` is meant. -/
theorem folder_violated : ∃ h : Host, CStrings h ∧
    words (blogcBinary false h) = some [b!"./src/blogc"] ∧ h.kind b!"./src/blogc" = .folder ∧
    Intended false h b!"blogc" b!"BLOGC" b!"blogc" := by
  refine ⟨checkout, ⟨fun a h => ?_, fun v e h => nomatch h⟩, by decide +kernel, by decide,
    .search (fun h => nomatch h.1) rfl fun p hp => ?_⟩
  · injection h with h
    subst h
    decide
  · obtain ⟨h1, h2⟩ := (beside_iff checkout _ _ rfl (by decide) p).mp hp
    rw [h1] at h2
    revert h2
    decide +kernel

end Blogc.C119
