import Verif.Lemmas.Clean
import Verif.Props.C86

/-!
# C91: cleaning undoes a build
-/

namespace Blogc.C91

open Blogc Blogc.Make Blogc.Remove Blogc.Spec.Disk
open Blogc.Path (norm comps walk comps_append_slash walk_append)

/-- Cleaning succeeds, and leaves exactly what is meant: of all that is below the
output directory, the listed files and the directories that hold nothing else are
removed, and nothing else is. -/
theorem exact_partial {out short : Str} (hd : Dirs out short) (fs : FS) (ht : Tree fs) (files : List FileCtx)
    (h : OnDisk out short fs files) (fs' : FS) (rv : Option Nat) :
    Runs (clean out files) fs fs' rv ↔
      fs' = Cleaned fs (norm out) ((files.filter (·.readable)).map fun f => norm f.path) ∧ rv = some 0 := by
  have := clean_runs hd fs ht files [] h (by simp)
  rw [cleaned_nil, List.nil_append] at this
  constructor
  · intro h2
    exact runs_unique h2 this
  · rintro ⟨rfl, rfl⟩
    exact this

/-- A build into an output directory that did not exist, followed by a clean, leaves
the disk as it was before. -/
theorem undo_partial {out short : Str} (hd : Dirs out short) {fs : FS} (ht : Tree fs) (hr : Reachable fs out)
    (hroot : ∀ q n, norm out = q ++ [n] → fs q = some .dir)
    (hout : fs (norm out) = none) {files : List FileCtx} (h : Outputs out short files) (fs' : FS) (rv : Option Nat) :
    Runs (clean out files) (writeAll fs files) fs' rv ↔ fs' = fs ∧ rv = some 0 := by
  have hout : ∀ q, norm out <+: q → fs q = none := by
    intro q hq
    by_cases hn : fs q = none
    · exact hn
    · exact absurd (tree_up ht hq hn) (by rw [hout]; simp)
  have e := fun q => writeAll_eq hd hr hout files h.listed h.apart q
  have hfilter : files.filter (·.readable) = files := List.filter_eq_self.2 h.readable
  have hdisk : OnDisk out short (writeAll fs files) files := by
    refine ⟨fun f hf _ => ?_, fun f hf _ => ⟨.file, ?_, by simp⟩, by rw [hfilter]; exact h.once⟩
    · obtain ⟨names, hl, -⟩ := h.listed f hf
      exact ⟨names, hl⟩
    · rw [e, if_pos ⟨f, hf, rfl⟩]
  rw [exact_partial hd _ (built_tree hd ht hr hroot hout h) files hdisk fs' rv, hfilter]
  have : Cleaned (writeAll fs files) (norm out) (files.map fun f => norm f.path) = fs := by
    funext q
    by_cases hq : norm out <+: q
    · rw [hout q hq]
      refine cleaned_none.2 (.inr ⟨hq, fun r hqr hg => ?_⟩)
      rw [e] at hg
      by_cases h1 : ∃ f ∈ files, r = norm f.path
      · obtain ⟨f, hf, rfl⟩ := h1
        exact ⟨_, List.mem_map.2 ⟨f, hf, rfl⟩, List.prefix_refl _⟩
      · rw [if_neg h1] at hg
        by_cases h2 : norm out <+: r ∧ ∃ f ∈ files, r <+: norm f.path
        · obtain ⟨-, f, hf, h3⟩ := h2
          exact ⟨_, List.mem_map.2 ⟨f, hf, rfl⟩, h3⟩
        · rw [if_neg h2] at hg
          exact absurd (hout r (hq.trans hqr)) hg
    · have : writeAll fs files q = fs q := by
        rw [e, if_neg, if_neg fun h => hq h.1]
        rintro ⟨f, hf, rfl⟩
        obtain ⟨names, hl, -⟩ := h.listed f hf
        have hnorm : norm f.path = norm out ++ names := by rw [hl.path]; exact norm_below out _ hl.proper.2
        exact hq (by rw [hnorm]; exact List.prefix_append _ _)
      rw [← this]
      by_cases hn : writeAll fs files q = none
      · rw [hn]; exact cleaned_none.2 (.inl hn)
      · refine cleaned_some fun hc => ?_
        rcases cleaned_none.1 hc with h' | ⟨h', -⟩
        · exact hn h'
        · exact hq h'
  rw [this]

/-- The rule `clean`, run after a build of the site into an output directory that did
not exist, reports success and leaves the disk as it was before the build. -/
theorem site_partial (s : Site) (run : Shell) (files : List (Option FileCtx)) (hb : s.builtFiles run = .ok files)
    (places : List (List Str)) (hp : Places places)
    (hf : (files.filterMap id).map (·.shortPath) = places.map (below s.outDir))
    (hd : Dirs (absPath s.root s.outDir) s.outDir) (fs : FS) (ht : Tree fs)
    (hr : Reachable fs (absPath s.root s.outDir))
    (hroot : ∀ q n, norm (absPath s.root s.outDir) = q ++ [n] → fs q = some .dir)
    (hout : fs (norm (absPath s.root s.outDir)) = none)
    (hstat : ∀ p, (s.stat p).isSome = (built fs (absPath s.root s.outDir) places (norm p)).isSome) :
    ∃ prog, s.cleanExec run = .ok prog ∧
      ∀ fs' rv, Runs prog (built fs (absPath s.root s.outDir) places) fs' rv ↔ fs' = fs ∧ rv = some 0 := by
  set out := absPath s.root s.outDir with hout0
  have hmade : ∀ f ∈ files.filterMap id, f.path = absPath s.root f.shortPath ∧ f.readable = (s.stat f.path).isSome := by
    intro f hf
    obtain ⟨o, ho, e⟩ := List.mem_filterMap.1 hf
    exact made_built s run files hb o ho f e
  have habs : ∀ names, absPath s.root (below s.outDir names) = below out names := by
    intro names
    unfold below
    rw [absPath_append _ _ _ hd.shortBase.1]
  have hpaths : (files.filterMap id).map (·.path) = places.map (below out) := by
    have : (files.filterMap id).map (·.path) = ((files.filterMap id).map (·.shortPath)).map (absPath s.root) := by
      rw [List.map_map]
      exact List.map_congr_left fun f hf => (hmade f hf).1
    rw [this, hf, List.map_map]
    exact List.map_congr_left fun names _ => habs names
  have hbuilt : built fs out places = writeAll fs (files.filterMap id) := by
    have h1 : built fs out places = (places.map (below out)).foldl write fs := by rw [List.foldl_map]; rfl
    have h2 : writeAll fs (files.filterMap id) = ((files.filterMap id).map (·.path)).foldl write fs := by
      rw [List.foldl_map]; rfl
    rw [h1, h2, hpaths]
  have hname : ∀ f ∈ files.filterMap id, ∃ names ∈ places, Listed out s.outDir f names := by
    intro f hf2
    have : f.shortPath ∈ places.map (below s.outDir) := by rw [← hf]; exact List.mem_map.2 ⟨f, hf2, rfl⟩
    obtain ⟨names, hn, e⟩ := List.mem_map.1 this
    exact ⟨names, hn, ⟨(hp.proper names hn).1, fun n h => ((hp.proper names hn).2 n h).1⟩,
      by rw [(hmade f hf2).1, ← e, habs], e.symm⟩
  have hnorm : ∀ names ∈ places, norm (below out names) = norm out ++ names := fun names hn =>
    norm_below out _ fun n h => ((hp.proper names hn).2 n h).1
  have hout2 : ∀ q, norm out <+: q → fs q = none := by
    intro q hq
    by_cases hn : fs q = none
    · exact hn
    · exact absurd (tree_up ht hq hn) (by rw [hout]; simp)
  have hlisted : ∀ f ∈ files.filterMap id, ∃ names, Listed out s.outDir f names ∧ ∀ n ∈ names, c!"\\" ∉ n := by
    intro f hf2
    obtain ⟨names, hn, h⟩ := hname f hf2
    exact ⟨names, h, fun n h => ((hp.proper names hn).2 n h).2⟩
  have hapart : ∀ f ∈ files.filterMap id, ∀ g ∈ files.filterMap id, norm f.path <+: norm g.path → norm f.path = norm g.path := by
    intro f hf2 g hg2 h
    obtain ⟨p, hp1, hp2⟩ := hname f hf2
    obtain ⟨q, hq1, hq2⟩ := hname g hg2
    rw [hp2.path, hq2.path, hnorm p hp1, hnorm q hq1] at h ⊢
    rw [hp.apart p hp1 q hq1 ((List.prefix_append_right_inj _).1 h)]
  have hO : Outputs out s.outDir (files.filterMap id) := by
    refine ⟨fun f hf2 => ?_, hlisted, ?_, hapart⟩
    · rw [(hmade f hf2).2, hstat, hbuilt, writeAll_eq hd hr hout2 _ hlisted hapart, if_pos ⟨f, hf2, rfl⟩]
      rfl
    · have : (files.filterMap id).map (fun f => norm f.path) = places.map (norm out ++ ·) := by
        rw [show (fun f : FileCtx => norm f.path) = norm ∘ (·.path) from rfl, ← List.map_map, hpaths, List.map_map]
        exact List.map_congr_left hnorm
      rw [this]
      exact hp.once.map fun a b h => List.append_cancel_left h
  refine ⟨_, by unfold Site.cleanExec; rw [hb]; rfl, fun fs' rv => ?_⟩
  rw [hbuilt]
  exact undo_partial hd ht hr hroot hout hO fs' rv

/-! ## A site -/

/-- A disk with the settings file of a site. -/
def disk : FS := fun q =>
  if q = [] ∨ q = [b!"site"] then some .dir else if q = [b!"site", b!"blogcfile"] then some .file else none

theorem disk_tree : Tree disk := by
  intro p n h
  unfold disk at h ⊢
  by_cases h1 : p ++ [n] = [] ∨ p ++ [n] = [b!"site"]
  · rcases h1 with h1 | h1
    · simp at h1
    · have : p = [] := (List.append_inj' (t₂ := [b!"site"]) (s₂ := []) h1 rfl).1
      rw [this]; simp
  · rw [if_neg h1] at h
    by_cases h2 : p ++ [n] = [b!"site", b!"blogcfile"]
    · have : p = [b!"site"] := (List.append_inj' (t₂ := [b!"blogcfile"]) (s₂ := [b!"site"]) h2 rfl).1
      rw [this]; simp
    · rw [if_neg h2] at h; exact absurd rfl h

/-- Where the files of the site of C86 go. -/
def samplePlaces : List (List Str) :=
  [[b!"index.html"], [b!"atom.xml"], [b!"atom", b!"x.xml"], [b!"atom", b!"y.xml"],
    [b!"page", b!"1", b!"index.html"], [b!"page", b!"2", b!"index.html"],
    [b!"tag", b!"x", b!"page", b!"1", b!"index.html"], [b!"tag", b!"y", b!"page", b!"1", b!"index.html"],
    [b!"post", b!"one", b!"index.html"], [b!"post", b!"two", b!"index.html"], [b!"post", b!"three", b!"index.html"],
    [b!"tag", b!"x", b!"index.html"], [b!"tag", b!"y", b!"index.html"], [b!"about", b!"index.html"]]

/-- The site after the build. -/
def sampleSite : Site :=
  { C86.site b!"_build" with
    stat := fun p => (built disk b!"/site/_build" samplePlaces (norm p)).map fun _ => (0, 0) }

instance (n : Str) : Decidable (Proper n) := by unfold Proper; infer_instance

theorem sample_places : Places samplePlaces := ⟨by decide +kernel, by decide +kernel, by decide +kernel⟩

theorem dirs : Dirs b!"/site/_build" b!"_build" := by
  refine ⟨⟨?_, ?_⟩, ⟨?_, ?_⟩, ?_, ?_⟩ <;> decide

theorem reachable : Reachable disk b!"/site/_build" := by
  unfold Reachable
  decide +kernel

theorem above (q : Remove.Path) (n : Str) (h : norm b!"/site/_build" = q ++ [n]) : disk q = some .dir := by
  have e : [b!"site"] ++ [b!"_build"] = q ++ [n] := by rw [← h]; decide +kernel
  have : q = [b!"site"] := (List.append_inj' e rfl).1.symm
  rw [this]; decide

/-- The rule `clean` undoes the build of the site of C86, with fourteen files. -/
example : ∃ prog, sampleSite.cleanExec C86.shell = .ok prog ∧
    ∀ fs' rv, Runs prog (built disk b!"/site/_build" samplePlaces) fs' rv ↔ fs' = disk ∧ rv = some 0 := by
  have hfiles : ∃ files, sampleSite.builtFiles C86.shell = .ok files ∧
      (files.filterMap id).map (·.shortPath) = samplePlaces.map (below b!"_build") := by
    refine ⟨_, rfl, ?_⟩
    decide +kernel
  obtain ⟨files, h1, h2⟩ := hfiles
  exact site_partial sampleSite C86.shell files h1 samplePlaces sample_places h2 dirs disk disk_tree
    reachable above (by decide +kernel)
    fun p => by show Option.isSome (Option.map _ _) = _; rw [Option.isSome_map]; rfl

/-- Two built files. -/
def sampleFiles : List FileCtx :=
  [⟨b!"/site/_build/a", b!"_build/a", none, 0, 0, true⟩, ⟨b!"/site/_build/d/b", b!"_build/d/b", none, 0, 0, true⟩,
    ⟨b!"/site/_build/c", b!"_build/c", none, 0, 0, false⟩]

/-- The two files and another one that the user put there. -/
def sampleDisk : FS := built disk b!"/site/_build" [[b!"a"], [b!"d", b!"b"], [b!"d", b!"mine"]]

theorem sample_tree : Tree sampleDisk := by
  let files : List FileCtx := [⟨b!"/site/_build/a", b!"_build/a", none, 0, 0, true⟩,
    ⟨b!"/site/_build/d/b", b!"_build/d/b", none, 0, 0, true⟩,
    ⟨b!"/site/_build/d/mine", b!"_build/d/mine", none, 0, 0, true⟩]
  have h : Outputs b!"/site/_build" b!"_build" files := by
    refine ⟨by decide, ?_, by decide +kernel, by decide +kernel⟩
    intro f hf
    have : f ∈ files := hf
    simp only [files, List.mem_cons, List.not_mem_nil, or_false] at this
    rcases this with rfl | rfl | rfl
    · exact ⟨[b!"a"], ⟨by decide, rfl, rfl⟩, by decide⟩
    · exact ⟨[b!"d", b!"b"], ⟨by decide, rfl, rfl⟩, by decide⟩
    · exact ⟨[b!"d", b!"mine"], ⟨by decide, rfl, rfl⟩, by decide⟩
  refine built_tree dirs disk_tree reachable above (fun q hq => ?_) h
  by_cases hn : disk q = none
  · exact hn
  · exact absurd (tree_up disk_tree hq hn) (by decide +kernel)

/-- Cleaning removes the two files, and keeps the file of the user and the directories
around it. -/
example (fs' : FS) (rv : Option Nat) (h : Runs (clean b!"/site/_build" sampleFiles) sampleDisk fs' rv) :
    rv = some 0 ∧ fs' [b!"site", b!"_build", b!"a"] = none ∧ fs' [b!"site", b!"_build", b!"d", b!"b"] = none ∧
      fs' [b!"site", b!"_build", b!"d", b!"mine"] = some .file ∧ fs' [b!"site", b!"_build", b!"d"] = some .dir := by
  have hd : OnDisk b!"/site/_build" b!"_build" sampleDisk sampleFiles := by
    refine ⟨?_, ?_, by decide +kernel⟩ <;> intro f hf hr <;>
      simp only [sampleFiles, List.mem_cons, List.not_mem_nil, or_false] at hf <;> rcases hf with rfl | rfl | rfl
    · exact ⟨[b!"a"], ⟨by decide, rfl, rfl⟩⟩
    · exact ⟨[b!"d", b!"b"], ⟨by decide, rfl, rfl⟩⟩
    · cases hr
    · exact ⟨.file, by decide +kernel, by decide⟩
    · exact ⟨.file, by decide +kernel, by decide⟩
    · cases hr
  obtain ⟨rfl, rfl⟩ := (exact_partial dirs sampleDisk sample_tree sampleFiles hd fs' rv).1 h
  have hmine : sampleDisk [b!"site", b!"_build", b!"d", b!"mine"] = some .file := by decide +kernel
  have hdir : sampleDisk [b!"site", b!"_build", b!"d"] = some .dir := by decide +kernel
  have only : ∀ (f r : Remove.Path), sampleDisk f = some .file → f <+: r → sampleDisk r ≠ none → r = f := by
    intro f r hf hfr hr
    by_cases e : r = f
    · exact e
    · obtain ⟨x, hx⟩ := prefix_child hfr e
      have := sample_tree _ _ (tree_up sample_tree hx hr)
      rw [hf] at this; cases this
  have keep : ∀ q, q <+: [b!"site", b!"_build", b!"d", b!"mine"] → sampleDisk q ≠ none →
      Cleaned sampleDisk (norm b!"/site/_build") ((sampleFiles.filter (·.readable)).map fun f => norm f.path) q =
        sampleDisk q := by
    intro q hq hn
    refine cleaned_some fun hc => ?_
    rcases cleaned_none.1 hc with h | ⟨-, h⟩
    · exact hn h
    · obtain ⟨l, hl, hp⟩ := h _ hq (by rw [hmine]; simp)
      have : ∀ l ∈ (sampleFiles.filter (·.readable)).map fun f => norm f.path,
          ¬ [b!"site", b!"_build", b!"d", b!"mine"] <+: l := by decide +kernel
      exact this l hl hp
  refine ⟨rfl, ?_, ?_, ?_, ?_⟩
  · refine cleaned_none.2 (.inr ⟨by decide +kernel, fun r h1 h2 => ?_⟩)
    rw [only _ r (by decide +kernel) h1 h2]
    exact ⟨_, List.mem_cons_self .., by decide +kernel⟩
  · refine cleaned_none.2 (.inr ⟨by decide +kernel, fun r h1 h2 => ?_⟩)
    rw [only _ r (by decide +kernel) h1 h2]
    exact ⟨_, List.mem_cons_of_mem _ (List.mem_cons_self ..), by decide +kernel⟩
  · rw [keep _ (by decide +kernel) (by rw [hmine]; simp), hmine]
  · rw [keep _ (by decide +kernel) (by rw [hdir]; simp), hdir]

/-! ## Where it fails -/

/-- A site with pages only, after a build. -/
def pagesSite (pages : List Str) (places : List (List Str)) : Site :=
  { C86.site b!"_build" with
    cfg := ⟨.nil, set C86.table b!"html_ext" b!".html", none, some pages, none, none⟩
    stat := fun p => (built disk b!"/site/_build" places (norm p)).map fun _ => (0, 0) }

/-- When two pages go to the same file, the rule `clean` fails at the second one and
leaves the rest of the build behind. Here a page is listed twice. -/
theorem twice_violated : ∃ (s : Site) (run : Shell) (files : List (Option FileCtx)) (places : List (List Str))
      (prog : Prog RmCall (Option Nat)) (fs' : FS),
    s.builtFiles run = .ok files ∧ (files.filterMap id).map (·.shortPath) = places.map (below s.outDir) ∧
      (∀ p, (s.stat p).isSome = (built disk (absPath s.root s.outDir) places (norm p)).isSome) ∧
      s.cleanExec run = .ok prog ∧
      Runs prog (built disk (absPath s.root s.outDir) places) fs' (some 1) ∧
      fs' [b!"site", b!"_build", b!"b.html"] = some .file := by
  refine ⟨pagesSite [b!"a", b!"a", b!"b"] [[b!"a.html"], [b!"a.html"], [b!"b.html"]], fun _ _ => none, _,
    [[b!"a.html"], [b!"a.html"], [b!"b.html"]], _,
    (built disk b!"/site/_build" [[b!"a.html"], [b!"a.html"], [b!"b.html"]]).without (norm b!"/site/_build/a.html"),
    rfl, by decide +kernel, fun p => ?_, rfl, ?_, by decide +kernel⟩
  · show Option.isSome (Option.map _ _) = _
    rw [Option.isSome_map]; rfl
  · show Runs (clean b!"/site/_build" [⟨b!"/site/_build/a.html", b!"_build/a.html", none, 0, 0, true⟩,
      ⟨b!"/site/_build/a.html", b!"_build/a.html", none, 0, 0, true⟩,
      ⟨b!"/site/_build/b.html", b!"_build/b.html", none, 0, 0, true⟩])
      (built disk b!"/site/_build" [[b!"a.html"], [b!"a.html"], [b!"b.html"]]) _ _
    refine .call (.unlink (o := .file) (by decide +kernel) (by decide)) ?_
    refine .call (.read (by decide +kernel)) ?_
    refine .call (.entry (n := b!"b.html") (by decide +kernel)) ?_
    refine .call (.noFile (by decide +kernel)) ?_
    exact .ret _ _

/-- An output directory that was there and was empty is not there any more after a
build and a clean. -/
theorem empty_directory_violated : ∃ (fs : FS) (files : List FileCtx) (fs' : FS),
    Tree fs ∧ Reachable fs b!"/site/_build" ∧ Outputs b!"/site/_build" b!"_build" files ∧
      fs (norm b!"/site/_build") = some .dir ∧
      Runs (clean b!"/site/_build" files) (writeAll fs files) fs' (some 0) ∧ fs' (norm b!"/site/_build") = none := by
  let fs : FS := fun q => if q = [b!"site", b!"_build"] then some .dir else disk q
  let file : FileCtx := ⟨b!"/site/_build/a", b!"_build/a", none, 0, 0, true⟩
  have h0 : norm b!"/site/_build/a" = [b!"site", b!"_build", b!"a"] := by decide +kernel
  have h1 : norm b!"/site/_build" = [b!"site", b!"_build"] := by decide +kernel
  have hd : dirname b!"/site/_build/a" = b!"/site/_build" := by decide +kernel
  refine ⟨fs, [file], ((write fs b!"/site/_build/a").without (norm b!"/site/_build/a")).without (norm b!"/site/_build"),
    ?_, by unfold Reachable; decide +kernel, ?_, by decide +kernel, ?_, by decide +kernel⟩
  · intro p n h
    show (if p = _ then _ else disk p) = _
    by_cases hp : p = [b!"site", b!"_build"]
    · rw [if_pos hp]
    · rw [if_neg hp]
      change (if p ++ [n] = [b!"site", b!"_build"] then _ else disk (p ++ [n])) ≠ _ at h
      by_cases hq : p ++ [n] = [b!"site", b!"_build"]
      · have e : p = [b!"site"] := (List.append_inj' (t₂ := [b!"_build"]) (s₂ := [b!"site"]) hq rfl).1
        rw [e]; decide
      · rw [if_neg hq] at h
        exact disk_tree p n h
  · refine ⟨by simp [file], ?_, by simp, by simp⟩
    intro f hf
    rw [List.mem_singleton.1 hf]
    exact ⟨[b!"a"], ⟨by decide, rfl, rfl⟩, by decide⟩
  · have hempty : ∀ n, (write fs b!"/site/_build/a").without (norm b!"/site/_build/a") (norm b!"/site/_build" ++ [n]) = none := by
      intro n
      rw [h0, h1]
      unfold FS.without
      by_cases hn : n = b!"a"
      · rw [if_pos (by rw [hn]; rfl)]
      · have hne : [b!"site", b!"_build"] ++ [n] ≠ [b!"site", b!"_build", b!"a"] := fun e =>
          hn (List.singleton_injective (List.append_inj' (s₁ := [b!"site", b!"_build"]) (s₂ := [b!"site", b!"_build"]) (t₂ := [b!"a"]) e rfl).2)
        rw [if_neg hne]
        unfold write
        rw [h0, if_neg hne, fold_mkdir, if_neg]
        · show (if [b!"site", b!"_build"] ++ [n] = _ then _ else disk _) = none
          rw [if_neg (by simp)]
          unfold disk
          rw [if_neg (by simp), if_neg (by simp)]
        · intro hm
          have : ∀ q ∈ (parentDirs [] b!"/site/_build/a").map norm, q.length < 3 := by decide +kernel
          have := this _ hm
          simp at this
    have hfile : write fs b!"/site/_build/a" (norm b!"/site/_build/a") = some .file := by decide +kernel
    refine .call (ok := true) (.unlink hfile (by decide)) ?_
    show Runs (if (true = false) then _ else rmLoop b!"/site/_build" _ 10 (dirname b!"_build/a") (dirname b!"/site/_build/a")) _ _ _
    have hs : dirname b!"_build/a" = b!"_build" := by decide +kernel
    rw [if_neg (by simp), hd, hs, rmLoop, if_neg (by decide)]
    refine .call (ok := true) (.read (by decide +kernel)) ?_
    rw [if_neg (by simp)]
    refine .call (ok := true) (.empty hempty) ?_
    rw [if_neg (by simp)]
    refine .call (ok := true) (.rmdir (by decide +kernel) hempty) ?_
    rw [if_neg (by simp), if_pos rfl]
    exact .ret _ _

end Blogc.C91
