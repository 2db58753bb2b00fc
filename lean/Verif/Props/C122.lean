import Verif.Lemmas.RemoveMemory

/-!
# C122: removing a directory gives back memory and directory streams
-/

namespace Blogc.C122

open Blogc Blogc.Remove Blogc.RemoveMem Blogc.Spec.RemoveAccount

/-! ## A removal -/

/-- A directory with a directory that has one file. -/
def sample : FS := fun q =>
  if q = [b!"t"] then some .dir else if q = [b!"t", b!"d"] then some .dir
  else if q = [b!"t", b!"d", b!"f"] then some .file else none

/-- The names in it, by the length of the path. -/
theorem listing_single {fs : FS} {p : Path} {n : Str} (h : ∀ m, fs (p ++ [m]) ≠ none ↔ m = n) :
    fs.Listing p [n] := by
  refine ⟨by simp, fun m => ?_⟩
  rw [h m, List.mem_singleton]

/-- It is removed, with these events. -/
theorem sample_removed : ∃ fs', RemoveM sample [b!"t"] fs' .done
    [.acquire (.stream 0), .use (.stream 0), .acquire (.name 0), .use (.name 0),
      .use (.name 0), .acquire (.stream 1), .use (.stream 1), .use (.name 0), .acquire (.name 1), .use (.name 1),
      .use (.name 1), .release (.name 1), .use (.stream 1), .release (.stream 1), .use (.name 0), .release (.name 0),
      .use (.stream 0), .release (.stream 0)] := by
  have hl0 : sample.Listing [b!"t"] [b!"d"] := by
    refine listing_single fun m => ?_
    simp [sample]
  have hl1 : sample.Listing [b!"t", b!"d"] [b!"f"] := by
    refine listing_single fun m => ?_
    simp [sample]
  have hfile : RmM 1 (.entries [b!"t", b!"d"] [b!"f"]) sample (sample.without ([b!"t", b!"d"] ++ [b!"f"])) .done
      (nextEntry 1 ++ [.use (.name 1), .release (.name 1)] ++ []) :=
    .file (q := [b!"t", b!"d", b!"f"]) (by rfl) (.nil 1 _ _)
  have hsub : RmM 1 (.dir [b!"t", b!"d"] false) sample _ .done _ := .done hl1 hfile (by
    intro n
    simp only [FS.without, sample]
    grind)
  refine ⟨_, .dir (by rfl) (.done hl0 (.sub (q := [b!"t", b!"d"]) (by rfl) hsub (.nil 0 _ _)) ?_)⟩
  intro n
  simp only [FS.without, sample]
  grind

/-- A directory with a directory that has a symbolic link leading nowhere. -/
def broken : FS := fun q =>
  if q = [b!"t"] then some .dir else if q = [b!"t", b!"d"] then some .dir
  else if q = [b!"t", b!"d", b!"f"] then some (.link none) else none

/-- It is not removed. -/
theorem broken_refused : RemoveM broken [b!"t"] broken .refused
    [.acquire (.stream 0), .use (.stream 0), .acquire (.name 0), .use (.name 0),
      .use (.name 0), .acquire (.stream 1), .use (.stream 1), .use (.name 0), .acquire (.name 1), .use (.name 1),
      .release (.name 1)] := by
  have hl0 : broken.Listing [b!"t"] [b!"d"] := by
    refine listing_single fun m => ?_
    simp [broken]
  have hl1 : broken.Listing [b!"t", b!"d"] [b!"f"] := by
    refine listing_single fun m => ?_
    simp [broken]
  have hsub : RmM 1 (.dir [b!"t", b!"d"] false) broken broken .refused _ :=
    .stopped hl1 (.refused (by rfl)) (by simp)
  exact .dir (by rfl) (.stopped hl0 (.subStopped (q := [b!"t", b!"d"]) (by rfl) hsub (by simp)) (by simp))

/-- The removals with memory are those of Model/Remove.lean (C79, C80). -/
theorem same (fs : FS) (p : Path) (fs' : FS) (o : Out) :
    Remove fs p fs' o ↔ ∃ ev, RemoveM fs p fs' o ev := by
  constructor
  · intro h
    cases h with
    | absent h => exact ⟨_, .absent h⟩
    | notDir h => exact ⟨_, .notDir h⟩
    | failed => exact ⟨_, .failed fs p⟩
    | dir h1 h2 => obtain ⟨ev, h⟩ := accounted h2 0; exact ⟨ev, .dir h1 h⟩
  · rintro ⟨ev, h⟩
    cases h with
    | absent h => exact .absent h
    | notDir h => exact .notDir h
    | failed => exact .failed fs p
    | dir h1 h2 => exact .dir h1 (erase h2)

/-- When the function returns, every name is released and every directory stream is closed, and nothing was used or
released that was not in use. -/
theorem returned (fs : FS) (p : Path) (fs' : FS) (ev : List Event) (h : RemoveM fs p fs' .done ev) :
    inUse ev nothing = some nothing := by
  cases h with
  | absent => rfl
  | dir h1 h2 =>
    obtain ⟨l, e, ha⟩ := part_account h2
    have := ha.1 rfl
    subst this
    simp only [before, onTheWay_zero] at e
    exact e

example : ∃ fs' ev, RemoveM sample [b!"t"] fs' .done ev :=
  have ⟨fs', h⟩ := sample_removed
  ⟨fs', _, h⟩

/-- When it gives up, the process ends. What is in use then are the streams of the directories it is in and their
names: nothing of the files and directories that were removed before, however many they are. -/
theorem gave_up (fs : FS) (p : Path) (fs' : FS) (o : Out) (ev : List Event) (h : RemoveM fs p fs' o ev) :
    ∃ s n, n ≤ s ∧ s ≤ n + 1 ∧ inUse ev nothing = some (onTheWay s n) := by
  cases h with
  | absent => exact ⟨0, 0, by omega, by omega, by rw [onTheWay_zero]; rfl⟩
  | notDir => exact ⟨0, 0, by omega, by omega, by rw [onTheWay_zero]; rfl⟩
  | failed => exact ⟨0, 0, by omega, by omega, by rw [onTheWay_zero]; rfl⟩
  | dir h1 h2 =>
    obtain ⟨l, e, ha⟩ := part_account h2
    obtain ⟨s, n, h1, h2, rfl⟩ := ha.2
    simp only [before, onTheWay_zero] at e
    exact ⟨s, n, h1, h2, e⟩

example : (inUse [.acquire (.stream 0), .use (.stream 0), .acquire (.name 0), .use (.name 0),
      .use (.name 0), .acquire (.stream 1), .use (.stream 1), .use (.name 0), .acquire (.name 1), .use (.name 1),
      .release (.name 1)] nothing).map
        (fun l => [l (.stream 0), l (.name 0), l (.stream 1), l (.name 1), l (.stream 2)]) =
    some [true, true, true, false, false] := by decide

/-- At every moment nothing is used or released that is not in use. -/
theorem any_moment (fs : FS) (p : Path) (fs' : FS) (o : Out) (before after : List Event)
    (h : RemoveM fs p fs' o (before ++ after)) : ∃ l, inUse before nothing = some l := by
  obtain ⟨s, n, _, _, e⟩ := gave_up fs p fs' o _ h
  rw [inUse_append] at e
  cases eb : inUse before nothing with
  | none => rw [eb] at e; cases e
  | some l => exact ⟨l, rfl⟩

example : ∃ before after, RemoveM broken [b!"t"] broken .refused (before ++ after) ∧ before.length = 6 :=
  ⟨[.acquire (.stream 0), .use (.stream 0), .acquire (.name 0), .use (.name 0), .use (.name 0), .acquire (.stream 1)],
    [.use (.stream 1), .use (.name 0), .acquire (.name 1), .use (.name 1), .release (.name 1)], broken_refused, rfl⟩

end Blogc.C122
