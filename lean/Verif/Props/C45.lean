import Verif.Model.Deploy

/-!
# C45: a deploy always leaves a working site
-/

namespace Blogc.C45

open Blogc Blogc.Deploy

/-- The public link resolves to the complete build `t`. -/
def Serves (fs : FS) (t : Str) : Prop := fs.sym = .link t ∧ fs.dirs t = .complete

/-- What holds at each point of a deployment that replaces `old` by `out`. -/
def Inv (old out : Str) : PC → FS → Prop
  | .build, fs => Serves fs old
  | .realpath, fs => Serves fs old ∧ fs.dirs out = .complete
  | .unlink o, fs => o = old ∧ Serves fs old ∧ fs.dirs out = .complete
  | .symlink none, fs => Serves fs old
  | .symlink (some o), fs => o = old ∧ fs.sym = .absent ∧ fs.dirs old = .complete ∧ fs.dirs out = .complete
  | .removeOld o, fs => o = old ∧ Serves fs out
  | .removeNew, fs => Serves fs old ∨ (fs.sym = .absent ∧ fs.dirs old = .complete)
  | .done rv, fs => (rv = 0 ∧ Serves fs out) ∨ (rv = 2 ∧ Serves fs out) ∨
      (rv ≠ 0 ∧ (Serves fs old ∨ (fs.sym = .absent ∧ fs.dirs old = .complete)))

theorem setDir_other {fs : FS} {d x : Str} {s : Dir} (h : x ≠ d) : (fs.setDir d s).dirs x = fs.dirs x := by
  simp [FS.setDir, h]

theorem setDir_same {fs : FS} {d : Str} {s : Dir} : (fs.setDir d s).dirs d = s := by
  simp [FS.setDir]

theorem inv_step {old out : Str} (hne : old ≠ out) {c c' : Cfg} (h : Step out c c')
    (hi : Inv old out c.pc c.fs) : Inv old out c'.pc c'.fs := by
  cases h with
  | buildSome fs => exact ⟨hi.1, by rw [setDir_other hne]; exact hi.2⟩
  | buildOk fs => exact ⟨⟨hi.1, by rw [setDir_other hne]; exact hi.2⟩, setDir_same⟩
  | buildFail fs => exact .inl hi
  | realpathOk fs t ht =>
    have : t = old := by have := ht.1; rw [hi.1.1] at this; cases this; rfl
    exact ⟨this, hi⟩
  | realpathDir fs p hp => rw [hi.1.1] at hp; cases hp
  | realpathFail fs => exact hi.1
  | unlinkOk fs t o ht => exact ⟨hi.1, rfl, hi.2.1.2, hi.2.2⟩
  | unlinkFail fs o => exact .inl hi.2.1
  | symlinkOld fs o hs => exact ⟨hi.1, rfl, hi.2.2.2⟩
  | symlinkNone fs hs => rw [hi.1] at hs; cases hs
  | symlinkFail fs o =>
    cases o with
    | none => exact .inl hi
    | some o => exact .inr ⟨hi.2.1, hi.2.2.1⟩
  | removeOldSome fs o =>
    obtain ⟨rfl, h⟩ := hi
    exact ⟨rfl, h.1, by rw [setDir_other hne.symm]; exact h.2⟩
  | removeOldDone fs o =>
    obtain ⟨rfl, h⟩ := hi
    exact .inl ⟨rfl, h.1, by rw [setDir_other hne.symm]; exact h.2⟩
  | removeOldExit fs o => exact .inr (.inl ⟨rfl, hi.2⟩)
  | removeNewSome fs =>
    rcases hi with h | h
    · exact .inl ⟨h.1, by rw [setDir_other hne]; exact h.2⟩
    · exact .inr ⟨h.1, by rw [setDir_other hne]; exact h.2⟩
  | removeNewDone fs =>
    refine .inr (.inr ⟨by decide, ?_⟩)
    rcases hi with h | h
    · exact .inl ⟨h.1, by rw [setDir_other hne]; exact h.2⟩
    · exact .inr ⟨h.1, by rw [setDir_other hne]; exact h.2⟩
  | removeNewExit fs => exact .inr (.inr ⟨by decide, hi⟩)

theorem inv_reaches {old out : Str} (hne : old ≠ out) {fs : FS} (h0 : Serves fs old) {c : Cfg}
    (h : Reaches out ⟨.build, fs⟩ c) : Inv old out c.pc c.fs := by
  induction h with
  | refl => exact h0
  | tail _ hs ih => exact inv_step hne hs ih

/-- At every point of a deployment into a directory other than the one being
served, whatever fails: the site is the complete previous build or the complete
new one, except that between the removal of the old link and the creation of the
new one, and for good if that creation fails, there is no link; the previous build
is still complete then. Missing: that exception (`always_served_violated`), and
deployments into the directory being served (`reused_directory_violated`). -/
theorem always_served_partial (old out : Str) (hne : old ≠ out) (fs : FS) (h0 : Serves fs old)
    (c : Cfg) (h : Reaches out ⟨.build, fs⟩ c) :
    Serves c.fs old ∨ Serves c.fs out ∨ (c.fs.sym = .absent ∧ c.fs.dirs old = .complete) := by
  have hi := inv_reaches hne h0 h
  obtain ⟨pc, fs'⟩ := c
  cases pc with
  | build => exact .inl hi
  | realpath => exact .inl hi.1
  | unlink o => exact .inl hi.2.1
  | symlink o =>
    cases o with
    | none => exact .inl hi
    | some o => exact .inr (.inr ⟨hi.2.1, hi.2.2.1⟩)
  | removeOld o => exact .inr (.inl hi.2)
  | removeNew =>
    rcases hi with h | h
    · exact .inl h
    · exact .inr (.inr h)
  | done rv =>
    rcases hi with h | h | ⟨-, h | h⟩
    · exact .inr (.inl h.2)
    · exact .inr (.inl h.2)
    · exact .inl h
    · exact .inr (.inr h)

/-- A deployment that reports success serves the complete new build. -/
theorem success_serves_new (old out : Str) (hne : old ≠ out) (fs : FS) (h0 : Serves fs old)
    (fs' : FS) (h : Reaches out ⟨.build, fs⟩ ⟨.done 0, fs'⟩) : Serves fs' out := by
  have hi : Inv old out (.done 0) fs' := inv_reaches hne h0 h
  rcases hi with h | h | h
  · exact h.2
  · exact absurd h.1 (by decide)
  · exact absurd rfl h.1

/-- Steps of a deployment whose build failed. -/
theorem failed_build_keeps_site (old out : Str) (hne : old ≠ out) (fs : FS) (h0 : Serves fs old)
    (c : Cfg) (h : Reaches out ⟨.removeNew, fs⟩ c) : Serves c.fs old := by
  have key : Serves c.fs old ∧ (c.pc = .removeNew ∨ ∃ rv, c.pc = .done rv) := by
    induction h with
    | refl => exact ⟨h0, .inl rfl⟩
    | tail _ hs ih =>
      obtain ⟨h1, h2⟩ := ih
      cases hs <;> simp at h2
      · exact ⟨⟨h1.1, by rw [setDir_other hne]; exact h1.2⟩, .inl rfl⟩
      · exact ⟨⟨h1.1, by rw [setDir_other hne]; exact h1.2⟩, .inr ⟨_, rfl⟩⟩
      · exact ⟨h1, .inr ⟨_, rfl⟩⟩
  exact key.1

/-- A site and a new build. -/
def site : FS := ⟨.link b!"/b/1", fun d => if d = b!"/b/1" then .complete else .absent⟩

/-- Interrupted between the two calls, the site is gone: the link resolves to
nothing. -/
theorem always_served_violated : ∃ c, Serves site b!"/b/1" ∧ Reaches b!"/b/2" ⟨.build, site⟩ c ∧
    ∀ t, ¬ Serves c.fs t := by
  refine ⟨⟨.symlink (some b!"/b/1"), { site.setDir b!"/b/2" .complete with sym := .absent }⟩,
    ⟨rfl, rfl⟩, ?_, ?_⟩
  · refine .tail (.tail (.tail (.refl _) (.buildOk _)) (.realpathOk _ b!"/b/1" ⟨rfl, ?_⟩))
      (.unlinkOk _ b!"/b/1" _ rfl)
    decide
  · intro t h; exact absurd h.1 (by simp)

/-- The same holds without any interruption, if creating the link fails. -/
theorem failed_symlink_violated : ∃ fs', Serves site b!"/b/1" ∧
    Reaches b!"/b/2" ⟨.build, site⟩ ⟨.done 1, fs'⟩ ∧ ∀ t, ¬ Serves fs' t := by
  refine ⟨({ site.setDir b!"/b/2" .complete with sym := .absent } : FS).setDir b!"/b/2" .absent,
    ⟨rfl, rfl⟩, ?_, ?_⟩
  · refine .tail (.tail (.tail (.tail (.tail (.refl _) (.buildOk _))
      (.realpathOk _ b!"/b/1" ⟨rfl, ?_⟩)) (.unlinkOk _ b!"/b/1" _ rfl)) (.symlinkFail _ _))
      (.removeNewDone _)
    decide
  · intro t h; exact absurd h.1 (by simp [FS.setDir])

/-- The chosen output directory is fresh unless both names are taken. -/
theorem chooseOut_fresh (fs : FS) (base : Str)
    (h : fs.dirs base = .absent ∨ fs.dirs (base ++ b!"-") = .absent) :
    fs.dirs (chooseOut fs base) = .absent := by
  unfold chooseOut
  split
  · rename_i hb
    rcases h with h | h
    · exact absurd h hb
    · exact h
  · rename_i hb; simpa using hb

/-- A deployment interrupted while it removes the previous build, followed by
another deployment of the same revision in the same second: it chooses the
directory being served, and removes it although it reports success. -/
theorem reused_directory_violated : ∃ (base : Str) (c1 : Cfg) (fs2 : FS),
    let fs0 : FS := ⟨.link base, fun d => if d = base then .complete else .absent⟩
    Serves fs0 base ∧ Reaches (chooseOut fs0 base) ⟨.build, fs0⟩ c1 ∧
    Serves c1.fs (chooseOut fs0 base) ∧
    Reaches (chooseOut c1.fs base) ⟨.build, c1.fs⟩ ⟨.done 0, fs2⟩ ∧ ∀ t, ¬ Serves fs2 t := by
  let fs0 : FS := ⟨.link b!"r", fun d => if d = b!"r" then .complete else .absent⟩
  let fs1 : FS := { fs0.setDir b!"r-" .complete with sym := .link b!"r-" }
  refine ⟨b!"r", ⟨.removeOld b!"r", fs1⟩,
    ({ { fs1.setDir b!"r-" .complete with sym := .absent } with sym := .link b!"r-" } : FS).setDir b!"r-" .absent,
    ⟨rfl, rfl⟩, ?_, ⟨rfl, rfl⟩, ?_, ?_⟩
  · refine .tail (.tail (.tail (.tail (.refl _) (.buildOk _)) (.realpathOk _ b!"r" ⟨rfl, ?_⟩))
      (.unlinkOk _ b!"r" _ rfl)) (.symlinkOld _ _ rfl)
    decide
  · refine .tail (.tail (.tail (.tail (.tail (.refl _) (.buildOk _)) (.realpathOk _ b!"r-" ⟨rfl, ?_⟩))
      (.unlinkOk _ b!"r-" _ rfl)) (.symlinkOld _ _ rfl)) (.removeOldDone _ _)
    decide
  · intro t h
    have h1 := h.1
    simp only [FS.setDir, Sym.link.injEq] at h1
    subst h1
    have h2 := h.2
    rw [setDir_same] at h2
    cases h2

/-- Once the link points to a directory that does not exist, no deployment can
repair it: the link is not removed, and creating it fails. -/
theorem dangling_violated (t out : Str) (hne : t ≠ out) (fs : FS) (h0 : fs.sym = .link t)
    (hd : fs.dirs t = .absent) (c : Cfg) (h : Reaches out ⟨.build, fs⟩ c) :
    c.fs.sym = .link t ∧ c.fs.dirs t = .absent := by
  have key : (c.fs.sym = .link t ∧ c.fs.dirs t = .absent) ∧
      (∀ o, c.pc ≠ .unlink o ∧ c.pc ≠ .removeOld o ∧ c.pc ≠ .symlink (some o)) := by
    induction h with
    | refl => exact ⟨⟨h0, hd⟩, by simp⟩
    | tail _ hs ih =>
      obtain ⟨⟨h1, h2⟩, h3⟩ := ih
      cases hs with
      | buildSome fs => exact ⟨⟨h1, by rw [setDir_other hne]; exact h2⟩, by simp⟩
      | buildOk fs => exact ⟨⟨h1, by rw [setDir_other hne]; exact h2⟩, by simp⟩
      | buildFail fs => exact ⟨⟨h1, h2⟩, by simp⟩
      | realpathOk fs t' ht =>
        have : t' = t := by have := ht.1; rw [h1] at this; cases this; rfl
        subst this
        exact absurd h2 ht.2
      | realpathDir fs p hp => rw [h1] at hp; cases hp
      | realpathFail fs => exact ⟨⟨h1, h2⟩, by simp⟩
      | unlinkOk fs t' o ht => exact absurd rfl (h3 o).1
      | unlinkFail fs o => exact absurd rfl (h3 o).1
      | symlinkOld fs o hs => exact absurd rfl (h3 o).2.2
      | symlinkNone fs hs => rw [h1] at hs; cases hs
      | symlinkFail fs o => exact ⟨⟨h1, h2⟩, by simp⟩
      | removeOldSome fs o => exact absurd rfl (h3 o).2.1
      | removeOldDone fs o => exact absurd rfl (h3 o).2.1
      | removeOldExit fs o => exact absurd rfl (h3 o).2.1
      | removeNewSome fs => exact ⟨⟨h1, by rw [setDir_other hne]; exact h2⟩, by simp⟩
      | removeNewDone fs => exact ⟨⟨h1, by rw [setDir_other hne]; exact h2⟩, by simp⟩
      | removeNewExit fs => exact ⟨⟨h1, h2⟩, by simp⟩
  exact key.1

/-- A complete successful deployment exists. -/
example : ∃ fs', Reaches b!"/b/2" ⟨.build, site⟩ ⟨.done 0, fs'⟩ ∧ Serves fs' b!"/b/2" := by
  refine ⟨_, .tail (.tail (.tail (.tail (.tail (.refl _) (.buildOk _))
    (.realpathOk _ b!"/b/1" ⟨rfl, ?_⟩)) (.unlinkOk _ b!"/b/1" _ rfl)) (.symlinkOld _ _ rfl))
    (.removeOldDone _ _), rfl, ?_⟩
  · decide
  · decide

end Blogc.C45
