import Verif.Model.Remove

/-!
# C79: cleaning up after a deployment removes the directory, and nothing else

The hook unpacks the pushed revision into a new directory, builds the site there, and removes that
directory at the end, whatever it contains by then (`Remove.Remove`). `fs p` is what is found at
the path `p`.
-/

namespace Blogc.C79

open Blogc Blogc.Remove

/-- Entries are found only in directories. -/
def Tree (fs : FS) : Prop := ∀ p n, fs (p ++ [n]) ≠ none → fs p = some .dir

/-- No symbolic link in the directory `p` leads to a directory. -/
def NoDirLinks (fs : FS) (p : Path) : Prop :=
  ∀ q t r, p <+: q → fs q = some (.link t) → fs.stat q ≠ some (r, .dir)

/-- No symbolic link in the directory `p`. -/
def NoLinks (fs : FS) (p : Path) : Prop := ∀ q t, p <+: q → fs q ≠ some (.link t)

/-! ## Nothing is ever added -/

def Less (fs' fs : FS) : Prop := ∀ q, fs' q = none ∨ fs' q = fs q

theorem Less.refl (fs : FS) : Less fs fs := fun _ => .inr rfl

theorem Less.trans {a b c : FS} (h1 : Less a b) (h2 : Less b c) : Less a c := by
  intro q
  rcases h1 q with h | h
  · exact .inl h
  · rw [h]; exact h2 q

theorem Less.without (fs : FS) (p : Path) : Less (fs.without p) fs := by
  intro q
  unfold FS.without
  split
  · exact .inl rfl
  · exact .inr rfl

theorem stat_less {fs' fs : FS} (h : Less fs' fs) {p q : Path} {o : Obj} (hs : fs'.stat p = some (q, o)) :
    fs.stat p = some (q, o) := by
  unfold FS.stat at hs ⊢
  rcases h p with h1 | h1
  · rw [h1] at hs; exact absurd hs (by simp)
  · rw [h1] at hs
    rcases hp : fs p with _ | o'
    · rw [hp] at hs; exact absurd hs (by simp)
    · rw [hp] at hs
      cases o' with
      | file => exact hs
      | dir => exact hs
      | link t =>
        cases t with
        | none => exact absurd hs (by simp)
        | some t =>
          simp only at hs ⊢
          rcases h t with h2 | h2
          · rw [h2] at hs; exact absurd hs (by simp)
          · rwa [h2] at hs

/-- What `stat` finds is a file or a directory, at the path itself or behind a link. -/
theorem stat_cases {fs : FS} {p q : Path} {o : Obj} (h : fs.stat p = some (q, o)) :
    (q = p ∧ fs p = some o ∧ (o = .file ∨ o = .dir)) ∨
    (fs p = some (.link (some q)) ∧ fs q = some o ∧ (o = .file ∨ o = .dir)) := by
  unfold FS.stat at h
  rcases hp : fs p with _ | o'
  · rw [hp] at h; exact absurd h (by simp)
  · rw [hp] at h
    cases o' with
    | file => simp only [Option.some.injEq, Prod.mk.injEq] at h; exact .inl ⟨h.1.symm, by rw [← h.2], .inl h.2.symm⟩
    | dir => simp only [Option.some.injEq, Prod.mk.injEq] at h; exact .inl ⟨h.1.symm, by rw [← h.2], .inr h.2.symm⟩
    | link t =>
      cases t with
      | none => exact absurd h (by simp)
      | some t =>
        simp only at h
        rcases ht : fs t with _ | o''
        · rw [ht] at h; exact absurd h (by simp)
        · rw [ht] at h
          cases o'' with
          | file =>
            simp only [Option.some.injEq, Prod.mk.injEq] at h
            obtain ⟨rfl, rfl⟩ := h
            exact .inr ⟨rfl, ht, .inl rfl⟩
          | dir =>
            simp only [Option.some.injEq, Prod.mk.injEq] at h
            obtain ⟨rfl, rfl⟩ := h
            exact .inr ⟨rfl, ht, .inr rfl⟩
          | link _ => exact absurd h (by simp)

theorem rm_less {x : Part} {fs fs' : FS} {o : Out} (h : Rm x fs fs' o) : Less fs' fs := by
  induction h with
  | failed => exact .refl _
  | stopped _ _ _ ih => exact ih
  | done _ _ _ ih => exact (Less.without _ _).trans ih
  | notEmpty _ _ _ ih => exact ih
  | late _ _ ih => exact ih
  | nil => exact .refl _
  | refused _ => exact .refl _
  | file _ _ ih => exact ih.trans (Less.without _ _)
  | sub _ _ _ ih1 ih2 => exact ih2.trans ih1
  | subStopped _ _ _ ih => exact ih

/-! ## Entries stay in directories -/

theorem tree_without {fs : FS} (ht : Tree fs) {p : Path} (h : ∀ n, fs (p ++ [n]) = none) :
    Tree (fs.without p) := by
  intro q n hq
  unfold FS.without at hq ⊢
  by_cases h1 : q ++ [n] = p
  · rw [if_pos h1] at hq; exact absurd rfl hq
  · rw [if_neg h1] at hq
    by_cases h2 : q = p
    · subst h2; exact absurd (h n) hq
    · rw [if_neg h2]; exact ht q n hq

theorem rm_tree {x : Part} {fs fs' : FS} {o : Out} (h : Rm x fs fs' o) (ht : Tree fs) : Tree fs' := by
  induction h with
  | failed => exact ht
  | stopped _ _ _ ih => exact ih ht
  | done _ _ he ih => exact tree_without (ih ht) he
  | notEmpty _ _ _ ih => exact ih ht
  | late _ _ ih => exact ih ht
  | nil => exact ht
  | refused _ => exact ht
  | file hs _ ih =>
    refine ih (tree_without ht fun n => ?_)
    refine Classical.byContradiction fun hn => ?_
    have h1 := ht _ _ hn
    rcases stat_cases hs with ⟨-, h2, -⟩ | ⟨h2, -⟩
    · rw [h1] at h2; exact absurd h2 (by simp)
    · rw [h1] at h2; exact absurd h2 (by simp)
  | sub _ _ _ ih1 ih2 => exact ih2 (ih1 ht)
  | subStopped _ _ _ ih => exact ih ht

theorem tree_empty {fs : FS} (ht : Tree fs) : ∀ (r p : Path), fs p = none → fs (p ++ r) = none := by
  intro r
  induction r with
  | nil => intro p h; simpa using h
  | cons n r ih =>
    intro p h
    have h1 : fs (p ++ [n]) = none := Classical.byContradiction fun hn => by
      rw [ht _ _ hn] at h; exact absurd h (by simp)
    have := ih (p ++ [n]) h1
    simpa using this

/-- When the removal succeeds, the directory is gone with all that was in it. -/
theorem complete (fs fs' : FS) (p : Path) (ht : Tree fs) (h : Remove fs p fs' .done) :
    ∀ q, p <+: q → fs' q = none := by
  have : fs' p = none ∧ Tree fs' := by
    cases h with
    | absent h => exact ⟨h, ht⟩
    | dir _ h =>
      refine ⟨?_, rm_tree h ht⟩
      cases h with
      | stopped _ _ h => exact absurd rfl h
      | done => simp [FS.without]
  rintro q ⟨r, rfl⟩
  exact tree_empty this.2 r p this.1

/-! ## What is removed -/

/-- Where a part works. -/
def root : Part → Path
  | .dir p _ => p
  | .entries p _ => p

theorem noDirLinks_less {fs' fs : FS} {p q : Path} (h : Less fs' fs) (hn : NoDirLinks fs p) (hq : p <+: q) :
    NoDirLinks fs' q := by
  intro a t r ha hl hs
  have h2 := stat_less h hs
  rcases h a with h1 | h1
  · rw [h1] at hl; exact absurd hl (by simp)
  · rw [h1] at hl; exact hn a t r (hq.trans ha) hl h2

theorem prefix_append (p : Path) (n : Str) : p <+: p ++ [n] := ⟨[n], rfl⟩

theorem rm_inside {x : Part} {fs fs' : FS} {o : Out} (h : Rm x fs fs' o) (hn : NoDirLinks fs (root x)) :
    ∀ q, ¬ root x <+: q → fs' q = fs q := by
  induction h with
  | failed => intro q _; rfl
  | stopped _ _ _ ih => exact ih hn
  | done _ _ _ ih =>
    intro q hq
    rw [← ih hn q hq, FS.without, if_neg]
    rintro rfl
    exact hq (List.prefix_refl _)
  | notEmpty _ _ _ ih => exact ih hn
  | late _ _ ih => exact ih hn
  | nil => intro q _; rfl
  | refused _ => intro q _; rfl
  | file _ _ ih =>
    intro q hq
    rw [ih (noDirLinks_less (Less.without _ _) hn (List.prefix_refl _)) q hq, FS.without, if_neg]
    rintro rfl
    exact hq (prefix_append _ _)
  | @sub fs fs1 fs' p q n ns o hs h1 _ ih1 ih2 =>
    have e : q = p ++ [n] := by
      rcases stat_cases hs with ⟨e, -⟩ | ⟨hl, -⟩
      · exact e
      · exact absurd hs (hn _ _ _ (prefix_append p n) hl)
    subst e
    intro a ha
    rw [ih2 (noDirLinks_less (rm_less h1) hn (List.prefix_refl _)) a ha]
    exact ih1 (noDirLinks_less (.refl _) hn (prefix_append p n)) a fun h => ha ((prefix_append p n).trans h)
  | @subStopped fs fs' p q n ns o hs h1 _ ih1 =>
    have e : q = p ++ [n] := by
      rcases stat_cases hs with ⟨e, -⟩ | ⟨hl, -⟩
      · exact e
      · exact absurd hs (hn _ _ _ (prefix_append p n) hl)
    subst e
    intro a ha
    exact ih1 (noDirLinks_less (.refl _) hn (prefix_append p n)) a fun h => ha ((prefix_append p n).trans h)

/-- If no symbolic link in the directory leads to a directory, nothing outside is touched, however
the removal ends. What is missing: links to directories (`outside_violated`). -/
theorem only_inside_partial (fs fs' : FS) (p : Path) (o : Out) (hn : NoDirLinks fs p)
    (h : Remove fs p fs' o) : ∀ q, ¬ p <+: q → fs' q = fs q := by
  intro q hq
  cases h with
  | absent => rfl
  | notDir => rfl
  | failed => rfl
  | dir _ h => exact rm_inside h hn q hq

theorem rm_done_inside {x : Part} {fs fs' : FS} {o : Out} (h : Rm x fs fs' o) (ho : o = .done) :
    (∀ q, ¬ root x <+: q → fs' q = fs q) ∧ ∀ p l, x = .dir p l → l = false := by
  induction h with
  | failed => cases ho
  | stopped _ _ h => exact absurd ho h
  | done _ _ _ ih =>
    refine ⟨fun q hq => ?_, fun p l h => by cases h; rfl⟩
    rw [← (ih rfl).1 q hq, FS.without, if_neg]
    rintro rfl
    exact hq (List.prefix_refl _)
  | notEmpty => cases ho
  | late => cases ho
  | nil => exact ⟨fun q _ => rfl, nofun⟩
  | refused _ => cases ho
  | file _ _ ih =>
    refine ⟨fun q hq => ?_, nofun⟩
    rw [(ih ho).1 q hq, FS.without, if_neg]
    rintro rfl
    exact hq (prefix_append _ _)
  | @sub fs fs1 fs' p q n ns o hs h1 _ ih1 ih2 =>
    have e : q = p ++ [n] := by simpa using (ih1 rfl).2 _ _ rfl
    subst e
    refine ⟨fun a ha => ?_, nofun⟩
    rw [(ih2 ho).1 a ha]
    exact (ih1 rfl).1 a fun h => ha ((prefix_append p n).trans h)
  | subStopped _ _ h => exact absurd ho h

/-- A removal that succeeds has removed nothing outside, whatever the links: one that follows a
link to a directory ends with an error. -/
theorem done_only_inside (fs fs' : FS) (p : Path) (h : Remove fs p fs' .done) : ∀ q, ¬ p <+: q → fs' q = fs q := by
  intro q hq
  cases h with
  | absent => rfl
  | dir _ h => exact (rm_done_inside h rfl).1 q hq

/-! ## Whether it succeeds -/

theorem noLinks_less {fs' fs : FS} {p q : Path} (h : Less fs' fs) (hn : NoLinks fs p) (hq : p <+: q) :
    NoLinks fs' q := by
  intro a t ha hl
  rcases h a with h1 | h1
  · rw [h1] at hl; exact absurd hl (by simp)
  · rw [h1] at hl; exact hn a t (hq.trans ha) hl

theorem noDirLinks_of_noLinks {fs : FS} {p : Path} (h : NoLinks fs p) : NoDirLinks fs p :=
  fun q t _ hq hl => absurd hl (h q t hq)

/-- What a part needs: a directory with its listing, or entries that are there. -/
def Ready (fs : FS) : Part → Prop
  | .dir _ linked => linked = false
  | .entries p names => names.Nodup ∧ ∀ n ∈ names, fs (p ++ [n]) ≠ none

/-- What a part leaves. -/
def Gone (fs' : FS) : Part → Prop
  | .dir p _ => fs' p = none
  | .entries p names => ∀ n ∈ names, fs' (p ++ [n]) = none

theorem sibling {p q : Path} {n m : Str} (h : p ++ [n] <+: q) (e : q = p ++ [m]) : m = n := by
  subst e
  obtain ⟨r, hr⟩ := h
  rw [List.append_assoc] at hr
  have := List.append_cancel_left hr
  simp only [List.singleton_append, List.cons.injEq] at this
  exact this.1.symm

theorem rm_noLinks {x : Part} {fs fs' : FS} {o : Out} (h : Rm x fs fs' o) (hn : NoLinks fs (root x))
    (hr : Ready fs x) : o ≠ .refused ∧ (o = .done → Gone fs' x) := by
  induction h with
  | failed => exact ⟨by simp, by simp⟩
  | stopped hl _ hd ih => exact ⟨(ih hn ⟨hl.1, fun n h => (hl.2 n).1 h⟩).1, fun h => absurd h hd⟩
  | done _ _ _ ih => exact ⟨by simp, fun _ => by simp [Gone, FS.without]⟩
  | @notEmpty fs fs' p linked names hl h hb ih =>
    exfalso
    rcases hb with hb | ⟨n, hb⟩
    · rw [show linked = false from hr] at hb; exact absurd hb (by simp)
    · have h1 := (ih hn ⟨hl.1, fun n h => (hl.2 n).1 h⟩).2 rfl
      by_cases hm : n ∈ names
      · exact hb (h1 n hm)
      · have h2 : fs (p ++ [n]) = none := Classical.byContradiction fun h => hm ((hl.2 n).2 h)
        rcases rm_less h (p ++ [n]) with h3 | h3
        · exact hb h3
        · exact hb (h3.trans h2)
  | late => exact ⟨by simp, by simp⟩
  | nil => exact ⟨by simp, fun _ => by simp [Gone]⟩
  | @refused fs p n ns hs =>
    exfalso
    have h1 := hr.2 n (by simp)
    unfold FS.stat at hs
    rcases hp : fs (p ++ [n]) with _ | o'
    · exact h1 hp
    · cases o' with
      | file => rw [hp] at hs; exact absurd hs (by simp)
      | dir => rw [hp] at hs; exact absurd hs (by simp)
      | link t => exact hn _ _ (prefix_append p n) hp
  | @file fs fs' p q n ns o hs h ih =>
    obtain ⟨hd, hx⟩ := hr
    have h1 := ih (noLinks_less (Less.without _ _) hn (List.prefix_refl _))
      ⟨(List.nodup_cons.1 hd).2, fun m hm => by
        have hne : p ++ [m] ≠ p ++ [n] := by
          intro e
          have := List.append_cancel_left e
          simp only [List.cons.injEq, and_true] at this
          exact (List.nodup_cons.1 hd).1 (this ▸ hm)
        rw [FS.without, if_neg hne]
        exact hx m (by simp [hm])⟩
    refine ⟨h1.1, fun ho m hm => ?_⟩
    rcases List.mem_cons.1 hm with rfl | hm
    · rcases rm_less h (p ++ [m]) with h2 | h2
      · exact h2
      · rw [h2]; simp [FS.without]
    · exact h1.2 ho m hm
  | @sub fs fs1 fs' p q n ns o hs h1 h2 ih1 ih2 =>
    obtain ⟨hd, hx⟩ := hr
    have e : q = p ++ [n] := by
      rcases stat_cases hs with ⟨e, -⟩ | ⟨hl, -⟩
      · exact e
      · exact absurd hl (hn _ _ (prefix_append p n))
    subst e
    have hn' : NoLinks fs (p ++ [n]) := noLinks_less (.refl _) hn (prefix_append p n)
    have h3 := (ih1 hn' (by simp [Ready])).2 rfl
    have h4 := ih2 (noLinks_less (rm_less h1) hn (List.prefix_refl _))
      ⟨(List.nodup_cons.1 hd).2, fun m hm => by
        rw [rm_inside h1 (noDirLinks_of_noLinks hn') (p ++ [m]) fun hp =>
          (List.nodup_cons.1 hd).1 (sibling hp rfl ▸ hm)]
        exact hx m (by simp [hm])⟩
    refine ⟨h4.1, fun ho m hm => ?_⟩
    rcases List.mem_cons.1 hm with rfl | hm
    · rcases rm_less h2 (p ++ [m]) with h5 | h5
      · exact h5
      · rw [h5]; exact h3
    · exact h4.2 ho m hm
  | @subStopped fs fs' p q n ns o hs h1 hd ih1 =>
    have e : q = p ++ [n] := by
      rcases stat_cases hs with ⟨e, -⟩ | ⟨hl, -⟩
      · exact e
      · exact absurd hl (hn _ _ (prefix_append p n))
    subst e
    exact ⟨(ih1 (noLinks_less (.refl _) hn (prefix_append p n)) (by simp [Ready])).1,
      fun h => absurd h hd⟩

/-- A directory without symbolic links is removed, unless a system call fails. -/
theorem removed_partial (fs fs' : FS) (p : Path) (o : Out) (hd : fs p ≠ some .file) (hn : NoLinks fs p)
    (h : Remove fs p fs' o) : o = .done ∨ o = .failed := by
  have : o ≠ .refused := by
    cases h with
    | absent => simp
    | notDir h => exact absurd h hd
    | failed => simp
    | dir _ h => exact (rm_noLinks h hn rfl).1
  cases o with
  | done => exact .inl rfl
  | refused => exact absurd rfl this
  | failed => exact .inr rfl

/-! ## Symbolic links -/

theorem rm_link {x : Part} {fs fs' : FS} {o : Out} (h : Rm x fs fs' o) {a : Path} {t : Option Path}
    (hl : fs a = some (.link t)) (hf : ∀ r, fs.stat a ≠ some (r, .file))
    (hx : ∀ p l, x = .dir p l → fs p = some .dir) : fs' a = some (.link t) := by
  induction h with
  | failed => exact hl
  | stopped _ _ _ ih => exact ih hl hf (by simp)
  | @done fs fs' p names _ _ _ ih =>
    have hne : a ≠ p := by
      rintro rfl
      rw [hx a false rfl] at hl
      exact absurd hl (by simp)
    rw [FS.without, if_neg hne]
    exact ih hl hf (by simp)
  | notEmpty _ _ _ ih => exact ih hl hf (by simp)
  | late _ _ ih => exact ih hl hf (by simp)
  | nil => exact hl
  | refused _ => exact hl
  | @file fs fs' p q n ns o hs _ ih =>
    have hne : a ≠ p ++ [n] := by
      rintro rfl
      exact hf q hs
    refine ih ?_ ?_ (by simp)
    · rw [FS.without, if_neg hne]; exact hl
    · exact fun r h => hf r (stat_less (Less.without _ _) h)
  | @sub fs fs1 fs' p q n ns o hs h1 _ ih1 ih2 =>
    have hq : fs q = some .dir := by
      rcases stat_cases hs with ⟨rfl, h, -⟩ | ⟨-, h, -⟩ <;> exact h
    refine ih2 (ih1 hl hf ?_) (fun r h => hf r (stat_less (rm_less h1) h)) (by simp)
    intro p' l' e
    cases e
    exact hq
  | @subStopped fs fs' p q n ns o hs h1 _ ih1 =>
    have hq : fs q = some .dir := by
      rcases stat_cases hs with ⟨rfl, h, -⟩ | ⟨-, h, -⟩ <;> exact h
    refine ih1 hl hf ?_
    intro p' l' e
    cases e
    exact hq

/-- A symbolic link in the directory that leads to nothing, or to a directory, makes the removal
fail, always: the hook exits with status 2 and git rejects the push. -/
theorem dangling_violated (fs fs' : FS) (p q : Path) (t : Option Path) (o : Out) (ht : Tree fs) (hpq : p <+: q)
    (hl : fs q = some (.link t)) (hf : ∀ r, fs.stat q ≠ some (r, .file)) (h : Remove fs p fs' o) :
    o ≠ .done := by
  rintro rfl
  have h1 := complete fs fs' p ht h q hpq
  cases h with
  | absent h =>
    rw [hl] at h1
    exact absurd h1 (by simp)
  | dir hd h =>
    rw [rm_link h hl hf (by intro p' l' e; cases e; exact hd)] at h1
    exact absurd h1 (by simp)

/-- A file system: the checkout `/c` with a link `/c/l` to the directory `/h`, which has one
file. -/
def sample : FS := fun p =>
  if p = [] ∨ p = [b!"c"] ∨ p = [b!"h"] then some .dir
  else if p = [b!"c", b!"l"] then some (.link (some [b!"h"]))
  else if p = [b!"h", b!"f"] then some .file
  else none

theorem sample_tree : Tree sample := by
  intro p n h
  unfold sample at h ⊢
  have : p = [] ∨ p = [b!"c"] ∨ p = [b!"h"] := by
    by_cases h1 : p ++ [n] = [] ∨ p ++ [n] = [b!"c"] ∨ p ++ [n] = [b!"h"]
    · rcases h1 with h1 | h1 | h1
      · simp at h1
      · exact .inl (by cases p <;> simp_all)
      · exact .inl (by cases p <;> simp_all)
    · rw [if_neg h1] at h
      by_cases h2 : p ++ [n] = [b!"c", b!"l"]
      · exact .inr (.inl (List.append_inj_left' (t₁ := [n]) (s₂ := [b!"c"]) (t₂ := [b!"l"]) h2 rfl))
      · rw [if_neg h2] at h
        by_cases h3 : p ++ [n] = [b!"h", b!"f"]
        · exact .inr (.inr (List.append_inj_left' (t₁ := [n]) (s₂ := [b!"h"]) (t₂ := [b!"f"]) h3 rfl))
        · rw [if_neg h3] at h; exact absurd rfl h
  rw [if_pos this]

theorem sample_c (n : Str) : n ∈ [b!"l"] ↔ sample ([b!"c"] ++ [n]) ≠ none := by
  unfold sample
  by_cases h : n = b!"l" <;> simp [h]

theorem sample_h (n : Str) : n ∈ [b!"f"] ↔ sample ([b!"h"] ++ [n]) ≠ none := by
  unfold sample
  by_cases h : n = b!"f" <;> simp [h]

/-- The hypotheses of `dangling_violated` hold here. -/
example (fs' : FS) (o : Out) (h : Remove sample [b!"c"] fs' o) : o ≠ .done :=
  dangling_violated sample fs' [b!"c"] [b!"c", b!"l"] (some [b!"h"]) o sample_tree ⟨[b!"l"], rfl⟩ rfl
    (fun r => by rw [show sample.stat [b!"c", b!"l"] = some ([b!"h"], .dir) from rfl]; simp) h

/-- Removing the checkout removes the file outside, because a link leads there; no system call fails
for another reason. -/
theorem outside_violated : ∃ fs', Remove sample [b!"c"] fs' .refused ∧
    sample [b!"h", b!"f"] = some .file ∧ fs' [b!"h", b!"f"] = none := by
  refine ⟨sample.without [b!"h", b!"f"], .dir rfl (.stopped (names := [b!"l"]) ⟨by simp, sample_c⟩ ?_ (by simp)),
    rfl, rfl⟩
  refine .subStopped (p := [b!"c"]) (q := [b!"h"]) rfl ?_ (by simp)
  refine .notEmpty (names := [b!"f"]) ⟨by simp, sample_h⟩ ?_ (.inl rfl)
  exact .file (p := [b!"h"]) (q := [b!"h", b!"f"]) rfl (.nil _ _)

/-- The hypotheses hold for the directory without the link: it is removed. -/
example : Remove sample [b!"h"] ((sample.without [b!"h", b!"f"]).without [b!"h"]) .done :=
  .dir rfl (.done (names := [b!"f"]) ⟨by simp, sample_h⟩
    (.file (p := [b!"h"]) (q := [b!"h", b!"f"]) rfl (.nil _ _)) fun n => by
      by_cases h : n = b!"f"
      · subst h; rfl
      · rw [FS.without, if_neg (by simpa using h)]
        exact Classical.byContradiction fun hh => h (by simpa using (sample_h n).2 hh))

example : NoLinks sample [b!"h"] := by
  rintro q t ⟨r, rfl⟩ h
  unfold sample at h
  split at h
  · exact absurd h (by simp)
  · split at h
    · rename_i h1; simp at h1
    · split at h <;> exact absurd h (by simp)

end Blogc.C79
