import Verif.Spec.MakeCopy
import Verif.Lemmas.MakeSite
import Verif.Props.C53
import Verif.Lemmas.Path

/-!
# C89: the rule `copy` mirrors the named files and directories
-/

namespace Blogc.C89

open Blogc Blogc.Make
open Blogc.Spec.MakeJobs
open Blogc.Spec.MakeCopy (Below Found under names GoodDir Good Copy due Of Makes)
open Blogc.Path

/-! ## The files found -/

theorem isDots_iff (n : Str) : isDots n = false ↔ n ≠ b!"." ∧ n ≠ b!".." := by
  unfold isDots
  simp

/-- The context of a file found. -/
def ctxOf (root f : Str) (t : Int × Int) : FileCtx := ⟨absPath root f, f, none, t.1, t.2, true⟩

theorem mem_expandDir (root : Str) (d : Forest) : ∀ (f : Str) (x : FileCtx),
    x ∈ expandDir root f d ↔ ∃ p t, Below d p t ∧ x = ctxOf root (under f p) t := by
  induction d with
  | nil =>
    intro f x
    simp only [expandDir, List.not_mem_nil, false_iff]
    rintro ⟨p, t, h, -⟩
    cases h
  | gone n rest ih =>
    intro f x
    rw [expandDir, ih]
    constructor
    · rintro ⟨p, t, h, e⟩
      exact ⟨p, t, .nextGone _ _ _ _ h, e⟩
    · rintro ⟨p, t, h, e⟩
      cases h with
      | nextGone _ _ _ _ h => exact ⟨p, t, h, e⟩
  | file n sec nsec rest ih =>
    intro f x
    simp only [expandDir, List.mem_append]
    rw [ih]
    constructor
    · rintro (h | ⟨p, t, h, e⟩)
      · cases hn : isDots n with
        | true => rw [hn, if_pos rfl] at h; cases h
        | false =>
          rw [hn, if_neg (by simp)] at h
          exact ⟨[n], (sec, nsec), .file _ _ _ _ ((isDots_iff n).1 hn), List.mem_singleton.1 h⟩
      · exact ⟨p, t, .nextFile _ _ _ _ _ _ h, e⟩
    · rintro ⟨p, t, h, e⟩
      cases h with
      | file _ _ _ _ hn =>
        rw [if_neg (by simp [(isDots_iff n).2 hn])]
        exact .inl (by rw [e]; exact List.mem_singleton.2 rfl)
      | nextFile _ _ _ _ _ _ h => exact .inr ⟨p, t, h, e⟩
  | dir n kids rest ihk ih =>
    intro f x
    simp only [expandDir, List.mem_append]
    rw [ih]
    constructor
    · rintro (h | ⟨p, t, h, e⟩)
      · cases hn : isDots n with
        | true => rw [hn, if_pos rfl] at h; cases h
        | false =>
          rw [hn, if_neg (by simp), ihk] at h
          obtain ⟨p, t, h, e⟩ := h
          exact ⟨n :: p, t, .inside _ _ _ _ _ ((isDots_iff n).1 hn) h, e⟩
      · exact ⟨p, t, .nextDir _ _ _ _ _ h, e⟩
    · rintro ⟨p, t, h, e⟩
      cases h with
      | inside _ _ _ p _ hn h =>
        rw [if_neg (by simp [(isDots_iff n).2 hn]), ihk]
        exact .inl ⟨p, t, h, e⟩
      | nextDir _ _ _ _ _ h => exact .inr ⟨p, t, h, e⟩

theorem mem_expand (root f : Str) (w : Forest) (x : FileCtx) :
    x ∈ expand root f w ↔ ∃ p t, Found w p t ∧ x = ctxOf root (under f p) t := by
  unfold expand
  cases w with
  | nil =>
    simp only [List.not_mem_nil, false_iff]
    rintro ⟨p, t, h, -⟩
    cases h
  | gone n rest =>
    simp only [List.not_mem_nil, false_iff]
    rintro ⟨p, t, h, -⟩
    cases h
  | file n sec nsec rest =>
    simp only [List.mem_singleton]
    constructor
    · rintro rfl
      exact ⟨[], (sec, nsec), .file _ _ _ _, rfl⟩
    · rintro ⟨p, t, h, e⟩
      cases h with
      | file => exact e
  | dir n kids rest =>
    simp only
    rw [mem_expandDir]
    constructor
    · rintro ⟨p, t, h, e⟩
      exact ⟨p, t, .dir _ _ _ _ _ h, e⟩
    · rintro ⟨p, t, h, e⟩
      cases h with
      | dir _ _ _ _ _ h => exact ⟨p, t, h, e⟩

/-! ## Each file is found once -/

theorem under_append (f g : Str) (p : List Str) : under (f ++ g) p = f ++ under g p := by
  induction p generalizing g with
  | nil => rfl
  | cons n p ih =>
    show under (f ++ g ++ b!"/" ++ n) p = f ++ under (g ++ b!"/" ++ n) p
    rw [← ih]
    simp only [List.append_assoc]

theorem under_cons (f n : Str) (p : List Str) : under f (n :: p) = f ++ b!"/" ++ under n p := by
  show under (f ++ b!"/" ++ n) p = _
  rw [under_append]

theorem below_head {d : Forest} {p : List Str} {t : Int × Int} (h : Below d p t) :
    ∃ n q, p = n :: q ∧ n ∈ names d := by
  induction h with
  | file n => exact ⟨n, [], rfl, by simp [names]⟩
  | inside n kids rest p t _ _ _ => exact ⟨n, p, rfl, by simp [names]⟩
  | nextFile _ _ _ _ _ _ _ ih | nextDir _ _ _ _ _ _ ih | nextGone _ _ _ _ _ ih =>
    obtain ⟨n, q, e, hn⟩ := ih
    exact ⟨n, q, e, List.mem_cons_of_mem _ hn⟩

theorem good_names {d : Forest} (h : GoodDir d) : ∀ n ∈ names d, c!"/" ∉ n := by
  induction d with
  | nil => simp [names]
  | file n _ _ rest ih =>
    intro m hm
    rcases List.mem_cons.1 hm with rfl | hm
    · exact h.2.1
    · exact ih h.2.2 m hm
  | dir n kids rest _ ih =>
    intro m hm
    rcases List.mem_cons.1 hm with rfl | hm
    · exact h.2.1
    · exact ih h.2.2.2 m hm
  | gone n rest ih =>
    intro m hm
    rcases List.mem_cons.1 hm with rfl | hm
    · exact h.2.1
    · exact ih h.2.2 m hm

/-- The first name of a path can be read back. -/
theorem under_head {n m : Str} {p q : List Str} (hn : c!"/" ∉ n) (hm : c!"/" ∉ m)
    (h : under n p = under m q) : n = m := by
  have key : ∀ (n : Str) (p : List Str), c!"/" ∉ n → (under n p).takeWhile (· != c!"/") = n := by
    intro n p hn
    have hw : ∀ a ∈ n, (a != c!"/") = true := by
      intro a ha
      simp only [bne_iff_ne]
      rintro rfl
      exact hn ha
    cases p with
    | nil =>
      show n.takeWhile _ = n
      have := List.takeWhile_append_of_pos (l₂ := []) hw
      simpa using this
    | cons x p =>
      rw [under_cons, List.append_assoc, List.takeWhile_append_of_pos hw]
      simp [List.takeWhile]
  rw [← key n p hn, h, key m q hm]

theorem expandDir_nodup (root : Str) (d : Forest) (h : GoodDir d) : ∀ f : Str,
    ((expandDir root f d).map (·.shortPath)).Nodup := by
  have disj : ∀ (n f : Str) (p q : List Str) (rest : Forest) (t : Int × Int), n ∉ names rest → c!"/" ∉ n →
      GoodDir rest → Below rest q t → under f (n :: p) ≠ under f q := by
    intro n f p q rest t hn hs hg hb e
    obtain ⟨m, q', rfl, hm⟩ := below_head hb
    rw [under_cons, under_cons] at e
    have := List.append_cancel_left e
    have := under_head hs (good_names hg m hm) this
    exact hn (this ▸ hm)
  induction d with
  | nil => intro f; exact List.nodup_nil
  | gone n rest ih => intro f; exact ih h.2.2 f
  | file n sec nsec rest ih =>
    intro f
    simp only [expandDir, List.map_append]
    rw [List.nodup_append]
    refine ⟨?_, ih h.2.2 f, ?_⟩
    · split <;> simp
    · intro a ha b hb
      obtain ⟨x, hx, rfl⟩ := List.mem_map.1 hb
      obtain ⟨q, t, hq, rfl⟩ := (mem_expandDir root rest f x).1 hx
      split at ha
      · cases ha
      · have ha : a = under f [n] := List.mem_singleton.1 ha
        rw [ha]
        exact disj n f [] q rest t h.1 h.2.1 h.2.2 hq
  | dir n kids rest ihk ih =>
    intro f
    simp only [expandDir, List.map_append]
    rw [List.nodup_append]
    refine ⟨?_, ih h.2.2.2 f, ?_⟩
    · split
      · simp
      · exact ihk h.2.2.1 _
    · intro a ha b hb
      obtain ⟨x, hx, rfl⟩ := List.mem_map.1 hb
      obtain ⟨q, t, hq, rfl⟩ := (mem_expandDir root rest f x).1 hx
      split at ha
      · cases ha
      · obtain ⟨y, hy, rfl⟩ := List.mem_map.1 ha
        obtain ⟨p, u, hp, rfl⟩ := (mem_expandDir root kids _ y).1 hy
        exact disj n f p q rest t h.1 h.2.1 h.2.2.2 hq

theorem expand_nodup (root f : Str) (w : Forest) (h : Good w) : ((expand root f w).map (·.shortPath)).Nodup := by
  unfold expand
  cases w with
  | nil => exact List.nodup_nil
  | gone => exact List.nodup_nil
  | file => simp
  | dir n kids rest => exact expandDir_nodup root kids h f

/-! ## The loop -/

/-- The copy meant by a file found. -/
def copyOf (s : Site) (x : FileCtx) : Copy :=
  ⟨x.path, outDir s ++ b!"/" ++ x.shortPath, (x.sec, x.nsec)⟩

theorem need_eq (s : Site) (ho : s.outDir ≠ []) (hset : s.settingsFile.head? = some c!"/") (x : FileCtx)
    (hx : x.readable = true) :
    needRebuild [some x] s.settings none none (some (s.at (s.outDir ++ b!"/" ++ x.shortPath) none)) true =
      due s (copyOf s x) := by
  have hp : absPath s.root (s.outDir ++ b!"/" ++ x.shortPath) = outDir s ++ b!"/" ++ x.shortPath := by
    rw [List.append_assoc, absPath_append _ _ _ ho, List.append_assoc]
    rfl
  have hs : absPath s.root s.settingsFile = s.settingsFile := by
    unfold absPath
    rw [if_pos hset]
  unfold needRebuild due
  show _ = match s.stat (outDir s ++ b!"/" ++ x.shortPath) with
    | none => true
    | some t => _
  cases ht : s.stat (outDir s ++ b!"/" ++ x.shortPath) with
  | none =>
    have : (s.at (s.outDir ++ b!"/" ++ x.shortPath) none).readable = false := by
      unfold Site.at; rw [hp, ht]
    simp only [this, Bool.not_false, if_true]
  | some t =>
    have hr : (s.at (s.outDir ++ b!"/" ++ x.shortPath) none).readable = true := by
      unfold Site.at; rw [hp, ht]
    have hsec : (s.at (s.outDir ++ b!"/" ++ x.shortPath) none).sec = t.1 := by
      unfold Site.at; rw [hp, ht]
    have hnsec : (s.at (s.outDir ++ b!"/" ++ x.shortPath) none).nsec = t.2 := by
      unfold Site.at; rw [hp, ht]
    have e1 : inputNewer (some x) (s.at (s.outDir ++ b!"/" ++ x.shortPath) none) =
        decide (Later (x.sec, x.nsec) t) := by
      unfold inputNewer
      simp only [hx, hsec, hnsec, Bool.not_true, Bool.false_eq_true, if_false, Later]
      by_cases h : x.sec = t.1
      · rw [if_pos h]; simp [h]
      · rw [if_neg h]; simp [h]
    have e2 := at_newer s s.settingsFile (s.outDir ++ b!"/" ++ x.shortPath) none none t (by rw [hp, ht])
    rw [hs] at e2
    simp only [hr, Bool.not_true, Bool.false_eq_true, if_false]
    show anyNewer _ [some (s.at s.settingsFile none), some x] = _
    rw [anyNewer, e2, anyNewer, e1, anyNewer]
    unfold outdates
    cases s.stat s.settingsFile with
    | none => rfl
    | some u =>
      simp only
      show _ = (decide (Later u t) || decide (Later (x.sec, x.nsec) t))
      by_cases h1 : Later u t <;> by_cases h2 : Later (x.sec, x.nsec) t <;> simp [h1, h2]

theorem loop_makes (s : Site) (ho : s.outDir ≠ []) (hset : s.settingsFile.head? = some c!"/")
    (cp : Str → Str → Int) (l : List FileCtx) (hl : ∀ x ∈ l, x.readable = true) :
    Makes s cp (l.map (copyOf s))
      ((fun r : List (FileCtx × FileCtx) × Int => (r.1.map fun p => (p.1.path, p.2.path), r.2))
        (Site.copyFiles (fun f o => needRebuild [some f] s.settings none none (some o) true)
          (fun f o => cp f.path o.path) l
          (l.map fun f => s.file (some (s.outDir ++ b!"/" ++ f.shortPath)) none))) := by
  induction l with
  | nil => exact ⟨0, rfl, fun _ => ⟨rfl, by simp [Site.copyFiles]⟩, fun h => absurd rfl h⟩
  | cons x l ih =>
    have hx := hl x (by simp)
    have ih := ih fun y hy => hl y (by simp [hy])
    have hn := need_eq s ho hset x hx
    have hp : (s.at (s.outDir ++ b!"/" ++ x.shortPath) none).path = outDir s ++ b!"/" ++ x.shortPath := by
      rw [at_path, List.append_assoc, absPath_append _ _ _ ho, List.append_assoc]
      rfl
    simp only [List.map_cons, file_eq] at ih ⊢
    rw [Site.copyFiles, hn]
    unfold Makes
    rw [List.filter_cons]
    cases hd : due s (copyOf s x) with
    | false =>
      rw [if_neg (by simp), if_neg (by simp)]
      exact ih
    | true =>
      rw [if_pos rfl, if_pos rfl, hp]
      by_cases hc : cp x.path (outDir s ++ b!"/" ++ x.shortPath) = 0
      · rw [if_neg (by simpa using hc)]
        obtain ⟨n, h1, h2, h3⟩ := ih
        refine ⟨n + 1, ?_, fun h0 => ?_, fun h0 => ?_⟩
        · simp only [List.map_cons, List.take_succ_cons, hp]
          rw [← h1]
          rfl
        · obtain ⟨e, h4⟩ := h2 h0
          refine ⟨by rw [e, List.length_cons], ?_⟩
          intro j hj
          rcases List.mem_cons.1 hj with rfl | hj
          · show cp x.path (s.at _ none).path = 0
            rw [hp]
            exact hc
          · exact h4 j hj
        · obtain ⟨js, j, e, h4, h5⟩ := h3 h0
          refine ⟨(x.path, (s.at (s.outDir ++ b!"/" ++ x.shortPath) none).path) :: js, j, ?_, h4, ?_⟩
          · simp only [List.map_cons, List.cons_append]
            rw [← e]
          · intro y hy
            rcases List.mem_cons.1 hy with rfl | hy
            · show cp x.path (s.at _ none).path = 0
              rw [hp]
              exact hc
            · exact h5 y hy
      · rw [if_pos hc]
        refine ⟨1, ?_, fun h => absurd h hc, fun _ => ⟨[], _, rfl, ?_, by simp⟩⟩
        · simp only [List.map_cons, List.map_nil, List.take_succ_cons, List.take_zero, hp]
          rfl
        · show cp x.path (s.at _ none).path = _
          rw [hp]

theorem copy_readable (s : Site) : ∀ x ∈ s.copy, x.readable = true := by
  intro x hx
  obtain ⟨f, -, hx⟩ := List.mem_flatMap.1 hx
  obtain ⟨p, t, -, rfl⟩ := (mem_expand _ _ _ _).1 hx
  rfl

/-! ## The theorems -/

/-- The rule copies what is found at each entry of the section, in the order of the
entries: each file found is copied once for the entry, from its own path to the
path of the same name below the output directory; nothing else is copied, and
entries that are missing are skipped. Of these copies, the rule makes those that
are due, up to the first failure. -/
theorem mirrors (s : Site) (ho : s.outDir ≠ []) (hset : s.settingsFile.head? = some c!"/")
    (hf : ∀ f ∈ s.cfg.copy.getD [], f ≠ []) (hg : ∀ p, Good (s.disk p)) (cp : Str → Str → Int) :
    ∃ cs : List (List Copy),
      List.Forall₂ (fun f c => (∀ x, x ∈ c ↔ Of s f x) ∧ (c.map (·.dest)).Nodup) (s.cfg.copy.getD []) cs ∧
      Makes s cp cs.flatten
        ((fun r : List (FileCtx × FileCtx) × Int => (r.1.map fun p => (p.1.path, p.2.path), r.2))
          (s.copyExec (fun f o => cp f.path o.path) s.copyOutputs)) := by
  refine ⟨(s.cfg.copy.getD []).map fun f =>
    (expand s.root f (s.disk (absPath s.root f))).map (copyOf s), ?_, ?_⟩
  · rw [List.forall₂_map_right_iff]
    apply List.forall₂_same.2
    intro f hfm
    refine ⟨fun x => ?_, ?_⟩
    · rw [List.mem_map]
      constructor
      · rintro ⟨y, hy, rfl⟩
        obtain ⟨p, t, h, rfl⟩ := (mem_expand _ _ _ _).1 hy
        refine ⟨p, t, h, ?_⟩
        have : absPath s.root (under f p) = under (absPath s.root f) p := by
          cases p with
          | nil => rfl
          | cons n p =>
            rw [under_cons, under_cons, List.append_assoc, absPath_append _ _ _ (hf f hfm), List.append_assoc]
        unfold copyOf ctxOf
        rw [this]
      · rintro ⟨p, t, h, rfl⟩
        refine ⟨_, (mem_expand _ _ _ _).2 ⟨p, t, h, rfl⟩, ?_⟩
        have : absPath s.root (under f p) = under (absPath s.root f) p := by
          cases p with
          | nil => rfl
          | cons n p =>
            rw [under_cons, under_cons, List.append_assoc, absPath_append _ _ _ (hf f hfm), List.append_assoc]
        unfold copyOf ctxOf
        rw [this]
    · have := expand_nodup s.root f _ (hg (absPath s.root f))
      rw [List.map_map]
      have e : ((·.dest) ∘ copyOf s : FileCtx → Str) = (fun q => outDir s ++ b!"/" ++ q) ∘ (·.shortPath) := rfl
      rw [e, ← List.map_map]
      exact this.map (fun a b h => List.append_cancel_left h)
  · unfold Site.copyExec Site.copyOutputs
    cases hc : s.cfg.copy with
    | none => exact ⟨0, rfl, fun _ => ⟨rfl, by simp⟩, fun h => absurd rfl h⟩
    | some l =>
      simp only [Option.isNone_some, Bool.false_eq_true, if_false]
      have := loop_makes s ho hset cp s.copy (copy_readable s)
      have e : s.copy.map (copyOf s) = ((((some l).getD []).map fun f =>
          (expand s.root f (s.disk (absPath s.root f))).map (copyOf s))).flatten := by
        unfold Site.copy
        rw [hc, List.map_flatMap, List.flatMap_def]
      rw [← e]
      exact this

/-- Two different files are never copied to the same place. -/
theorem same_source (s : Site) (f g : Str) (hf : f ≠ []) (hg : g ≠ []) (x y : Copy) (hx : Of s f x)
    (hy : Of s g y) (h : x.dest = y.dest) : x.source = y.source := by
  have key : ∀ (f : Str), f ≠ [] → ∀ p, under (absPath s.root f) p = absPath s.root (under f p) := by
    intro f hf p
    cases p with
    | nil => rfl
    | cons n p =>
      rw [under_cons, under_cons, List.append_assoc, List.append_assoc f, absPath_append _ _ _ hf]
  obtain ⟨p, t, -, rfl⟩ := hx
  obtain ⟨q, u, -, rfl⟩ := hy
  have := List.append_cancel_left (show outDir s ++ b!"/" ++ under f p = outDir s ++ b!"/" ++ under g q from h)
  show under (absPath s.root f) p = under (absPath s.root g) q
  rw [key f hf, key g hg, this]

theorem comps_single (n : Str) (h : c!"/" ∉ n) : comps n = [n] := by
  induction n with
  | nil => rfl
  | cons c r ih =>
    have hc : c ≠ c!"/" := fun e => h (by simp [e])
    have hr : c!"/" ∉ r := fun e => h (by simp [e])
    rw [comps, if_neg hc, ih hr]

theorem below_comps {d : Forest} (hg : GoodDir d) {p : List Str} {t : Int × Int} (h : Below d p t) :
    ∀ f : Str, comps (under f p) = comps f ++ p ∧ b!".." ∉ p := by
  induction h with
  | file n sec nsec rest hn =>
    intro f
    rw [under_cons, List.append_assoc]
    show comps (f ++ c!"/" :: n) = _ ∧ _
    rw [comps_append_slash, comps_single n hg.2.1]
    exact ⟨rfl, by simpa using Ne.symm hn.2⟩
  | inside n kids rest p t hn _ ih =>
    intro f
    obtain ⟨h1, h2⟩ := ih hg.2.2.1 (f ++ b!"/" ++ n)
    have e : comps (f ++ b!"/" ++ n) = comps f ++ [n] := by
      rw [List.append_assoc]
      show comps (f ++ c!"/" :: n) = _
      rw [comps_append_slash, comps_single n hg.2.1]
    refine ⟨?_, ?_⟩
    · show comps (under (f ++ b!"/" ++ n) p) = _
      rw [h1, e, List.append_assoc]
      rfl
    · intro hm
      rcases List.mem_cons.1 hm with e | hm
      · exact hn.2 e.symm
      · exact h2 hm
  | nextFile _ _ _ _ _ _ _ ih => exact ih hg.2.2
  | nextDir _ _ _ _ _ _ ih => exact ih hg.2.2.2
  | nextGone _ _ _ _ _ ih => exact ih hg.2.2

/-- What is copied for an entry without ".." stays inside the output directory. -/
theorem inside_partial (s : Site) (f : Str) (hd : b!".." ∉ comps f) (hg : Good (s.disk (absPath s.root f)))
    (x : Copy) (hx : Of s f x) : Inside (outDir s) x.dest := by
  obtain ⟨p, t, h, rfl⟩ := hx
  show Inside (outDir s) (outDir s ++ b!"/" ++ under f p)
  rw [List.append_assoc]
  apply inside_of_staysBelow
  apply staysBelow_of_no_dotdot
  revert h
  generalize s.disk (absPath s.root f) = w at hg
  intro h
  cases h with
  | file => exact hd
  | dir n kids rest p t h =>
    obtain ⟨h1, h2⟩ := below_comps hg h f
    show b!".." ∉ comps (under f p)
    rw [h1, List.mem_append]
    exact fun h => h.elim hd h2

/-! ## A site -/

/-- A site with a file, a directory, a missing entry and a file of the parent
directory to copy. The file is up to date. -/
def site : Site where
  cfg := ⟨.nil, .nil, none, none, some [b!"robots.txt", b!"gone", b!"static", b!"../x"], none⟩
  root := b!"/site"
  settingsFile := b!"/site/blogcfile"
  outDir := b!"_build"
  blogc := b!"'blogc'"
  dev := false
  deployed := b!"/tmp/feed"
  stat := fun p => if p = b!"/site/_build/robots.txt" then some (2, 5) else
    if p = b!"/site/_build/static/a" then some (2, 0) else
    if p = b!"/site/blogcfile" then some (1, 0) else none
  disk := fun p => if p = b!"/site/robots.txt" then .file b!"robots.txt" 2 4 .nil else
    if p = b!"/site/../x" then .file b!"x" 1 0 .nil else
    if p = b!"/site/static" then .dir b!"static" (.dir b!"." .nil (.dir b!".." .nil (.file b!"a" 2 1
      (.dir b!"css" (.file b!"main.css" 1 1 .nil) (.gone b!"dangling" .nil))))) .nil else .nil

theorem site_good (p : Str) : Good (site.disk p) := by
  show Good (if _ then _ else if _ then _ else if _ then _ else _)
  split
  · trivial
  · split
    · trivial
    · split
      · simp only [Good, GoodDir, names]
        decide
      · trivial

/-- An entry can lead out of the output directory. -/
theorem inside_violated : ∃ (s : Site) (f : Str) (x : Copy), f ∈ s.cfg.copy.getD [] ∧
    (∀ p, Good (s.disk p)) ∧ Of s f x ∧ ¬ Inside (outDir s) x.dest :=
  ⟨site, b!"../x", ⟨b!"/site/../x", b!"/site/_build/../x", (1, 0)⟩, by decide, site_good,
    ⟨[], (1, 0), .file _ _ _ _, rfl⟩, by decide +kernel⟩

/-- The file that is up to date is not copied, and a copy that fails ends the rule
with its status. -/
example : ((site.copyExec (fun f _ => if f.path = b!"/site/static/css/main.css" then 3 else 0)
      site.copyOutputs).1.map fun p => (p.1.path, p.2.path)) =
    [(b!"/site/static/a", b!"/site/_build/static/a"),
     (b!"/site/static/css/main.css", b!"/site/_build/static/css/main.css")] ∧
    (site.copyExec (fun f _ => if f.path = b!"/site/static/css/main.css" then 3 else 0)
      site.copyOutputs).2 = 3 := by
  decide +kernel

example : site.outDir ≠ [] ∧ site.settingsFile.head? = some c!"/" ∧
    (∀ f ∈ site.cfg.copy.getD [], f ≠ []) ∧ ∀ p, Good (site.disk p) :=
  ⟨by decide, by decide, by decide, site_good⟩

end Blogc.C89
