import Verif.Model.MakeNative
import Verif.Lemmas.Path

/-!
# C61: cleaning removes only built files and empty directories
-/

namespace Blogc.C61

open Blogc Blogc.Make Blogc.Path

/-! ## The statement -/

/-- What may be said of the calls made by a cleaning: files removed are built
files, directories removed are the output directory or inside it, and were found
empty just before. -/
structure Safe (outputDir : Str) (files : List FileCtx) (calls : List (RmCall × Bool)) : Prop where
  files : ∀ p ok, (RmCall.unlink p, ok) ∈ calls → ∃ f ∈ files, f.readable = true ∧ f.path = p
  inside : ∀ d ok, (RmCall.rmdir d, ok) ∈ calls → Inside outputDir d
  empty : ∀ a d ok b, calls = a ++ (RmCall.rmdir d, ok) :: b → ∃ a', a = a' ++ [(RmCall.isEmpty d, true)]

/-- The property: every execution is safe. -/
def AlwaysSafe (outputDir : Str) (files : List FileCtx) : Prop :=
  ∀ calls rv, (clean outputDir files).Exec calls rv → Safe outputDir files calls

/-- A file below the output directory, by a path without `..` and ending with a
name. -/
def Below (outputDir : Str) (f : FileCtx) : Prop :=
  ∃ r, f.path = outputDir ++ c!"/" :: r ∧ b!".." ∉ comps r ∧ ∃ c ∈ r, c ≠ c!"/"

/-! ## Directories of paths -/

theorem mem_takeWhile {p : Byte → Bool} {l : Str} {b : Byte} (h : b ∈ l.takeWhile p) : p b = true := by
  induction l with
  | nil => cases h
  | cons c l ih =>
    rw [List.takeWhile_cons] at h
    split at h
    · next hc =>
      rcases List.mem_cons.1 h with rfl | h
      · exact hc
      · exact ih h
    · cases h

theorem strip_eq (r : Str) : ∃ k, r = stripSlashes r ++ List.replicate k c!"/" ∧
    (stripSlashes r ≠ [] → ∃ q c, stripSlashes r = q ++ [c] ∧ c ≠ c!"/") := by
  have h1 := List.takeWhile_append_dropWhile (p := (· == c!"/")) (l := r.reverse)
  have h2 : r.reverse.takeWhile (· == c!"/") =
      List.replicate (r.reverse.takeWhile (· == c!"/")).length c!"/" :=
    List.eq_replicate_iff.2 ⟨rfl, fun b hb => by
      have := mem_takeWhile hb
      simpa using this⟩
  refine ⟨(r.reverse.takeWhile (· == c!"/")).length, ?_, ?_⟩
  · have := congrArg List.reverse h1
    rw [List.reverse_append, List.reverse_reverse] at this
    rw [h2, List.reverse_replicate] at this
    exact this.symm
  · intro h
    unfold stripSlashes at *
    cases hd : r.reverse.dropWhile (· == c!"/") with
    | nil => rw [hd] at h; exact absurd rfl h
    | cons c l =>
      have := List.head?_dropWhile_not (p := (· == c!"/")) r.reverse
      rw [hd] at this
      simp only [List.head?_cons] at this
      exact ⟨l.reverse, c, by simp, by simpa using this⟩

theorem drop_eq (r : Str) : ∃ name, r = dropName r ++ name ∧ c!"/" ∉ name ∧
    (dropName r ≠ [] → ∃ q, dropName r = q ++ b!"/") := by
  have h1 := List.takeWhile_append_dropWhile (p := (· != c!"/")) (l := r.reverse)
  refine ⟨(r.reverse.takeWhile (· != c!"/")).reverse, ?_, ?_, ?_⟩
  · have := congrArg List.reverse h1
    rw [List.reverse_append, List.reverse_reverse] at this
    exact this.symm
  · intro hm
    have := mem_takeWhile (List.mem_reverse.1 hm)
    simp at this
  · intro h
    unfold dropName at *
    cases hd : r.reverse.dropWhile (· != c!"/") with
    | nil => rw [hd] at h; exact absurd rfl h
    | cons c l =>
      have := List.head?_dropWhile_not (p := (· != c!"/")) r.reverse
      rw [hd] at this
      simp only [List.head?_cons] at this
      have : c = c!"/" := by simpa using this
      exact ⟨l.reverse, by simp [this]⟩

theorem strip_append (a r : Str) (ha : stripSlashes a = a) :
    stripSlashes (a ++ c!"/" :: r) = if stripSlashes r = [] then a else a ++ c!"/" :: stripSlashes r := by
  have ha' : a.reverse.dropWhile (· == c!"/") = a.reverse := by
    have := congrArg List.reverse ha
    simpa [stripSlashes] using this
  unfold stripSlashes
  rw [List.reverse_append, List.reverse_cons, List.append_assoc, List.dropWhile_append]
  by_cases h : r.reverse.dropWhile (· == c!"/") = []
  · rw [if_pos (by simpa using h), if_pos (by simpa using h), List.singleton_append,
      List.dropWhile_cons_of_pos (by simp), ha', List.reverse_reverse]
  · rw [if_neg (by simpa using h), if_neg (by simpa using h)]
    simp

theorem dropName_append (a r : Str) : dropName (a ++ c!"/" :: r) = a ++ c!"/" :: dropName r := by
  unfold dropName
  rw [List.reverse_append, List.reverse_cons, List.append_assoc, List.dropWhile_append]
  split
  · next h =>
    rw [List.isEmpty_iff] at h
    rw [h, List.singleton_append, List.dropWhile_cons_of_neg (by simp)]
    simp
  · simp

theorem strip_ne_nil {r : Str} (h : ∃ c ∈ r, c ≠ c!"/") : stripSlashes r ≠ [] := by
  intro e
  obtain ⟨k, h1, _⟩ := strip_eq r
  rw [e, List.nil_append] at h1
  obtain ⟨c, hc, hn⟩ := h
  rw [h1] at hc
  exact hn (List.eq_of_mem_replicate hc)

/-- The directory of a path below `a` is `a` or is below it. -/
theorem dirname_below (a r : Str) (ha : stripSlashes a = a) (hne : a ≠ []) (hr : ∃ c ∈ r, c ≠ c!"/") :
    dirname (a ++ c!"/" :: r) = a ∨
      ∃ r' x, r = r' ++ c!"/" :: x ∧ (∃ c ∈ r', c ≠ c!"/") ∧ dirname (a ++ c!"/" :: r) = a ++ c!"/" :: r' := by
  have e : dirname (a ++ c!"/" :: r) =
      if stripSlashes (dropName (stripSlashes r)) = [] then a
      else a ++ c!"/" :: stripSlashes (dropName (stripSlashes r)) := by
    unfold dirname
    simp only [strip_append a r ha, if_neg (strip_ne_nil hr), dropName_append,
      strip_append a (dropName (stripSlashes r)) ha]
    rw [if_neg (by simp), if_neg (by simp), if_neg (by simp)]
    split
    · rfl
    · rw [if_neg (by simp)]
  rw [e]
  split
  · exact Or.inl rfl
  · next h =>
    right
    obtain ⟨k, h1, _⟩ := strip_eq r
    obtain ⟨name, h2, _, h3⟩ := drop_eq (stripSlashes r)
    obtain ⟨m, h4, h5⟩ := strip_eq (dropName (stripSlashes r))
    obtain ⟨q, c, h6, h7⟩ := h5 h
    have hdn : dropName (stripSlashes r) ≠ [] := by
      intro e0
      rw [e0] at h
      exact h (by decide)
    obtain ⟨q', h8⟩ := h3 hdn
    have hm : ∃ m', m = m' + 1 := by
      cases m with
      | succ m' => exact ⟨m', rfl⟩
      | zero =>
        rw [List.replicate_zero, List.append_nil] at h4
        rw [← h4, h8] at h6
        have := List.append_inj_right' h6 rfl
        exact absurd (List.cons.inj this).1.symm h7
    obtain ⟨m', rfl⟩ := hm
    refine ⟨stripSlashes (dropName (stripSlashes r)), List.replicate m' c!"/" ++ name ++ List.replicate k c!"/",
      ?_, ⟨c, by rw [h6]; simp, h7⟩, rfl⟩
    conv => lhs; rw [h1, h2, h4]
    simp [List.replicate_succ]

/-- The output directory or a directory below it, by a path without `..`. -/
def DirOk (out d : Str) : Prop :=
  d = out ∨ ∃ r, d = out ++ c!"/" :: r ∧ b!".." ∉ comps r ∧ ∃ c ∈ r, c ≠ c!"/"

theorem DirOk.inside {out d : Str} (h : DirOk out d) : Inside out d := by
  rcases h with rfl | ⟨r, rfl, h, _⟩
  · exact List.prefix_refl _
  · exact inside_of_staysBelow out r (staysBelow_of_no_dotdot _ _ h)

theorem DirOk.up {out r : Str} (ho : stripSlashes out = out) (hne : out ≠ []) (h : b!".." ∉ comps r)
    (hr : ∃ c ∈ r, c ≠ c!"/") : DirOk out (dirname (out ++ c!"/" :: r)) := by
  rcases dirname_below out r ho hne hr with e | ⟨r', x, e, hr', e'⟩
  · exact Or.inl e
  · refine Or.inr ⟨r', e', ?_, hr'⟩
    intro hm
    apply h
    rw [e, comps_append_slash]
    exact List.mem_append_left _ hm

/-! ## Going up ends -/

/-- How often the loop can go up from a directory. -/
def height (s : Str) : Nat := if s = b!"." ∨ s = b!"/" then 0 else s.length

theorem strip_length (s : Str) : (stripSlashes s).length ≤ s.length := by
  obtain ⟨k, h, _⟩ := strip_eq s
  conv => rhs; rw [h]
  simp

theorem dirname_height (s : Str) (hs : s ≠ []) : height (dirname s) < s.length := by
  have hpos := List.length_pos_iff.2 hs
  unfold dirname
  rw [if_neg hs]
  split
  · simpa [height] using hpos
  · next h1 =>
    simp only
    split
    · simpa [height] using hpos
    · split
      · simpa [height] using hpos
      · next h2 h3 =>
        unfold height
        split
        · exact hpos
        · obtain ⟨name, e1, hn, _⟩ := drop_eq (stripSlashes s)
          obtain ⟨k, e2, h4⟩ := strip_eq s
          obtain ⟨q, c, e3, hc⟩ := h4 h1
          have hname : name ≠ [] := by
            rintro rfl
            rw [List.append_nil] at e1
            obtain ⟨_, _, _, h5⟩ := drop_eq (stripSlashes s)
            obtain ⟨q', e4⟩ := h5 h2
            rw [← e1, e3] at e4
            have := List.append_inj_right' e4 rfl
            exact hc (List.cons.inj this).1
          have l1 := strip_length (dropName (stripSlashes s))
          have l2 := strip_length s
          have l3 := congrArg List.length e1
          rw [List.length_append] at l3
          have l4 := List.length_pos_iff.2 hname
          omega

theorem dirname_ne_nil (s : Str) : dirname s ≠ [] := by
  unfold dirname
  split
  · simp
  · split
    · simp
    · simp only
      split
      · simp
      · split
        · simp
        · next h => exact h

/-! ## The loop -/

theorem safe_snoc {out : Str} {files : List FileCtx} {h : List (RmCall × Bool)} (hs : Safe out files h)
    (c : RmCall) (ok : Bool) (h1 : ∀ p, c = .unlink p → ∃ f ∈ files, f.readable = true ∧ f.path = p)
    (h2 : ∀ d, c = .rmdir d → Inside out d ∧ ∃ a', h = a' ++ [(.isEmpty d, true)]) :
    Safe out files (h ++ [(c, ok)]) := by
  constructor
  · intro p ok' hm
    rcases List.mem_append.1 hm with hm | hm
    · exact hs.files p ok' hm
    · simp only [List.mem_singleton, Prod.mk.injEq] at hm
      exact h1 p hm.1.symm
  · intro d ok' hm
    rcases List.mem_append.1 hm with hm | hm
    · exact hs.inside d ok' hm
    · simp only [List.mem_singleton, Prod.mk.injEq] at hm
      exact (h2 d hm.1.symm).1
  · intro a d ok' b e
    rcases List.eq_nil_or_concat b with rfl | ⟨b', x, rfl⟩
    · have := List.append_inj' e rfl
      simp only [List.cons.injEq, Prod.mk.injEq] at this
      obtain ⟨rfl, ⟨rfl, _⟩, _⟩ := this
      exact (h2 d rfl).2
    · have e' : h ++ [(c, ok)] = (a ++ (RmCall.rmdir d, ok') :: b') ++ [x] := by simpa using e
      exact hs.empty a d ok' b' (List.append_inj' e' rfl).1

theorem loop_ensures {α : Type} (out : Str) (files : List FileCtx) (ho : stripSlashes out = out) (hne : out ≠ [])
    (Q : List (RmCall × Bool) → α → Prop) (k : Option Nat → Prog RmCall α) (fuel : Nat) (short dir : Str)
    (h0 h : List (RmCall × Bool)) (hsn : short ≠ []) (hf : height short < fuel) (hd : DirOk out dir)
    (hs : Safe out files h) (hsub : ∀ x ∈ h0, x ∈ h)
    (hk : ∀ n h', Safe out files h' → (∀ x ∈ h0, x ∈ h') → (k (some n)).Ensures Q h') :
    (rmLoop out k fuel short dir).Ensures Q h := by
  induction fuel generalizing short dir h with
  | zero => omega
  | succ fuel ih =>
    rw [rmLoop]
    split
    · exact hk 0 h hs hsub
    · next hstop =>
      have sub : ∀ (h' : List (RmCall × Bool)) y, (∀ x ∈ h0, x ∈ h') → ∀ x ∈ h0, x ∈ h' ++ [y] :=
        fun h' y hh x hx => List.mem_append_left _ (hh x hx)
      have s1 : ∀ ok, Safe out files (h ++ [(.readDir dir, ok)]) := fun ok =>
        safe_snoc hs _ _ (fun _ e => by cases e) (fun _ e => by cases e)
      refine Prog.ensures_call ?_ ?_
      · rw [if_pos rfl]
        exact hk 1 _ (s1 _) (sub _ _ hsub)
      · rw [if_neg (by simp)]
        have s2 : ∀ ok, Safe out files (h ++ [(.readDir dir, true)] ++ [(.isEmpty dir, ok)]) := fun ok =>
          safe_snoc (s1 true) _ _ (fun _ e => by cases e) (fun _ e => by cases e)
        refine Prog.ensures_call ?_ ?_
        · rw [if_pos rfl]
          exact hk 0 _ (s2 _) (sub _ _ (sub _ _ hsub))
        · rw [if_neg (by simp)]
          have s3 : ∀ ok, Safe out files (h ++ [(.readDir dir, true)] ++ [(.isEmpty dir, true)] ++ [(.rmdir dir, ok)]) :=
            fun ok => safe_snoc (s2 true) _ _ (fun _ e => by cases e)
              (fun d e => by cases e; exact ⟨hd.inside, _, rfl⟩)
          have b3 : ∀ y, ∀ x ∈ h0, x ∈ h ++ [(.readDir dir, true)] ++ [(.isEmpty dir, true)] ++ [y] :=
            fun y => sub _ _ (sub _ _ (sub _ _ hsub))
          refine Prog.ensures_call ?_ ?_
          · rw [if_pos rfl]
            exact hk 1 _ (s3 _) (b3 _)
          · rw [if_neg (by simp)]
            split
            · exact hk 0 _ (s3 _) (b3 _)
            · next hdo =>
              have hlt := dirname_height short hsn
              have hh : height short = short.length := if_neg hstop
              rcases hd with e | ⟨r, rfl, h1, h2⟩
              · exact absurd e hdo
              · exact ih _ _ _ (dirname_ne_nil _) (by omega) (DirOk.up ho hne h1 h2) (s3 _) (b3 _)

theorem clean_ensures (out : Str) (all : List FileCtx) (ho : stripSlashes out = out) (hne : out ≠ [])
    (hall : ∀ f ∈ all, f.readable = true → Below out f) (files : List FileCtx) (hsub : ∀ f ∈ files, f ∈ all)
    (h : List (RmCall × Bool)) (hs : Safe out all h)
    (hdone : ∀ f ∈ all, f.readable = true → f ∈ files ∨ (RmCall.unlink f.path, true) ∈ h) :
    (clean out files).Ensures (fun h rv => Safe out all h ∧ rv ≠ none ∧
      (rv = some 0 → ∀ f ∈ all, f.readable = true → (RmCall.unlink f.path, true) ∈ h)) h := by
  induction files generalizing h with
  | nil =>
    refine ⟨hs, by simp, fun _ f hf hr => ?_⟩
    rcases hdone f hf hr with h | h
    · cases h
    · exact h
  | cons f fs ih =>
    rw [clean]
    have hsub' : ∀ g ∈ fs, g ∈ all := fun g hg => hsub g (List.mem_cons_of_mem _ hg)
    split
    · next hread =>
      have hfm := hsub f (List.mem_cons_self ..)
      have s1 : ∀ ok, Safe out all (h ++ [(.unlink f.path, ok)]) := fun ok =>
        safe_snoc hs _ _ (fun p e => by cases e; exact ⟨f, hfm, hread, rfl⟩) (fun _ e => by cases e)
      unfold rm
      refine Prog.ensures_call ?_ ?_
      · rw [if_pos rfl]
        exact ⟨s1 false, by simp, by simp⟩
      · rw [if_neg (by simp)]
        obtain ⟨r, e, h1, h2⟩ := hall f hfm hread
        have hheight : height (dirname f.shortPath) < f.shortPath.length + 2 := by
          by_cases he : f.shortPath = []
          · rw [he]; decide
          · have := dirname_height f.shortPath he
            omega
        refine loop_ensures out all ho hne _ _ _ _ _ (h ++ [(.unlink f.path, true)]) _ (dirname_ne_nil _) hheight
          (by rw [e]; exact DirOk.up ho hne h1 h2) (s1 true) (fun _ hx => hx) ?_
        intro n h' hs' hsub0
        by_cases hn : n = 0
        · subst hn
          rw [if_pos rfl]
          refine ih hsub' h' hs' ?_
          intro g hg hr
          rcases hdone g hg hr with hm | hm
          · rcases List.mem_cons.1 hm with rfl | hm
            · exact Or.inr (hsub0 _ (by simp))
            · exact Or.inl hm
          · exact Or.inr (hsub0 _ (by simp [hm]))
        · rw [if_neg (by simpa using hn)]
          exact ⟨hs', by simp, by simp [hn]⟩
    · next hread =>
      refine ih hsub' h hs ?_
      intro g hg hr
      rcases hdone g hg hr with hm | hm
      · rcases List.mem_cons.1 hm with rfl | hm
        · exact absurd hr hread
        · exact Or.inl hm
      · exact Or.inr hm

/-! ## The theorems -/

/-- Proved part: every execution is safe when the output directory is written
without a slash at its end, and the built files are below it by paths without
`..`. Missing: output directories with a slash at the end, for which the
property is false (`parent_violated`). -/
theorem safe_partial (out : Str) (files : List FileCtx) (ho : stripSlashes out = out) (hne : out ≠ [])
    (hall : ∀ f ∈ files, f.readable = true → Below out f) : AlwaysSafe out files := by
  intro calls rv hx
  have := Prog.exec_of_ensures (clean_ensures out files ho hne hall files (fun _ h => h) []
    ⟨by simp, by simp, by simp⟩ (fun f hf _ => Or.inl hf)) hx
  simpa using this.1

/-- Cleaning that reports success has removed every built file. -/
theorem removes_all (out : Str) (files : List FileCtx) (ho : stripSlashes out = out) (hne : out ≠ [])
    (hall : ∀ f ∈ files, f.readable = true → Below out f) (calls : List (RmCall × Bool))
    (hx : (clean out files).Exec calls (some 0)) (f : FileCtx) (hf : f ∈ files) (hr : f.readable = true) :
    (RmCall.unlink f.path, true) ∈ calls := by
  have := Prog.exec_of_ensures (clean_ensures out files ho hne hall files (fun _ h => h) []
    ⟨by simp, by simp, by simp⟩ (fun f hf _ => Or.inl hf)) hx
  simpa using this.2.2 rfl f hf hr

/-- The loop always ends: its fuel is enough for every path. -/
theorem loop_ends (out : Str) (files : List FileCtx) (ho : stripSlashes out = out) (hne : out ≠ [])
    (hall : ∀ f ∈ files, f.readable = true → Below out f) (calls : List (RmCall × Bool)) (rv : Option Nat)
    (hx : (clean out files).Exec calls rv) : rv ≠ none :=
  (Prog.exec_of_ensures (clean_ensures out files ho hne hall files (fun _ h => h) []
    ⟨by simp, by simp, by simp⟩ (fun f hf _ => Or.inl hf)) hx).2.1

/-- The property fails when the output directory is written with a slash at its
end, as in `OUTPUT_DIR=a/b/`: after the output directory itself, its parent is
removed too, although it is not inside. -/
theorem parent_violated : ∃ out files, (∀ f ∈ files, Below out f) ∧ ¬ AlwaysSafe out files := by
  refine ⟨b!"/r/a/b/", [⟨b!"/r/a/b//x", b!"a/b//x", none, 0, 0, true⟩], ?_, ?_⟩
  · intro f hf
    rw [List.mem_singleton] at hf
    subst hf
    exact ⟨b!"x", rfl, by decide, c!"x", by decide, by decide⟩
  · intro h
    have hx : (clean b!"/r/a/b/" [⟨b!"/r/a/b//x", b!"a/b//x", none, 0, 0, true⟩]).Exec
        [(.unlink b!"/r/a/b//x", true), (.readDir b!"/r/a/b", true), (.isEmpty b!"/r/a/b", true),
          (.rmdir b!"/r/a/b", true), (.readDir b!"/r/a", true), (.isEmpty b!"/r/a", true),
          (.rmdir b!"/r/a", true)] (some 0) :=
      .call (.call (.call (.call (.call (.call (.call (.ret _)))))))
    have := (h _ _ hx).inside b!"/r/a" true (by decide)
    exact absurd this (by decide)

/-! ## A sample -/

example : dirname b!"/a//b/" = b!"/a" ∧ dirname b!"a" = b!"." ∧ dirname b!"/" = b!"/" ∧ dirname b!"a/b/c" = b!"a/b" := by
  decide

def sampleFiles : List FileCtx :=
  [⟨b!"/r/_build/post/x/index.html", b!"_build/post/x/index.html", none, 0, 0, true⟩,
    ⟨b!"/r/_build/index.html", b!"_build/index.html", none, 0, 0, false⟩]

example : stripSlashes b!"/r/_build" = b!"/r/_build" := by decide
example : ∀ f ∈ sampleFiles, Below b!"/r/_build" f := by
  intro f hf
  simp only [sampleFiles, List.mem_cons, List.not_mem_nil, or_false] at hf
  rcases hf with rfl | rfl
  · exact ⟨b!"post/x/index.html", rfl, by decide, c!"p", by decide, by decide⟩
  · exact ⟨b!"index.html", rfl, by decide, c!"i", by decide, by decide⟩
example : (clean b!"/r/_build" sampleFiles).Exec
    [(.unlink b!"/r/_build/post/x/index.html", true), (.readDir b!"/r/_build/post/x", true),
      (.isEmpty b!"/r/_build/post/x", true), (.rmdir b!"/r/_build/post/x", true),
      (.readDir b!"/r/_build/post", true), (.isEmpty b!"/r/_build/post", false)] (some 0) :=
  .call (.call (.call (.call (.call (.call (.ret _))))))

end Blogc.C61
