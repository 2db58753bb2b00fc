import Verif.Spec.Disk
import Verif.Model.MakeClean
import Verif.Lemmas.MakeSite
import Verif.Props.C61
import Verif.Props.C59
import Mathlib.Data.List.Induction

/-!
# Cleaning, for C91
-/

namespace Blogc.C91

open Blogc Blogc.Make Blogc.Remove Blogc.Spec.Disk
open Blogc.Path (norm comps walk comps_append_slash walk_append)

/-! ## Names and paths -/

theorem below_nil (base : Str) : below base [] = base := by simp [below]

theorem below_snoc (base : Str) (ns : List Str) (n : Str) : below base (ns ++ [n]) = below base ns ++ c!"/" :: n := by
  simp [below]

theorem comps_plain (n : Str) (h : c!"/" ∉ n) : comps n = [n] := by
  induction n with
  | nil => rfl
  | cons c n ih =>
    have h1 : c ≠ c!"/" := fun e => h (by simp [e])
    rw [comps, if_neg h1, ih fun e => h (by simp [e])]

theorem norm_below (base : Str) (ns : List Str) (h : ∀ n ∈ ns, Proper n) : norm (below base ns) = norm base ++ ns := by
  induction ns using List.reverseRecOn with
  | nil => simp [below_nil]
  | append_singleton ns n ih =>
    obtain ⟨h1, h2, h3, h4⟩ := h n (by simp)
    have ih := ih fun m hm => h m (by simp [hm])
    rw [below_snoc]
    unfold norm at ih ⊢
    rw [comps_append_slash, walk_append, comps_plain n h2]
    have : walk (walk [] (comps (below base ns))) [n] = n :: walk [] (comps (below base ns)) := by
      simp [walk, h1, h3, h4]
    rw [this, List.reverse_cons, ih, List.append_assoc]

theorem strip_name (a n : Str) (h1 : n ≠ []) (h2 : c!"/" ∉ n) : stripSlashes (a ++ c!"/" :: n) = a ++ c!"/" :: n := by
  unfold stripSlashes
  have : (a ++ c!"/" :: n).reverse = n.reverse ++ (c!"/" :: a.reverse) := by simp
  rw [this]
  cases hr : n.reverse with
  | nil => exact absurd (by simpa using hr) h1
  | cons c r =>
    have : c ≠ c!"/" := fun e => h2 (by rw [← List.mem_reverse, hr]; simp [e])
    rw [List.cons_append, List.dropWhile_cons_of_neg (by simpa using this), ← List.cons_append, ← hr, ← List.reverse_reverse (a ++ c!"/" :: n)]
    simp

theorem base_below (b : Str) (hb : Base b) (ns : List Str) (h : ∀ n ∈ ns, Proper n) : Base (below b ns) := by
  induction ns using List.reverseRecOn with
  | nil => rw [below_nil]; exact hb
  | append_singleton ns n ih =>
    rw [below_snoc]
    obtain ⟨h1, h2, -⟩ := h n (by simp)
    exact ⟨by simp, strip_name _ _ h1 h2⟩

theorem dirname_below (b : Str) (hb : Base b) (ns : List Str) (n : Str) (h : ∀ m ∈ ns ++ [n], Proper m) :
    dirname (below b (ns ++ [n])) = below b ns := by
  obtain ⟨h1, h2⟩ := base_below b hb ns fun m hm => h m (by simp [hm])
  obtain ⟨h3, h4, -⟩ := h n (by simp)
  rw [below_snoc]
  have hne : ∃ c ∈ n, c ≠ c!"/" := by
    cases n with
    | nil => exact absurd rfl h3
    | cons c n => exact ⟨c, by simp, fun e => h4 (by simp [e])⟩
  rcases C61.dirname_below (below b ns) n h2 h1 hne with e | ⟨r', x, e, -⟩
  · exact e
  · exact absurd (by rw [e]; simp) h4

/-! ## Removing one file -/

theorem ne_dot_slash (b : Str) (hb : Base b) (h1 : b ≠ b!".") (h2 : b ≠ b!"/") (ns : List Str)
    (h : ∀ n ∈ ns, Proper n) : ¬ (below b ns = b!"." ∨ below b ns = b!"/") := by
  induction ns using List.reverseRecOn with
  | nil => rw [below_nil]; simp [h1, h2]
  | append_singleton ns n ih =>
    rw [below_snoc]
    have := (base_below b hb ns fun m hm => h m (by simp [hm])).1
    have h3 := (h n (by simp)).1
    have hl : 3 ≤ (below b ns ++ c!"/" :: n).length := by
      have := List.length_pos_iff.2 this
      have := List.length_pos_iff.2 h3
      simp only [List.length_append, List.length_cons]
      omega
    rintro (e | e) <;> rw [e] at hl <;> simp at hl

theorem below_eq_base (b : Str) (ns : List Str) : below b ns = b ↔ ns = [] := by
  constructor
  · intro h
    have := congrArg List.length h
    cases ns with
    | nil => rfl
    | cons n ns => simp [below] at this
  · rintro rfl
    exact below_nil b

/-- The disk without what lies between `d` (not included) and the file `f`. -/
def cut (g : FS) (d f : Remove.Path) : FS := fun q => if d <+: q ∧ q ≠ d ∧ q <+: f then none else g q

theorem cut_self_child (g : FS) (d : Remove.Path) (n : Str) : cut g d (d ++ [n]) = g.without (d ++ [n]) := by
  funext q
  unfold cut FS.without
  by_cases h : q = d ++ [n]
  · subst h
    rw [if_pos ⟨List.prefix_append _ _, by simp, List.prefix_refl _⟩, if_pos rfl]
  · rw [if_neg h, if_neg]
    rintro ⟨⟨a, rfl⟩, h2, h3⟩
    apply h
    rw [List.prefix_append_right_inj] at h3
    have : a ≠ [] := by rintro rfl; exact h2 (by simp)
    rw [List.prefix_cons_iff] at h3
    rcases h3 with h3 | ⟨t, h3, h4⟩
    · exact absurd h3 this
    · rw [List.prefix_nil.1 h4] at h3
      rw [h3]

theorem cut_up (g : FS) (d : Remove.Path) (m : Str) (f : Remove.Path) (h : d ++ [m] <+: f) :
    (cut g (d ++ [m]) f).without (d ++ [m]) = cut g d f := by
  funext q
  unfold cut FS.without
  by_cases h1 : q = d ++ [m]
  · subst h1
    rw [if_pos rfl, if_pos ⟨List.prefix_append _ _, by simp, h⟩]
  · rw [if_neg h1]
    show (if d ++ [m] <+: q ∧ q ≠ d ++ [m] ∧ q <+: f then none else g q) = _
    by_cases h2 : d ++ [m] <+: q ∧ q ≠ d ++ [m] ∧ q <+: f
    · have h3 : q ≠ d := by
        rintro rfl
        have := h2.1.length_le
        simp only [List.length_append, List.length_singleton] at this
        omega
      rw [if_pos h2, if_pos ⟨(List.prefix_append _ _).trans h2.1, h3, h2.2.2⟩]
    · rw [if_neg h2, if_neg]
      rintro ⟨h3, h4, h5⟩
      apply h2
      refine ⟨?_, h1, h5⟩
      rcases List.prefix_or_prefix_of_prefix h h5 with h6 | h6
      · exact h6
      · exfalso
        have l1 := h6.length_le
        have l2 := h3.length_le
        rw [List.length_append, List.length_singleton] at l1
        rcases Nat.lt_or_ge d.length q.length with l3 | l3
        · exact h1 (h6.eq_of_length (by simp; omega))
        · exact h4 (h3.eq_of_length (by omega)).symm

theorem prefix_child {d q : Remove.Path} (h : d <+: q) (hne : q ≠ d) : ∃ n, d ++ [n] <+: q := by
  obtain ⟨a, rfl⟩ := h
  cases a with
  | nil => simp at hne
  | cons n a => exact ⟨n, a, by simp⟩

theorem tree_up {g : FS} (ht : Tree g) {p q : Remove.Path} (h : p <+: q) (hq : g q ≠ none) : g p ≠ none := by
  obtain ⟨a, rfl⟩ := h
  induction a using List.reverseRecOn with
  | nil => simpa using hq
  | append_singleton a n ih =>
    rw [← List.append_assoc] at hq
    exact ih (by rw [ht _ _ hq]; simp)

/-- The loop stops where something else is. -/
theorem cut_stop (g : FS) (out d f : Remove.Path) (n : Str) (ho : out <+: d) (hd : d <+: f)
    (hclear : ∀ r, d <+: r → r ≠ d → g r ≠ none → (∃ m, d ++ [m] <+: f ∧ d ++ [m] <+: r) → r <+: f)
    (hn : cut g d f (d ++ [n]) ≠ none) : cut g d f = Cleaned g out [f] := by
  have hnf : g (d ++ [n]) ≠ none ∧ ¬ d ++ [n] <+: f := by
    unfold cut at hn
    split at hn
    · exact absurd rfl hn
    · next h => exact ⟨hn, fun hp => h ⟨List.prefix_append _ _, by simp, hp⟩⟩
  funext q
  unfold cut Cleaned
  by_cases h1 : d <+: q ∧ q ≠ d ∧ q <+: f
  · rw [if_pos h1, if_pos]
    refine ⟨ho.trans h1.1, fun r hr hg => ⟨f, by simp, ?_⟩⟩
    obtain ⟨m, hm⟩ := prefix_child h1.1 h1.2.1
    refine hclear r (h1.1.trans hr) ?_ hg ⟨m, hm.trans h1.2.2, hm.trans hr⟩
    rintro rfl
    exact h1.2.1 (List.IsPrefix.eq_of_length_le hr h1.1.length_le)
  · rw [if_neg h1]
    by_cases hg : g q = none
    · rw [hg]; split <;> rfl
    rw [if_neg]
    rintro ⟨h2, h3⟩
    have hqf : q <+: f := by
      obtain ⟨l, hl, h4⟩ := h3 q (List.prefix_refl _) hg
      rwa [List.mem_singleton.1 hl] at h4
    have hqd : q <+: d := by
      rcases List.prefix_or_prefix_of_prefix hqf hd with h | h
      · exact h
      · by_cases e : q = d
        · rw [e]; exact List.prefix_refl _
        · exact absurd ⟨h, e, hqf⟩ h1
    obtain ⟨l, hl, h4⟩ := h3 (d ++ [n]) (hqd.trans (List.prefix_append _ _)) hnf.1
    rw [List.mem_singleton.1 hl] at h4
    exact hnf.2 h4

/-- Up to the output directory nothing else was found. -/
theorem cut_all (g : FS) (ht : Tree g) (out f : Remove.Path) (ho : out <+: f)
    (hclear : ∀ r, out <+: r → r ≠ out → g r ≠ none → (∃ m, out ++ [m] <+: f ∧ out ++ [m] <+: r) → r <+: f)
    (hempty : ∀ n, cut g out f (out ++ [n]) = none) : (cut g out f).without out = Cleaned g out [f] := by
  have hall : ∀ r, out <+: r → g r ≠ none → r <+: f := by
    intro r hr hg
    by_cases e : r = out
    · rw [e]; exact ho
    · obtain ⟨m, hm⟩ := prefix_child hr e
      have h1 := tree_up ht hm hg
      have h2 := hempty m
      unfold cut at h2
      split at h2
      · next h => exact hclear r hr e hg ⟨m, h.2.2, hm⟩
      · exact absurd h2 h1
  funext q
  show (if q = out then none else if out <+: q ∧ q ≠ out ∧ q <+: f then none else g q) = _
  unfold Cleaned
  by_cases h : out <+: q
  · rw [if_pos (c := out <+: q ∧ ∀ r, q <+: r → g r ≠ none → ∃ l ∈ [f], r <+: l)
      ⟨h, fun r hr hg => ⟨f, by simp, hall r (h.trans hr) hg⟩⟩]
    by_cases e : q = out
    · rw [if_pos e]
    · rw [if_neg e]
      split
      · rfl
      · next h1 =>
        refine Classical.byContradiction fun hg => h1 ⟨h, e, hall q h hg⟩
  · rw [if_neg (by rintro rfl; exact h (List.prefix_refl _)),
      if_neg (by rintro ⟨h1, -⟩; exact h h1), if_neg (by rintro ⟨h1, -⟩; exact h h1)]

/-- The clearing condition goes one directory up. -/
theorem clear_up (g : FS) (ht : Tree g) (d : Remove.Path) (m : Str) (f : Remove.Path) (hf : d ++ [m] <+: f)
    (hclear : ∀ r, d ++ [m] <+: r → r ≠ d ++ [m] → g r ≠ none →
      (∃ n, d ++ [m] ++ [n] <+: f ∧ d ++ [m] ++ [n] <+: r) → r <+: f)
    (hempty : ∀ n, cut g (d ++ [m]) f (d ++ [m] ++ [n]) = none) :
    ∀ r, d <+: r → r ≠ d → g r ≠ none → (∃ n, d ++ [n] <+: f ∧ d ++ [n] <+: r) → r <+: f := by
  rintro r - - hg ⟨n, h1, h2⟩
  have e : d ++ [n] = d ++ [m] := by
    have := List.prefix_or_prefix_of_prefix h1 hf
    rcases this with h | h
    · exact h.eq_of_length (by simp)
    · exact (h.eq_of_length (by simp)).symm
  rw [e] at h2
  by_cases e2 : r = d ++ [m]
  · rw [e2]; exact hf
  · obtain ⟨k, hk⟩ := prefix_child h2 e2
    have h3 := tree_up ht hk hg
    have h4 := hempty k
    unfold cut at h4
    split at h4
    · next h => exact hclear r h2 e2 hg ⟨k, h.2.2, hk⟩
    · exact absurd h4 h3

/-! ## Calls -/

theorem answer_unique {fs fs1 fs2 : FS} {c : RmCall} {o1 o2 : Bool} (h1 : Answer fs c o1 fs1) (h2 : Answer fs c o2 fs2) :
    o1 = o2 ∧ fs1 = fs2 := by
  cases h1 with
  | unlink a b =>
    cases h2 with
    | unlink => exact ⟨rfl, rfl⟩
    | noFile c => exact absurd (c _ a) b
  | noFile c =>
    cases h2 with
    | unlink a b => exact absurd (c _ a) b
    | noFile => exact ⟨rfl, rfl⟩
  | read c =>
    cases h2 with
    | noDir a b => exact absurd (c _ a) b
    | read => exact ⟨rfl, rfl⟩
  | noDir a b =>
    cases h2 with
    | noDir => exact ⟨rfl, rfl⟩
    | read c => exact absurd (c _ a) b
  | empty a =>
    cases h2 with
    | empty => exact ⟨rfl, rfl⟩
    | entry b => exact absurd (a _) b
  | entry b =>
    cases h2 with
    | empty a => exact absurd (a _) b
    | entry => exact ⟨rfl, rfl⟩
  | rmdir a b =>
    cases h2 with
    | rmdir => exact ⟨rfl, rfl⟩
    | noRmdir c =>
      rcases c with c | ⟨n, c⟩
      · exact absurd a c
      · exact absurd (b n) c
  | noRmdir c =>
    cases h2 with
    | rmdir a b =>
      rcases c with c | ⟨n, c⟩
      · exact absurd a c
      · exact absurd (b n) c
    | noRmdir => exact ⟨rfl, rfl⟩

theorem answer_exists (fs : FS) (c : RmCall) : ∃ ok fs', Answer fs c ok fs' := by
  cases c with
  | unlink p =>
    by_cases h : ∀ o, fs (norm p) = some o → o = .dir
    · exact ⟨_, _, .noFile h⟩
    · simp only [not_forall] at h
      obtain ⟨o, h1, h2⟩ := h
      exact ⟨_, _, .unlink h1 h2⟩
  | readDir d =>
    by_cases h : ∀ o, fs (norm d) = some o → o = .dir
    · exact ⟨_, _, .read h⟩
    · simp only [not_forall] at h
      obtain ⟨o, h1, h2⟩ := h
      exact ⟨_, _, .noDir h1 h2⟩
  | isEmpty d =>
    by_cases h : ∀ n, fs (norm d ++ [n]) = none
    · exact ⟨_, _, .empty h⟩
    · simp only [not_forall] at h
      obtain ⟨n, h⟩ := h
      exact ⟨_, _, .entry h⟩
  | rmdir d =>
    by_cases h : fs (norm d) ≠ some .dir ∨ (∃ n, fs (norm d ++ [n]) ≠ none)
    · exact ⟨_, _, .noRmdir h⟩
    · rw [not_or] at h
      exact ⟨_, _, .rmdir (Classical.not_not.1 h.1) fun n => Classical.byContradiction fun hn => h.2 ⟨n, hn⟩⟩

/-- A run has one outcome. -/
theorem runs_unique {α : Type} {p : Prog RmCall α} {fs fs1 fs2 : FS} {a b : α} (h1 : Runs p fs fs1 a)
    (h2 : Runs p fs fs2 b) : fs1 = fs2 ∧ a = b := by
  induction h1 with
  | ret => cases h2; exact ⟨rfl, rfl⟩
  | call h _ ih =>
    cases h2 with
    | call h' h2 =>
      obtain ⟨rfl, rfl⟩ := answer_unique h h'
      exact ih h2

theorem runs_exists {α : Type} (p : Prog RmCall α) (fs : FS) : ∃ fs' a, Runs p fs fs' a := by
  induction p generalizing fs with
  | ret a => exact ⟨fs, a, .ret _ _⟩
  | call c k ih =>
    obtain ⟨ok, fs1, h⟩ := answer_exists fs c
    obtain ⟨fs', a, h2⟩ := ih ok fs1
    exact ⟨fs', a, .call h h2⟩

theorem cut_dir (g : FS) (d f : Remove.Path) : cut g d f d = g d := by
  unfold cut
  rw [if_neg]
  rintro ⟨-, h, -⟩
  exact h rfl

theorem loop_runs {α : Type} (out short : Str) (hob : Base out) (hsb : Base short) (hs1 : short ≠ b!".")
    (hs2 : short ≠ b!"/") (k : Option Nat → Prog RmCall α) (g : FS) (ht : Tree g) (f : Remove.Path) :
    ∀ (ms : List Str) (fuel : Nat), ms.length < fuel → (∀ m ∈ ms, Proper m) → norm out ++ ms <+: f →
      f ≠ norm out ++ ms → g f ≠ none →
      (∀ r, norm out ++ ms <+: r → r ≠ norm out ++ ms → g r ≠ none →
        (∃ m, norm out ++ ms ++ [m] <+: f ∧ norm out ++ ms ++ [m] <+: r) → r <+: f) →
      ∀ fs' a, Runs (k (some 0)) (Cleaned g (norm out) [f]) fs' a →
        Runs (rmLoop out k fuel (below short ms) (below out ms)) (cut g (norm out ++ ms) f) fs' a := by
  intro ms
  induction ms using List.reverseRecOn with
  | nil =>
    intro fuel hfuel hm hpf hne hg hclear fs' a hk
    obtain ⟨fuel, rfl⟩ : ∃ n, fuel = n + 1 := ⟨fuel - 1, by omega⟩
    rw [rmLoop, if_neg (ne_dot_slash short hsb hs1 hs2 [] hm)]
    simp only [below_nil, List.append_nil] at *
    obtain ⟨n, hn⟩ := prefix_child hpf hne
    have hdir : g (norm out) = some .dir := ht _ n (tree_up ht hn hg)
    refine .call (.read fun o ho => ?_) ?_
    · rw [cut_dir, hdir] at ho; cases ho; rfl
    rw [if_neg (by simp)]
    by_cases he : ∀ n, cut g (norm out) f (norm out ++ [n]) = none
    · refine .call (.empty he) ?_
      rw [if_neg (by simp)]
      refine .call (.rmdir (by rw [cut_dir, hdir]) he) ?_
      rw [if_neg (by simp), if_pos trivial, cut_all g ht (norm out) f hpf hclear he]
      exact hk
    · simp only [not_forall] at he
      obtain ⟨n, he⟩ := he
      refine .call (.entry he) ?_
      rw [if_pos rfl, cut_stop g (norm out) (norm out) f n (List.prefix_refl _) hpf hclear he]
      exact hk
  | append_singleton ms m ih =>
    intro fuel hfuel hm hpf hne hg hclear fs' a hk
    obtain ⟨fuel, rfl⟩ : ∃ n, fuel = n + 1 := ⟨fuel - 1, by omega⟩
    have hnorm : norm (below out (ms ++ [m])) = norm out ++ (ms ++ [m]) := norm_below out _ hm
    obtain ⟨n, hn⟩ := prefix_child hpf hne
    have hdir : g (norm out ++ (ms ++ [m])) = some .dir := ht _ n (tree_up ht hn hg)
    rw [rmLoop, if_neg (ne_dot_slash short hsb hs1 hs2 _ hm)]
    refine .call (.read fun o ho => ?_) ?_
    · rw [hnorm, cut_dir, hdir] at ho; cases ho; rfl
    rw [if_neg (by simp)]
    by_cases he : ∀ n, cut g (norm out ++ (ms ++ [m])) f (norm out ++ (ms ++ [m]) ++ [n]) = none
    · refine .call (.empty (by rw [hnorm]; exact he)) ?_
      rw [if_neg (by simp)]
      refine .call (.rmdir (by rw [hnorm, cut_dir, hdir]) (by rw [hnorm]; exact he)) ?_
      rw [if_neg (by simp), if_neg (by rw [below_eq_base]; simp), dirname_below short hsb ms m hm,
        dirname_below out hob ms m hm, hnorm]
      rw [← List.append_assoc] at hpf he hclear ⊢
      rw [cut_up g (norm out ++ ms) m f hpf]
      refine ih fuel (by simp at hfuel; omega) (fun x hx => hm x (by simp [hx])) ?_ ?_ hg ?_ fs' a hk
      · exact (List.prefix_append _ _).trans hpf
      · rintro rfl
        have := hpf.length_le
        simp only [List.length_append, List.length_singleton] at this
        omega
      · exact clear_up g ht (norm out ++ ms) m f hpf hclear he
    · simp only [not_forall] at he
      obtain ⟨n, he⟩ := he
      refine .call (.entry (n := n) (by rw [hnorm]; exact he)) ?_
      rw [if_pos rfl, cut_stop g (norm out) _ f n (List.prefix_append _ _) hpf hclear he]
      exact hk

theorem length_below (b : Str) (ns : List Str) : ns.length ≤ (below b ns).length := by
  induction ns using List.reverseRecOn with
  | nil => simp
  | append_singleton ns n ih =>
    rw [below_snoc]
    simp only [List.length_append, List.length_cons]
    simp only [List.length_nil]
    omega

theorem rm_runs {α : Type} {out short : Str} (hd : Dirs out short) {file : FileCtx} {names : List Str}
    (hf : Listed out short file names) (k : Option Nat → Prog RmCall α) (g : FS) (ht : Tree g) (o : Obj)
    (hg : g (norm out ++ names) = some o) (ho : o ≠ .dir) (fs' : FS) (a : α)
    (hk : Runs (k (some 0)) (Cleaned g (norm out) [norm out ++ names]) fs' a) :
    Runs (rm out file.path file.shortPath k) g fs' a := by
  obtain ⟨ms, n, rfl⟩ : ∃ ms n, names = ms ++ [n] := by
    rcases List.eq_nil_or_concat names with h | ⟨ms, n, h⟩
    · exact absurd h hf.proper.1
    · exact ⟨ms, n, by simpa using h⟩
  have hnorm : norm file.path = norm out ++ (ms ++ [n]) := by rw [hf.path]; exact norm_below out _ hf.proper.2
  unfold rm
  refine .call (.unlink (by rw [hnorm]; exact hg) ho) ?_
  rw [if_neg (by simp), hnorm, hf.path, hf.shortPath, dirname_below short hd.shortBase ms n hf.proper.2,
    dirname_below out hd.outBase ms n hf.proper.2]
  rw [← List.append_assoc] at hg hk ⊢
  rw [← cut_self_child]
  refine loop_runs out short hd.outBase hd.shortBase hd.notDot hd.notRoot k g ht _ ms _ ?_ ?_ ?_ ?_ ?_ ?_ fs' a hk
  · have := length_below short (ms ++ [n])
    simp only [List.length_append, List.length_singleton] at this
    omega
  · exact fun m hm => hf.proper.2 m (by simp [hm])
  · exact List.prefix_append _ _
  · simp
  · rw [hg]; simp
  · rintro r - - hr ⟨m, h1, h2⟩
    have e : norm out ++ ms ++ [m] = norm out ++ ms ++ [n] := h1.eq_of_length (by simp)
    rw [e] at h2
    by_cases e2 : r = norm out ++ ms ++ [n]
    · rw [e2]; exact List.prefix_refl _
    · obtain ⟨x, hx⟩ := prefix_child h2 e2
      have := ht _ _ (tree_up ht hx hr)
      rw [hg] at this
      exact absurd (Option.some.inj this) ho

/-! ## Removing all files -/

theorem cleaned_none {fs : FS} {out : Remove.Path} {l : List Remove.Path} {q : Remove.Path} :
    Cleaned fs out l q = none ↔
      fs q = none ∨ (out <+: q ∧ ∀ r, q <+: r → fs r ≠ none → ∃ f ∈ l, r <+: f) := by
  unfold Cleaned
  split
  · next h => exact ⟨fun _ => .inr h, fun _ => rfl⟩
  · next h => exact ⟨.inl, fun h' => h'.resolve_right h⟩

theorem cleaned_some {fs : FS} {out : Remove.Path} {l : List Remove.Path} {q : Remove.Path}
    (h : Cleaned fs out l q ≠ none) : Cleaned fs out l q = fs q := by
  unfold Cleaned at h ⊢
  split
  · next h' => rw [if_pos h'] at h; exact absurd rfl h
  · rfl

theorem cleaned_append (fs : FS) (out : Remove.Path) (l : List Remove.Path) (f : Remove.Path) :
    Cleaned (Cleaned fs out l) out [f] = Cleaned fs out (l ++ [f]) := by
  have key : ∀ q, Cleaned (Cleaned fs out l) out [f] q = none ↔ Cleaned fs out (l ++ [f]) q = none := by
    intro q
    rw [cleaned_none, cleaned_none, cleaned_none]
    constructor
    · rintro ((h | ⟨h1, h2⟩) | ⟨h1, h2⟩)
      · exact .inl h
      · exact .inr ⟨h1, fun r hr hg => by obtain ⟨x, hx, h⟩ := h2 r hr hg; exact ⟨x, by simp [hx], h⟩⟩
      · refine .inr ⟨h1, fun r hr hg => ?_⟩
        by_cases hc : Cleaned fs out l r = none
        · rcases cleaned_none.1 hc with h | ⟨-, h⟩
          · exact absurd h hg
          · obtain ⟨x, hx, h⟩ := h r (List.prefix_refl _) hg
            exact ⟨x, by simp [hx], h⟩
        · obtain ⟨x, hx, h⟩ := h2 r hr hc
          rw [List.mem_singleton.1 hx] at h
          exact ⟨f, by simp, h⟩
    · rintro (h | ⟨h1, h2⟩)
      · exact .inl (.inl h)
      · refine .inr ⟨h1, fun r hr hg => ⟨f, by simp, ?_⟩⟩
        have h3 : ¬ (out <+: r ∧ ∀ s, r <+: s → fs s ≠ none → ∃ x ∈ l, s <+: x) := fun h =>
          hg (cleaned_none.2 (.inr h))
        have h4 : ∃ s, r <+: s ∧ fs s ≠ none ∧ ¬ ∃ x ∈ l, s <+: x := by
          refine Classical.byContradiction fun hn => h3 ⟨h1.trans hr, fun s hs hgs => ?_⟩
          exact Classical.byContradiction fun hx => hn ⟨s, hs, hgs, hx⟩
        obtain ⟨s, hs1, hs2, hs3⟩ := h4
        obtain ⟨x, hx, h⟩ := h2 s (hr.trans hs1) hs2
        rcases List.mem_append.1 hx with hx | hx
        · exact absurd ⟨x, hx, h⟩ hs3
        · rw [List.mem_singleton.1 hx] at h
          exact hs1.trans h
  funext q
  by_cases h : Cleaned fs out (l ++ [f]) q = none
  · rw [h]; exact (key q).2 h
  · have h1 : Cleaned (Cleaned fs out l) out [f] q ≠ none := fun e => h ((key q).1 e)
    have h2 := cleaned_some h1
    rw [cleaned_some h, h2]
    exact cleaned_some (by rw [← h2]; exact h1)

theorem cleaned_nil (fs : FS) (out : Remove.Path) : Cleaned fs out [] = fs := by
  funext q
  by_cases h : fs q = none
  · rw [h]; exact cleaned_none.2 (.inl h)
  · refine cleaned_some fun hc => ?_
    rcases cleaned_none.1 hc with h' | ⟨-, h'⟩
    · exact h h'
    · obtain ⟨x, hx, -⟩ := h' q (List.prefix_refl _) h
      cases hx

theorem cleaned_tree {fs : FS} (ht : Tree fs) (out : Remove.Path) (l : List Remove.Path) : Tree (Cleaned fs out l) := by
  intro p n h
  have h1 : fs (p ++ [n]) ≠ none := by rw [← cleaned_some h]; exact h
  have h2 : Cleaned fs out l p ≠ none := by
    intro hc
    rcases cleaned_none.1 hc with h' | ⟨h3, h4⟩
    · rw [ht _ _ h1] at h'; cases h'
    · exact h (cleaned_none.2 (.inr ⟨h3.trans (List.prefix_append _ _),
        fun r hr hg => h4 r ((List.prefix_append _ _).trans hr) hg⟩))
  rw [cleaned_some h2]
  exact ht _ _ h1

theorem clean_runs {out short : Str} (hd : Dirs out short) (fs : FS) (ht : Tree fs) :
    ∀ (files : List FileCtx) (l : List Remove.Path), OnDisk out short fs files →
      (∀ x ∈ l, fs x ≠ none ∧ ∀ f ∈ files, f.readable = true → norm f.path ≠ x) →
      Runs (clean out files) (Cleaned fs (norm out) l)
        (Cleaned fs (norm out) (l ++ (files.filter (·.readable)).map fun f => norm f.path)) (some 0) := by
  intro files
  induction files with
  | nil => intro l _ _; simpa [clean] using Runs.ret _ _
  | cons f files ih =>
    intro l h hl
    rw [clean]
    by_cases hr : f.readable = true
    · obtain ⟨names, hn⟩ := h.listed f (by simp) hr
      obtain ⟨o, h1, h2⟩ := h.there f (by simp) hr
      have hnorm : norm f.path = norm out ++ names := by rw [hn.path]; exact norm_below out _ hn.proper.2
      have honce := h.once
      rw [List.filter_cons_of_pos hr, List.map_cons, List.nodup_cons] at honce
      have hthere : Cleaned fs (norm out) l (norm out ++ names) = some o := by
        rw [← hnorm, ← h1]
        refine cleaned_some fun hc => ?_
        rcases cleaned_none.1 hc with h' | ⟨-, h'⟩
        · rw [h1] at h'; cases h'
        · obtain ⟨x, hx, hp⟩ := h' _ (List.prefix_refl _) (by rw [h1]; simp)
          obtain ⟨h3, h4⟩ := hl x hx
          obtain ⟨y, hy⟩ := prefix_child hp (Ne.symm (h4 f (by simp) hr))
          have := ht _ _ (tree_up ht hy h3)
          rw [h1] at this
          exact h2 (Option.some.inj this)
      rw [if_pos hr]
      refine rm_runs hd hn _ _ (cleaned_tree ht _ _) o hthere h2 _ _ ?_
      rw [if_pos rfl, cleaned_append, List.filter_cons_of_pos hr, List.map_cons, ← hnorm]
      have := ih (l ++ [norm f.path]) ⟨fun x hx => h.listed x (by simp [hx]), fun x hx => h.there x (by simp [hx]), honce.2⟩ ?_
      · simpa using this
      · intro x hx
        rcases List.mem_append.1 hx with hx | hx
        · exact ⟨(hl x hx).1, fun g hg => (hl x hx).2 g (by simp [hg])⟩
        · rw [List.mem_singleton.1 hx]
          refine ⟨by rw [h1]; simp, fun g hg hgr e => honce.1 ?_⟩
          rw [← e]
          exact List.mem_map.2 ⟨g, List.mem_filter.2 ⟨hg, hgr⟩, rfl⟩
    · rw [if_neg hr, List.filter_cons_of_neg hr]
      refine ih l ⟨fun x hx => h.listed x (by simp [hx]), fun x hx => h.there x (by simp [hx]), ?_⟩
        fun x hx => ⟨(hl x hx).1, fun g hg => (hl x hx).2 g (by simp [hg])⟩
      have := h.once
      rwa [List.filter_cons_of_neg hr] at this

/-! ## Building, then cleaning -/

theorem parents_child (a n : Str) (ha : a ≠ []) (h1 : c!"/" ∉ n) (h2 : c!"\\" ∉ n) (d : Str) :
    d ∈ parentDirs [] (a ++ c!"/" :: n) ↔ d ∈ parentDirs [] a ∨ d = a := by
  rw [C59.parents, C59.parents]
  constructor
  · rintro ⟨hd, c, rest, hc, e⟩
    rcases List.append_eq_append_iff.1 e with ⟨m, e1, e2⟩ | ⟨m, e1, e2⟩
    · cases m with
      | nil => exact .inr (by simpa using e1)
      | cons x m =>
        rw [List.cons_append, List.cons.injEq] at e2
        exfalso
        have : c ∈ n := by rw [e2.2]; simp
        rcases hc with rfl | rfl
        · exact h1 this
        · exact h2 this
    · cases m with
      | nil => exact .inr (by simpa using e1.symm)
      | cons x m =>
        rw [List.cons_append, List.cons.injEq] at e2
        exact .inl ⟨hd, c, m, hc, by rw [e1, e2.1]⟩
  · rintro (⟨hd, c, rest, hc, e⟩ | rfl)
    · exact ⟨hd, c, rest ++ c!"/" :: n, hc, by rw [e]; simp⟩
    · exact ⟨ha, _, n, .inl rfl, rfl⟩

theorem parents_below (out : Str) (ho : out ≠ []) (names : List Str)
    (hn : ∀ n ∈ names, c!"/" ∉ n ∧ c!"\\" ∉ n) (d : Str) :
    d ∈ parentDirs [] (below out names) ↔
      d ∈ parentDirs [] out ∨ ∃ ms m rest, names = ms ++ m :: rest ∧ d = below out ms := by
  induction names using List.reverseRecOn with
  | nil => simp [below_nil]
  | append_singleton ns n ih =>
    have hne : below out ns ≠ [] := by unfold below; simp [ho]
    rw [below_snoc, parents_child _ _ hne (hn n (by simp)).1 (hn n (by simp)).2, ih fun m hm => hn m (by simp [hm])]
    constructor
    · rintro ((h | ⟨ms, m, rest, rfl, h⟩) | rfl)
      · exact .inl h
      · exact .inr ⟨ms, m, rest ++ [n], by simp, h⟩
      · exact .inr ⟨ns, n, [], rfl, rfl⟩
    · rintro (h | ⟨ms, m, rest, e, rfl⟩)
      · exact .inl (.inl h)
      · rcases List.eq_nil_or_concat rest with rfl | ⟨rest, x, rfl⟩
        · rw [(List.append_inj' e rfl).1]
          exact .inr rfl
        · rw [List.concat_eq_append, ← List.cons_append, ← List.append_assoc] at e
          exact .inl (.inr ⟨ms, m, rest, (List.append_inj' e rfl).1, rfl⟩)

theorem fold_mkdir (l : List Remove.Path) (fs : FS) (q : Remove.Path) :
    l.foldl mkdir fs q = if q ∈ l then (fs q).orElse fun _ => some .dir else fs q := by
  induction l generalizing fs with
  | nil => simp
  | cons p l ih =>
    rw [List.foldl_cons, ih]
    unfold mkdir
    by_cases h : q = p
    · subst h
      rw [if_pos rfl, if_pos (List.mem_cons_self ..)]
      cases fs q <;> simp
    · rw [if_neg h]
      by_cases h2 : q ∈ l
      · rw [if_pos h2, if_pos (List.mem_cons_of_mem _ h2)]
      · rw [if_neg h2, if_neg (by simp [h, h2])]

theorem write_eq {out : Str} (ho : out ≠ []) {fs : FS} (hr : Reachable fs out) (names : List Str)
    (hn : ∀ n ∈ names, Proper n ∧ c!"\\" ∉ n) (q : Remove.Path) :
    write fs (below out names) q =
      if q = norm out ++ names then some .file
      else if norm out <+: q ∧ q <+: norm out ++ names then (fs q).orElse fun _ => some .dir
      else fs q := by
  unfold write
  rw [norm_below out names fun n h => (hn n h).1]
  by_cases h : q = norm out ++ names
  · rw [if_pos h, if_pos h]
  rw [if_neg h, if_neg h, fold_mkdir]
  have hm : q ∈ (parentDirs [] (below out names)).map norm ↔
      q ∈ (parentDirs [] out).map norm ∨ (norm out <+: q ∧ q <+: norm out ++ names) := by
    simp only [List.mem_map, parents_below out ho names fun n h => ⟨(hn n h).1.2.1, (hn n h).2⟩]
    constructor
    · rintro ⟨d, hd | ⟨ms, m, rest, rfl, rfl⟩, rfl⟩
      · exact .inl ⟨d, hd, rfl⟩
      · rw [norm_below out ms fun n h => (hn n (by simp [h])).1]
        exact .inr ⟨List.prefix_append _ _, ⟨m :: rest, by simp⟩⟩
    · rintro (⟨d, hd, rfl⟩ | ⟨⟨ms, rfl⟩, h2⟩)
      · exact ⟨d, .inl hd, rfl⟩
      · obtain ⟨rest, e⟩ := (List.prefix_append_right_inj _).1 h2
        cases rest with
        | nil => rw [List.append_nil] at e; exact absurd (by rw [e]) h
        | cons m rest =>
          refine ⟨below out ms, .inr ⟨ms, m, rest, e.symm, rfl⟩, norm_below out ms fun n h => (hn n ?_).1⟩
          rw [← e]; simp [h]
  by_cases h1 : norm out <+: q ∧ q <+: norm out ++ names
  · rw [if_pos (hm.2 (.inr h1)), if_pos h1]
  · rw [if_neg h1]
    by_cases h2 : q ∈ (parentDirs [] out).map norm
    · rw [if_pos (hm.2 (.inl h2))]
      obtain ⟨d, hd, rfl⟩ := List.mem_map.1 h2
      have := hr d hd
      cases hfs : fs (norm d) with
      | none => exact absurd hfs this
      | some o => rfl
    · rw [if_neg fun h => (hm.1 h).elim h2 h1]

open Classical in
/-- A disk with a build on it. -/
theorem writeAll_eq {out short : Str} (hd : Dirs out short) {fs : FS} (hr : Reachable fs out) (hout : ∀ q, norm out <+: q → fs q = none)
    (files : List FileCtx) (hf : ∀ f ∈ files, ∃ names, Listed out short f names ∧ ∀ n ∈ names, c!"\\" ∉ n)
    (ha : ∀ f ∈ files, ∀ g ∈ files, norm f.path <+: norm g.path → norm f.path = norm g.path) (q : Remove.Path) :
    writeAll fs files q =
      if ∃ f ∈ files, q = norm f.path then some .file
      else if norm out <+: q ∧ ∃ f ∈ files, q <+: norm f.path then some .dir
      else fs q := by
  induction files using List.reverseRecOn generalizing q with
  | nil => simp [writeAll]
  | append_singleton files f ih =>
    have ih := ih (fun g hg => hf g (by simp [hg])) fun g hg g' hg' => ha g (by simp [hg]) g' (by simp [hg'])
    obtain ⟨names, hl, hb⟩ := hf f (by simp)
    have hnorm : norm f.path = norm out ++ names := by rw [hl.path]; exact norm_below out _ hl.proper.2
    have hstep : writeAll fs (files ++ [f]) = write (writeAll fs files) f.path := by simp [writeAll]
    have hr2 : Reachable (writeAll fs files) out := by
      intro d hd2
      rw [ih]
      split
      · simp
      · split
        · simp
        · exact hr d hd2
    rw [hstep, hl.path, write_eq hd.outBase.1 hr2 names fun n hn => ⟨hl.proper.2 n hn, hb n hn⟩, ih, ← hnorm]
    by_cases h1 : q = norm f.path
    · rw [if_pos h1, if_pos ⟨f, by simp, h1⟩]
    rw [if_neg h1]
    by_cases h2 : ∃ g ∈ files, q = norm g.path
    · have h3 : ∃ g ∈ files ++ [f], q = norm g.path := by obtain ⟨g, hg, e⟩ := h2; exact ⟨g, by simp [hg], e⟩
      rw [if_pos h2, if_pos h3]
      split <;> rfl
    have h3 : ¬ ∃ g ∈ files ++ [f], q = norm g.path := by
      rintro ⟨g, hg, e⟩
      rcases List.mem_append.1 hg with hg | hg
      · exact h2 ⟨g, hg, e⟩
      · rw [List.mem_singleton.1 hg] at e; exact h1 e
    rw [if_neg h2, if_neg h3]
    by_cases h4 : norm out <+: q
    · by_cases h5 : q <+: norm f.path
      · have h7 : norm out <+: q ∧ ∃ g ∈ files ++ [f], q <+: norm g.path := ⟨h4, f, by simp, h5⟩
        rw [if_pos ⟨h4, h5⟩, if_pos h7]
        by_cases h8 : norm out <+: q ∧ ∃ g ∈ files, q <+: norm g.path
        · rw [if_pos h8]; rfl
        · rw [if_neg h8, hout q h4]; rfl
      · rw [if_neg fun h => h5 h.2]
        by_cases h6 : ∃ g ∈ files, q <+: norm g.path
        · have h7 : ∃ g ∈ files ++ [f], q <+: norm g.path := by obtain ⟨g, hg, e⟩ := h6; exact ⟨g, by simp [hg], e⟩
          rw [if_pos ⟨h4, h6⟩, if_pos ⟨h4, h7⟩]
        · rw [if_neg fun h => h6 h.2, if_neg]
          rintro ⟨-, g, hg, e⟩
          rcases List.mem_append.1 hg with hg | hg
          · exact h6 ⟨g, hg, e⟩
          · rw [List.mem_singleton.1 hg] at e; exact h5 e
    · rw [if_neg fun h => h4 h.1, if_neg fun h => h4 h.1, if_neg fun h => h4 h.1]

theorem built_tree {out short : Str} (hd : Dirs out short) {fs : FS} (ht : Tree fs) (hr : Reachable fs out)
    (hroot : ∀ q n, norm out = q ++ [n] → fs q = some .dir)
    (hout : ∀ q, norm out <+: q → fs q = none) {files : List FileCtx} (h : Outputs out short files) :
    Tree (writeAll fs files) := by
  intro p n hp
  have e := fun q => writeAll_eq hd hr hout files h.listed h.apart q
  have below : ∀ f ∈ files, p ++ [n] <+: norm f.path → norm out <+: p ++ [n] → writeAll fs files p = some .dir := by
    intro f hf h1 h2
    by_cases hp0 : norm out = p ++ [n]
    · rw [e, if_neg, if_neg, hroot p n hp0]
      · rintro ⟨h3, -⟩
        have := h3.length_le
        rw [hp0, List.length_append, List.length_singleton] at this
        omega
      · rintro ⟨g, hg, h3⟩
        obtain ⟨names, hl, -⟩ := h.listed g hg
        have hnorm : norm g.path = norm out ++ names := by rw [hl.path]; exact norm_below out _ hl.proper.2
        have h4 := congrArg List.length h3
        rw [hnorm, hp0] at h4
        simp at h4
    · have h3 : norm out <+: p := by
        rcases List.prefix_concat_iff.1 h2 with h3 | h3
        · exact absurd h3 hp0
        · exact h3
      have h4 : p <+: norm f.path := (List.prefix_append _ _).trans h1
      rw [e, if_neg, if_pos ⟨h3, f, hf, h4⟩]
      rintro ⟨g, hg, rfl⟩
      have := h.apart g hg f hf h4
      rw [← this] at h1
      have := h1.length_le
      rw [List.length_append, List.length_singleton] at this
      omega
  rw [e] at hp
  by_cases h1 : ∃ f ∈ files, p ++ [n] = norm f.path
  · obtain ⟨f, hf, h1⟩ := h1
    obtain ⟨names, hl, -⟩ := h.listed f hf
    have hnorm : norm f.path = norm out ++ names := by rw [hl.path]; exact norm_below out _ hl.proper.2
    exact below f hf (by rw [h1]; exact List.prefix_refl _) (by rw [h1, hnorm]; exact List.prefix_append _ _)
  · rw [if_neg h1] at hp
    by_cases h2 : norm out <+: p ++ [n] ∧ ∃ f ∈ files, p ++ [n] <+: norm f.path
    · obtain ⟨h2, f, hf, h3⟩ := h2
      exact below f hf h3 h2
    · rw [if_neg h2] at hp
      have h3 := ht _ _ hp
      rw [e, if_neg, if_neg, h3]
      · rintro ⟨h4, -⟩
        rw [hout p h4] at h3; cases h3
      · rintro ⟨f, hf, rfl⟩
        obtain ⟨names, hl, -⟩ := h.listed f hf
        have hnorm : norm f.path = norm out ++ names := by rw [hl.path]; exact norm_below out _ hl.proper.2
        rw [hout _ (by rw [hnorm]; exact List.prefix_append _ _)] at h3
        cases h3

/-! ## The site -/

/-- An output as the context stores it: the path belongs to the short path, and it
is readable if it is on the disk. -/
def Made (s : Site) (o : Option FileCtx) : Prop :=
  ∀ f, o = some f → f.path = absPath s.root f.shortPath ∧ f.readable = (s.stat f.path).isSome

theorem made_file (s : Site) (f slug : Option Str) : Made s (s.file f slug) := by
  intro x hx
  cases f with
  | none => cases hx
  | some f =>
    rw [file_eq] at hx
    cases hx
    rw [at_path, at_shortPath]
    refine ⟨rfl, ?_⟩
    unfold Site.at
    cases s.stat (absPath s.root f) <;> rfl

theorem made_map {α : Type} (s : Site) (l : List α) (f : α → Option FileCtx) (h : ∀ x, Made s (f x)) :
    ∀ o ∈ l.map f, Made s o := by
  intro o ho
  obtain ⟨x, -, rfl⟩ := List.mem_map.1 ho
  exact h x

theorem made_tagPages (s : Site) (run : Shell) (tags : List Str) (l : List (Option FileCtx))
    (h : s.tagPagesLoop run tags = .ok l) : ∀ o ∈ l, Made s o := by
  induction tags generalizing l with
  | nil => cases h; simp
  | cons t tags ih =>
    rw [Site.tagPagesLoop] at h
    cases h1 : s.lastPageOf run t with
    | ub => rw [h1] at h; cases h
    | ok last =>
      rw [h1] at h
      cases h2 : s.tagPagesLoop run tags with
      | ub => simp only [Res.bind, h2] at h; cases h
      | ok r =>
        simp only [Res.bind, h2] at h
        cases h
        intro o ho
        rcases List.mem_append.1 ho with ho | ho
        · exact made_map s _ _ (fun i => made_file s _ _) o ho
        · exact ih r h2 o ho

theorem made_built (s : Site) (run : Shell) (files : List (Option FileCtx)) (h : s.builtFiles run = .ok files) :
    ∀ o ∈ files, Made s o := by
  unfold Site.builtFiles at h
  cases h1 : s.paginationOutputs run with
  | ub => rw [h1] at h; cases h
  | ok l1 =>
    rw [h1] at h
    cases h2 : s.paginationTagsOutputs run with
    | ub => simp only [Res.bind, h2] at h; cases h
    | ok l2 =>
      simp only [Res.bind, h2] at h
      cases h
      have e1 : ∀ o ∈ l1, Made s o := by
        unfold Site.paginationOutputs at h1
        split at h1
        · cases h1; simp
        · cases h3 : s.lastPage run with
          | ub => rw [h3] at h1; cases h1
          | ok last =>
            rw [h3] at h1
            cases h1
            exact made_map s _ _ fun i => made_file s _ _
      have e2 : ∀ o ∈ l2, Made s o := by
        unfold Site.paginationTagsOutputs at h2
        split at h2
        · cases h2; simp
        · exact made_tagPages s run _ _ h2
      intro o ho
      simp only [List.mem_append] at ho
      rcases ho with (((((((ho | ho) | ho) | ho) | ho) | ho) | ho) | ho) | ho
      · unfold Site.indexOutputs at ho
        split at ho
        · cases ho
        · rw [List.mem_singleton.1 ho]; exact made_file s _ _
      · unfold Site.atomOutputs at ho
        split at ho
        · cases ho
        · rw [List.mem_singleton.1 ho]; exact made_file s _ _
      · unfold Site.atomTagsOutputs at ho
        split at ho
        · cases ho
        · exact made_map s _ _ (fun i => made_file s _ _) o ho
      · exact e1 o ho
      · exact e2 o ho
      · exact made_map s _ _ (fun i => made_file s _ _) o ho
      · unfold Site.tagsOutputs at ho
        split at ho
        · cases ho
        · exact made_map s _ _ (fun i => made_file s _ _) o ho
      · exact made_map s _ _ (fun i => made_file s _ _) o ho
      · unfold Site.copyOutputs at ho
        split at ho
        · cases ho
        · exact made_map s _ _ (fun i => made_file s _ _) o ho

end Blogc.C91
