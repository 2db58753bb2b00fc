import Verif.Lemmas.MakeMemory

/-!
# Lemmas about what a context of blogc-make has in use
-/

namespace Blogc.MakeMem

open Blogc Blogc.Spec.MakeAccount

/-- Things with the numbers `k` to `k + n - 1`. -/
def numbered (f : Nat → Thing) (k n : Nat) : List Thing := (List.range' k n).map f

theorem mem_numbered {f : Nat → Thing} {k n : Nat} {x : Thing} :
    x ∈ numbered f k n ↔ ∃ i, k ≤ i ∧ i < k + n ∧ f i = x := by
  simp only [numbered, List.mem_map, List.mem_range'_1, and_assoc]

theorem numbered_succ (f : Nat → Thing) (k n : Nat) : numbered f k (n + 1) = f k :: numbered f (k + 1) n := by
  simp [numbered, List.range'_succ]

theorem numbered_add (f : Nat → Thing) (k n m : Nat) : numbered f k (n + m) = numbered f k n ++ numbered f (k + n) m := by
  simp only [numbered]
  rw [← List.map_append, List.range'_append_1]

theorem nodup_numbered {f : Nat → Thing} (hf : Function.Injective f) (k n : Nat) : (numbered f k n).Nodup :=
  List.Pairwise.map f (fun _ _ (h : _ ≠ _) e => h (hf e)) (List.nodup_range' (s := k) (n := n))

theorem freeContexts_eq (f : Nat → Thing) (k n : Nat) : freeContexts f k n = (numbered f k n).map .release := by
  induction n generalizing k with
  | zero => rfl
  | succ n ih => rw [freeContexts, numbered_succ, List.map_cons, ih]

theorem makeContexts_ok {f : Nat → Thing} (hf : Function.Injective f) (hn : ∀ i, f i ≠ .name) {l : InUse}
    (h : l .name = false) (k n : Nat) (hl : ∀ i, k ≤ i → l (f i) = false) :
    inUse (makeContexts f k n) l = some (plus l (numbered f k n)) := by
  induction n generalizing k l with
  | zero => exact congrArg some (plus_nil l).symm
  | succ n ih =>
    rw [makeContexts, numbered_succ]
    refine then_ok (l' := plus l [f k]) ?_ ?_
    · have e : inUse [.acquire .name, .acquire (f k), .release .name] (plus l []) = some (plus l [f k]) := by
        rw [do_acquire h (by simp), do_acquire (hl k (Nat.le_refl k)) (by simp [hn]), do_release h (by simp), inUse_nil]
        simp [hn]
      rwa [plus_nil] at e
    · rw [ih (l := plus l [f k]) (plus_false.mpr ⟨h, by simpa using (hn k).symm⟩) (k + 1) fun i hi => ?_, plus_plus]
      · rfl
      · rw [plus_false]
        refine ⟨hl i (by omega), ?_⟩
        rw [List.mem_singleton]
        intro e
        have := hf e
        omega

/-- What the walk needs at the depth `d` with `k` contexts made. -/
structure WalkReady (d k : Nat) (l : InUse) : Prop where
  root : l .root = true
  path : ∀ i, d ≤ i → l (.walkPath i) = false
  dir : ∀ i, d ≤ i → l (.walkDir i) = false
  name : ∀ i, d ≤ i → l (.walkName i) = false
  copied : ∀ i, k ≤ i → l (.copied i) = false

mutual
theorem walk_ok (w : Walk) {d k : Nat} {l : InUse} (h : WalkReady d k l) :
    inUse (w.events d k) l = some (plus l (numbered .copied k w.count)) := by
  have hp := h.path d (Nat.le_refl d)
  have hd := h.dir d (Nat.le_refl d)
  have hk := h.copied k (Nat.le_refl k)
  have he : ∀ ev o, inUse ev (plus l []) = o → inUse ev l = o := fun ev o h => by rwa [plus_nil] at h
  match w with
  | .gone =>
    refine he _ _ ?_
    simp [Walk.events, Walk.count, do_use, do_acquire, do_release, h.root, hp, inUse_nil, numbered]
  | .file =>
    refine he _ _ ?_
    simp [Walk.events, Walk.count, do_use, do_acquire, do_release, h.root, hp, hk, inUse_nil, numbered]
  | .closed =>
    refine he _ _ ?_
    simp [Walk.events, Walk.count, do_use, do_acquire, do_release, h.root, hp, inUse_nil, numbered]
  | .dir es =>
    rw [Walk.events, Walk.count]
    have h1 : inUse [.use .root, .acquire (.walkPath d), .use (.walkPath d), .acquire (.walkDir d)] l
        = some (plus l [.walkDir d, .walkPath d]) := by
      refine he _ _ ?_
      simp [do_use, do_acquire, h.root, hp, hd, inUse_nil]
    have h2 : inUse (es.events d k) (plus l [.walkDir d, .walkPath d])
        = some (plus (plus l [.walkDir d, .walkPath d]) (numbered .copied k es.count)) := by
      refine entries_ok es (plus_true.mpr (.inr (by simp))) (plus_true.mpr (.inl h.root)) ?_ ?_ ?_ ?_
      · intro i hi
        exact plus_false.mpr ⟨h.path i (by omega), by simp; omega⟩
      · intro i hi
        exact plus_false.mpr ⟨h.dir i (by omega), by simp; omega⟩
      · intro i hi
        exact plus_false.mpr ⟨h.name i (by omega), by simp⟩
      · intro i hi
        exact plus_false.mpr ⟨h.copied i hi, by simp⟩
    refine then_ok (then_ok h1 h2) ?_
    rw [plus_plus]
    have := releases_ok (l := l) [.walkDir d, .walkPath d] (ys := numbered .copied k es.count) ?_ ?_
    · exact this
    · refine List.nodup_append.mpr ⟨by simp, nodup_numbered (fun a b e => Thing.copied.inj e) _ _, ?_⟩
      intro a ha b hb e
      subst e
      obtain ⟨i, _, _, rfl⟩ := mem_numbered.mp hb
      simp at ha
    · simp [hp, hd]

theorem entries_ok (es : Entries) {d k : Nat} {l : InUse} (hd : l (.walkDir d) = true) (hr : l .root = true)
    (hp : ∀ i, d + 1 ≤ i → l (.walkPath i) = false) (hd' : ∀ i, d + 1 ≤ i → l (.walkDir i) = false)
    (hn : ∀ i, d ≤ i → l (.walkName i) = false) (hc : ∀ i, k ≤ i → l (.copied i) = false) :
    inUse (es.events d k) l = some (plus l (numbered .copied k es.count)) := by
  have he : ∀ ev o, inUse ev (plus l []) = o → inUse ev l = o := fun ev o h => by rwa [plus_nil] at h
  match es with
  | .nil =>
    refine he _ _ ?_
    simp [Entries.events, Entries.count, do_use, hd, inUse_nil, numbered]
  | .cons w es =>
    rw [Entries.events, Entries.count, numbered_add]
    have hn0 := hn d (Nat.le_refl d)
    have h1 : inUse [.use (.walkDir d), .acquire (.walkName d)] l = some (plus l [.walkName d]) := by
      refine he _ _ ?_
      simp [do_use, do_acquire, hd, hn0, inUse_nil]
    have h2 : inUse (w.events (d + 1) k) (plus l [.walkName d])
        = some (plus (plus l [.walkName d]) (numbered .copied k w.count)) := by
      refine walk_ok w ⟨plus_true.mpr (.inl hr), ?_, ?_, ?_, ?_⟩
      · intro i hi
        exact plus_false.mpr ⟨hp i hi, by simp⟩
      · intro i hi
        exact plus_false.mpr ⟨hd' i hi, by simp⟩
      · intro i hi
        exact plus_false.mpr ⟨hn i (by omega), by simp; omega⟩
      · intro i hi
        exact plus_false.mpr ⟨hc i hi, by simp⟩
    have h3 : inUse [.release (.walkName d)] (plus (plus l [.walkName d]) (numbered .copied k w.count))
        = some (plus l (numbered .copied k w.count)) := by
      rw [plus_plus]
      refine releases_ok (l := l) [.walkName d] (ys := numbered .copied k w.count) ?_ (by simp [hn0])
      refine List.nodup_append.mpr ⟨by simp, nodup_numbered (fun a b e => Thing.copied.inj e) _ _, ?_⟩
      intro a ha b hb e
      subst e
      obtain ⟨i, _, _, rfl⟩ := mem_numbered.mp hb
      simp at ha
    have h4 : inUse (es.events d (k + w.count)) (plus l (numbered .copied k w.count))
        = some (plus (plus l (numbered .copied k w.count)) (numbered .copied (k + w.count) es.count)) := by
      have hm (x : Thing) (hx : ∀ i, x ≠ .copied i) : x ∉ numbered .copied k w.count := by
        intro hm
        obtain ⟨i, _, _, e⟩ := mem_numbered.mp hm
        exact hx i e.symm
      refine entries_ok es (plus_true.mpr (.inl hd)) (plus_true.mpr (.inl hr)) ?_ ?_ ?_ ?_
      · intro i hi
        exact plus_false.mpr ⟨hp i hi, hm _ (by simp)⟩
      · intro i hi
        exact plus_false.mpr ⟨hd' i hi, hm _ (by simp)⟩
      · intro i hi
        exact plus_false.mpr ⟨hn i hi, hm _ (by simp)⟩
      · intro i hi
        refine plus_false.mpr ⟨hc i (by omega), fun hm => ?_⟩
        obtain ⟨j, _, h2, e⟩ := mem_numbered.mp hm
        have := Thing.copied.inj e
        omega
    rw [← plus_plus]
    exact then_ok (then_ok h1 h2) (then_ok (a := [.release (.walkName d)]) h3 h4)
end

theorem copyContexts_ok (ws : List Walk) {k : Nat} {l : InUse} (h : WalkReady 0 k l) :
    inUse (copyContexts k ws) l = some (plus l (numbered .copied k (ws.map Walk.count).sum)) := by
  induction ws generalizing k l with
  | nil => exact congrArg some (plus_nil l).symm
  | cons w ws ih =>
    rw [copyContexts, List.map_cons, List.sum_cons, numbered_add, ← plus_plus]
    have hm (x : Thing) (hx : ∀ i, x ≠ .copied i) : x ∉ numbered .copied k w.count := by
      intro hm
      obtain ⟨i, _, _, e⟩ := mem_numbered.mp hm
      exact hx i e.symm
    refine then_ok (walk_ok w h) (ih ⟨plus_true.mpr (.inl h.root), ?_, ?_, ?_, ?_⟩)
    · intro i hi
      exact plus_false.mpr ⟨h.path i hi, hm _ (by simp)⟩
    · intro i hi
      exact plus_false.mpr ⟨h.dir i hi, hm _ (by simp)⟩
    · intro i hi
      exact plus_false.mpr ⟨h.name i hi, hm _ (by simp)⟩
    · intro i hi
      refine plus_false.mpr ⟨h.copied i (by omega), fun hm => ?_⟩
      obtain ⟨j, _, h2, e⟩ := mem_numbered.mp hm
      have := Thing.copied.inj e
      omega

/-! ## The context -/

/-- What a context holds, apart from itself and the names of the two programs. -/
def inner (g : Nat) (s : Shape) : List Thing :=
  [.settings g, .root, .shortDir, .outDir] ++ (if s.ownAtom then [] else [.atomFile g])
    ++ [.mainTemplate, .atomTemplate, .settingsFile] ++ (if s.entry then [.entry] else [])
    ++ numbered .post 0 s.posts ++ numbered .page 0 s.pages ++ numbered .copied 0 s.copies

def outer : List Thing := [.ctx, .blogc, .runserver]

theorem inner_lvl {g : Nat} {s : Shape} {x : Thing} (h : x ∈ inner g s) : lvl x = 4 := by
  simp only [inner, List.mem_append, mem_numbered] at h
  rcases h with ((((((h | h) | h) | h) | ⟨i, _, _, rfl⟩) | ⟨i, _, _, rfl⟩) | ⟨i, _, _, rfl⟩)
  · simp only [List.mem_cons, List.not_mem_nil, or_false] at h
    rcases h with rfl | rfl | rfl | rfl <;> rfl
  · split at h <;> simp only [List.mem_cons, List.not_mem_nil, or_false] at h
    subst h
    rfl
  · simp only [List.mem_cons, List.not_mem_nil, or_false] at h
    rcases h with rfl | rfl | rfl <;> rfl
  · split at h <;> simp only [List.mem_cons, List.not_mem_nil, or_false] at h
    subst h
    rfl
  all_goals rfl

theorem outer_lvl {x : Thing} (h : x ∈ outer) : lvl x = 5 := by
  simp only [outer, List.mem_cons, List.not_mem_nil, or_false] at h
  rcases h with rfl | rfl | rfl <;> rfl

/-- An order of the things of a context, to see that none is there twice. -/
def rank : Thing → Nat
  | .settings _ => 1 | .root => 2 | .shortDir => 3 | .outDir => 4 | .atomFile _ => 5 | .mainTemplate => 6
  | .atomTemplate => 7 | .settingsFile => 8 | .entry => 9 | .post _ => 10 | .page _ => 11 | .copied _ => 12 | _ => 0

theorem nodup_append_rank {xs ys : List Thing} {n : Nat} (hx : xs.Nodup) (hy : ys.Nodup) (h1 : ∀ x ∈ xs, rank x ≤ n)
    (h2 : ∀ y ∈ ys, n < rank y) : (xs ++ ys).Nodup := by
  refine List.nodup_append.mpr ⟨hx, hy, ?_⟩
  rintro a ha b hb rfl
  have := h1 a ha
  have := h2 a hb
  omega

theorem rank_numbered {f : Nat → Thing} {r : Nat} (h : ∀ i, rank (f i) = r) {k n : Nat} : ∀ x ∈ numbered f k n,
    rank x = r := by
  intro x hx
  obtain ⟨i, _, _, rfl⟩ := mem_numbered.mp hx
  exact h i

theorem inner_nodup (g : Nat) (s : Shape) : (inner g s).Nodup := by
  have hpost : ∀ x ∈ numbered .post 0 s.posts, rank x = 10 := rank_numbered (f := .post) fun _ => rfl
  have hpage : ∀ x ∈ numbered .page 0 s.pages, rank x = 11 := rank_numbered (f := .page) fun _ => rfl
  have hcop : ∀ x ∈ numbered .copied 0 s.copies, rank x = 12 := rank_numbered (f := .copied) fun _ => rfl
  have h1 : ([.settings g, .root, .shortDir, .outDir] ++ (if s.ownAtom then [] else [.atomFile g])
      ++ [.mainTemplate, .atomTemplate, .settingsFile] ++ (if s.entry then [.entry] else [])
      : List Thing).Nodup ∧ ∀ x ∈ ([.settings g, .root, .shortDir, .outDir] ++ (if s.ownAtom then [] else [.atomFile g])
      ++ [.mainTemplate, .atomTemplate, .settingsFile] ++ (if s.entry then [.entry] else []) : List Thing),
      rank x ≤ 9 := by
    cases s.ownAtom <;> cases s.entry <;> simp [rank]
  unfold inner
  have p1 := nodup_append_rank (n := 9) h1.1 (nodup_numbered (fun a b e => Thing.post.inj e) 0 s.posts) h1.2
    (fun y hy => by have := hpost y hy; omega)
  have q1 : ∀ x ∈ ([.settings g, .root, .shortDir, .outDir] ++ (if s.ownAtom then [] else [.atomFile g])
      ++ [.mainTemplate, .atomTemplate, .settingsFile] ++ (if s.entry then [.entry] else [])
      ++ numbered .post 0 s.posts : List Thing), rank x ≤ 10 := by
    intro x hx
    rcases List.mem_append.mp hx with hx | hx
    · exact Nat.le_succ_of_le (h1.2 x hx)
    · exact Nat.le_of_eq (hpost x hx)
  have p2 := nodup_append_rank (n := 10) p1 (nodup_numbered (fun a b e => Thing.page.inj e) 0 s.pages) q1
    (fun y hy => by have := hpage y hy; omega)
  refine nodup_append_rank (n := 11) p2 (nodup_numbered (fun a b e => Thing.copied.inj e) 0 s.copies) ?_
    (fun y hy => by have := hcop y hy; omega)
  intro x hx
  rcases List.mem_append.mp hx with hx | hx
  · exact Nat.le_succ_of_le (q1 x hx)
  · exact Nat.le_of_eq (hpage x hx)

theorem freeInternal_ok {g : Nat} {s : Shape} {l : InUse} (hc : l .ctx = true)
    (h : ∀ x ∈ inner g s, l x = false) : inUse (freeInternal g s) (plus l (inner g s)) = some l := by
  -- the release of all, with two uses in between
  have hn := inner_nodup g s
  unfold freeInternal
  simp only [freeContexts_eq]
  have e1 : inner g s = [.settings g, .root, .shortDir, .outDir] ++ ((if s.ownAtom then [] else [.atomFile g])
      ++ ([.mainTemplate, .atomTemplate, .settingsFile] ++ (if s.entry then [.entry] else [])
        ++ numbered .post 0 s.posts ++ numbered .page 0 s.pages ++ numbered .copied 0 s.copies)) := by
    simp only [inner, List.append_assoc]
  generalize hrest : [.mainTemplate, .atomTemplate, .settingsFile] ++ (if s.entry then [.entry] else [])
    ++ numbered .post 0 s.posts ++ numbered .page 0 s.pages ++ numbered .copied 0 s.copies = rest at e1
  have hat : Thing.atomTemplate ∈ rest := by
    rw [← hrest]
    simp
  rw [e1] at hn h ⊢
  have h1 : inUse [.use .ctx, .release (.settings g), .release .root, .release .shortDir, .release .outDir]
      (plus l ([.settings g, .root, .shortDir, .outDir] ++ ((if s.ownAtom then [] else [.atomFile g]) ++ rest)))
      = some (plus l ((if s.ownAtom then [] else [.atomFile g]) ++ rest)) := by
    rw [do_use (.inl hc)]
    exact releases_ok [.settings g, .root, .shortDir, .outDir] hn fun x hx => h x (List.mem_append_left _ hx)
  have hn2 := (List.nodup_append.mp hn).2.1
  have h2 : inUse (if s.ownAtom then [] else [.use .atomTemplate, .release (.atomFile g)])
      (plus l ((if s.ownAtom then [] else [.atomFile g]) ++ rest)) = some (plus l rest) := by
    cases ho : s.ownAtom with
    | true => simp [inUse_nil]
    | false =>
      rw [ho] at hn2 h
      simp only [Bool.false_eq_true, if_false] at hn2 h ⊢
      rw [do_use (.inr (List.mem_append_right _ hat))]
      exact releases_ok [.atomFile g] hn2 fun x hx => h x (List.mem_append_right _ (List.mem_append_left _ hx))
  have hn3 := (List.nodup_append.mp hn2).2.1
  have h3 := releases_all (l := l) hn3 fun x hx => h x (List.mem_append_right _ (List.mem_append_right _ hx))
  have e2 : rest.map Event.release = [.release .mainTemplate, .release .atomTemplate, .release .settingsFile]
      ++ (if s.entry then [.release .entry] else []) ++ (numbered .post 0 s.posts).map .release
      ++ (numbered .page 0 s.pages).map .release ++ (numbered .copied 0 s.copies).map .release := by
    rw [← hrest]
    cases s.entry <;> simp
  rw [e2] at h3
  have := then_ok (then_ok h1 h2) h3
  simpa only [List.append_assoc] using this

theorem freeCtx_ok {g : Nat} {s : Shape} {l : InUse} (h : ∀ x ∈ outer ++ inner g s, l x = false) :
    inUse (freeCtx g s) (plus l (outer ++ inner g s)) = some l := by
  rw [← plus_plus]
  refine then_ok (freeInternal_ok (plus_true.mpr (.inr (by simp [outer]))) ?_) ?_
  · intro x hx
    refine plus_false.mpr ⟨h x (List.mem_append_right _ hx), fun ho => ?_⟩
    have := outer_lvl ho
    have := inner_lvl hx
    omega
  · have h1 := h .ctx (by simp [outer])
    have h2 := h .blogc (by simp [outer])
    have h3 := h .runserver (by simp [outer])
    simp [outer, do_release, h1, h2, h3, inUse_nil, plus_nil]

/-- What is in use before the context is filled. -/
def started (g : Nat) (s : Shape) : List Thing :=
  [.absName, .settings g, .atomName] ++ if s.ownAtom then [] else [.atomFile g]

theorem fillCtx_ok {g : Nat} {s : Shape} {l : InUse} (hb : ∀ x, lvl x < 5 → lvl x ≠ 3 → l x = false)
    (hc : l .ctx = true) :
    inUse (fillCtx g s) (plus l (started g s)) = some (plus l (inner g s)) := by
  have h0 (x : Thing) (hx : lvl x < 5) (h3 : lvl x ≠ 3 := by decide) : l x = false := hb x hx h3
  have h1 := h0 .absName (by decide)
  have h2 := h0 .settingsFile (by decide)
  have h3 := h0 .root (by decide)
  have h4 := h0 .shortDir (by decide)
  have h5 := h0 .outDir (by decide)
  have h6 := h0 .name (by decide)
  have h7 := h0 .mainTemplate (by decide)
  have h8 := h0 .atomTemplate (by decide)
  have h9 := h0 .atomName (by decide)
  have h10 := h0 .entry (by decide)
  have hA : inUse ([.use .ctx, .use .absName, .acquire .settingsFile, .acquire .root, .release .absName,
      .acquire .shortDir, .use .root, .acquire .outDir,
      .use (.settings g), .acquire .name, .acquire .mainTemplate, .release .name,
      .use .atomName, .acquire .atomTemplate, .release .atomName]
      ++ (if s.entry then [.acquire .name, .acquire .entry, .release .name] else [])) (plus l (started g s))
      = some (plus l ([.settings g, .root, .shortDir, .outDir] ++ (if s.ownAtom then [] else [.atomFile g])
      ++ [.mainTemplate, .atomTemplate, .settingsFile] ++ (if s.entry then [.entry] else []))) := by
    have hh : ∀ xs ys : List Thing, (∀ x, x ∈ xs ↔ x ∈ ys) → some (plus l xs) = some (plus l ys) :=
      fun xs ys h => congrArg some (plus_congr h)
    cases ho : s.ownAtom <;> cases he : s.entry <;>
      simp only [started, ho, he, if_true, if_false, Bool.false_eq_true, List.append_nil, List.nil_append,
        List.cons_append] <;>
      simp [do_use, do_acquire, do_release, h1, h2, h3, h4, h5, h6, h7, h8, h9, h10, hc, inUse_nil] <;>
      (refine plus_congr fun x => ?_) <;>
      simp <;> grind
  generalize hxs : ([.settings g, .root, .shortDir, .outDir] ++ (if s.ownAtom then [] else [.atomFile g])
      ++ [.mainTemplate, .atomTemplate, .settingsFile] ++ (if s.entry then [.entry] else []) : List Thing) = xs at hA
  have hfree (x : Thing) (hx : lvl x < 5 ∧ lvl x ≠ 3) (hr : rank x = 0 ∨ 10 ≤ rank x) : plus l xs x = false := by
    refine plus_false.mpr ⟨h0 x hx.1 hx.2, fun hm => ?_⟩
    rw [← hxs] at hm
    have hall : ∀ y ∈ ([.settings g, .root, .shortDir, .outDir] ++ (if s.ownAtom then [] else [.atomFile g])
        ++ [.mainTemplate, .atomTemplate, .settingsFile] ++ (if s.entry then [.entry] else []) : List Thing),
        1 ≤ rank y ∧ rank y ≤ 9 := by
      cases s.ownAtom <;> cases s.entry <;> simp [rank]
    have := hall x hm
    omega
  have hB : inUse (makeContexts .post 0 s.posts) (plus l xs) = some (plus (plus l xs) (numbered .post 0 s.posts)) :=
    makeContexts_ok (fun a b e => Thing.post.inj e) (by simp) (hfree _ (by decide) (.inl rfl)) _ _
      fun i _ => hfree _ (by simp [lvl]) (.inr (by simp [rank]))
  have hnm (f : Nat → Thing) (n : Nat) (x : Thing) (hx : ∀ i, x ≠ f i) : x ∉ numbered f 0 n := by
    intro hm
    obtain ⟨i, _, _, e⟩ := mem_numbered.mp hm
    exact hx i e.symm
  have hC : inUse (makeContexts .page 0 s.pages) (plus (plus l xs) (numbered .post 0 s.posts))
      = some (plus (plus (plus l xs) (numbered .post 0 s.posts)) (numbered .page 0 s.pages)) := by
    refine makeContexts_ok (fun a b e => Thing.page.inj e) (by simp) ?_ _ _ ?_
    · exact plus_false.mpr ⟨hfree _ (by decide) (.inl rfl), hnm _ _ _ (by simp)⟩
    · intro i _
      exact plus_false.mpr ⟨hfree _ (by simp [lvl]) (.inr (by simp [rank])), hnm _ _ _ (by simp)⟩
  have hf2 (x : Thing) (hx : lvl x < 5 ∧ lvl x ≠ 3) (hr : rank x = 0 ∨ 12 ≤ rank x) :
      plus (plus (plus l xs) (numbered .post 0 s.posts)) (numbered .page 0 s.pages) x = false := by
    refine plus_false.mpr ⟨plus_false.mpr ⟨hfree x hx (by omega), hnm _ _ _ fun i e => ?_⟩, hnm _ _ _ fun i e => ?_⟩ <;>
    · rw [e] at hr
      simp [rank] at hr
  have hroot : Thing.root ∈ xs := by
    rw [← hxs]
    simp
  have hD : inUse (copyContexts 0 s.copy) (plus (plus (plus l xs) (numbered .post 0 s.posts)) (numbered .page 0 s.pages))
      = some (plus (plus (plus (plus l xs) (numbered .post 0 s.posts)) (numbered .page 0 s.pages))
        (numbered .copied 0 s.copies)) := by
    refine copyContexts_ok s.copy ⟨?_, ?_, ?_, ?_, ?_⟩
    · exact plus_true.mpr (.inl (plus_true.mpr (.inl (plus_true.mpr (.inr hroot)))))
    · exact fun i _ => hf2 _ (by simp [lvl]) (.inl rfl)
    · exact fun i _ => hf2 _ (by simp [lvl]) (.inl rfl)
    · exact fun i _ => hf2 _ (by simp [lvl]) (.inl rfl)
    · exact fun i _ => hf2 _ (by simp [lvl]) (.inr (by simp [rank]))
  have := then_ok (then_ok (then_ok hA hB) hC) hD
  rw [plus_plus, plus_plus, plus_plus, ← hxs] at this
  simpa only [fillCtx, inner, List.append_assoc] using this

end Blogc.MakeMem
