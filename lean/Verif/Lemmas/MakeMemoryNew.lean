import Verif.Lemmas.MakeMemoryContext

/-!
# Lemmas about making a context of blogc-make
-/

namespace Blogc.MakeMem

open Blogc Blogc.Spec.MakeAccount

/-- Where the errors of `bm_ctx_new` go. -/
def IsErr (e : Thing) : Prop := e = .err ∨ e = .reloadErr

/-- What `bm_ctx_new` needs not to be in use. -/
structure NewReady (e : Thing) (g : Nat) (l : InUse) : Prop where
  isErr : IsErr e
  below : Below 3 l
  err : l e = false
  settings : l (.settings g) = false
  atomFile : l (.atomFile g) = false

theorem brief_if {b : Bool} {x : Thing} {l : InUse} (h : l x = false) : Neutral (if b then brief x else []) l := by
  cases b with
  | true => exact neutral_brief h
  | false => rfl

/-- The settings are read. -/
theorem parse_ok {g : Nat} {l : InUse} (hb : Below 3 l) (hs : l (.settings g) = false) (keys : Bool) :
    inUse ([.acquire .absName, .use .absName, .acquire .content] ++ parseGood g keys ++ [.release .content]) l
      = some (plus l [.settings g, .absName]) := by
  have h1 := hb .absName (by decide)
  have h2 := hb .content (by decide)
  have h3 := hb .config (by decide)
  have h4 := hb .keys (by decide)
  have e : inUse ([.acquire .absName, .use .absName, .acquire .content] ++ parseGood g keys ++ [.release .content])
      (plus l []) = some (plus l [.settings g, .absName]) := by
    cases keys <;>
      simp [parseGood, brief, do_acquire, do_use, do_release, h1, h2, h3, h4, hs, inUse_nil]
  rwa [plus_nil] at e

theorem atomFails_ok {e : Thing} {g : Nat} {l : InUse} (h : NewReady e g l) (how : AtomFail) :
    inUse (atomFails e g how ++ [.release .absName, .release (.settings g)]) (plus l [.settings g, .absName])
      = some (plus l [e]) := by
  have h1 := h.below .absName (by decide)
  have h2 := h.below .fd (by decide)
  have h3 := h.below .feedUrl (by decide)
  have h4 := h.below .postUrl (by decide)
  have h5 := h.below .atomText (by decide)
  have h6 := h.settings
  have h7 := h.atomFile
  have h8 := h.err
  rcases h.isErr with rfl | rfl <;> cases how <;>
    simp [atomFails, atomGenerate, do_acquire, do_use, do_release, h1, h2, h3, h4, h5, h6, h7, h8, inUse_nil]

theorem atomName_ok {g : Nat} {l : InUse} (hb : Below 3 l) (hs : l (.settings g) = false)
    (ha : l (.atomFile g) = false) (s : Shape) :
    inUse (atomTemplateName g s.ownAtom) (plus l [.settings g, .absName]) = some (plus l (started g s)) := by
  have h1 := hb .absName (by decide)
  have h2 := hb .fd (by decide)
  have h3 := hb .feedUrl (by decide)
  have h4 := hb .postUrl (by decide)
  have h5 := hb .atomText (by decide)
  have h6 := hb .atomName (by decide)
  unfold started
  cases s.ownAtom <;>
    simp [atomTemplateName, atomDeploy, atomGenerate, do_acquire, do_use, do_release, h1, h2, h3, h4, h5, h6, hs, ha,
      inUse_nil] <;>
    (refine plus_congr fun x => ?_) <;> simp <;> grind

/-- When `bm_ctx_new` fails, its error is new and nothing else. -/
theorem ctxNew_fails {e : Thing} {g : Nat} {l : InUse} (h : NewReady e g l) (f1 f2 : Find)
    (base : Option (Nat × Shape)) {load : Load} (hl : load.shape = none) :
    inUse (ctxNew e g f1 f2 base load) l = some (plus l [e]) := by
  have h1 := h.below .absName (by decide)
  have h2 := h.below .content (by decide)
  have h3 := h.below .config (by decide)
  have h4 := h.below .keys (by decide)
  have h6 := h.settings
  have h8 := h.err
  have he : ∀ ev o, inUse ev (plus l []) = o → inUse ev l = o := fun ev o h => by rwa [plus_nil] at h
  cases load with
  | noPath =>
    refine he _ _ ?_
    rcases h.isErr with rfl | rfl <;> simp [ctxNew, do_acquire, h8, inUse_nil]
  | unread =>
    refine he _ _ ?_
    rcases h.isErr with rfl | rfl <;> simp [ctxNew, do_acquire, do_use, do_release, h1, h8, inUse_nil]
  | badConfig =>
    refine he _ _ ?_
    rcases h.isErr with rfl | rfl <;> simp [ctxNew, do_acquire, do_use, do_release, h1, h2, h8, inUse_nil]
  | badKey =>
    refine he _ _ ?_
    rcases h.isErr with rfl | rfl <;>
      simp [ctxNew, do_acquire, do_use, do_release, h1, h2, h3, h4, h6, h8, inUse_nil]
  | missing keys =>
    refine he _ _ ?_
    rcases h.isErr with rfl | rfl <;> cases keys <;>
      simp [ctxNew, brief, do_acquire, do_use, do_release, h1, h2, h3, h4, h6, h8, inUse_nil]
  | noAtom keys how =>
    have := then_ok (parse_ok h.below h.settings keys) (atomFails_ok h how)
    simpa [ctxNew] using this
  | good keys s => simp [Load.shape] at hl

theorem findBinary_ok {x : Thing} {l : InUse} (hx : l x = false) (hl : lvl x = 5) (h1 : l .binPath = false)
    (h2 : l .binDir = false) (h3 : l .binName = false) (f : Find) : inUse (findBinary x f) l = some (plus l [x]) := by
  have n1 : x ≠ .binPath := fun e => by simp [e, lvl] at hl
  have n2 : x ≠ .binDir := fun e => by simp [e, lvl] at hl
  have n3 : x ≠ .binName := fun e => by simp [e, lvl] at hl
  have e : inUse (findBinary x f) (plus l []) = some (plus l [x]) := by
    obtain ⟨b, fd⟩ := f
    cases b <;> cases fd <;>
      simp [findBinary, do_acquire, do_use, do_release, hx, h1, h2, h3, n1, n1.symm, n2, n2.symm, n3, n3.symm, inUse_nil]
  rwa [plus_nil] at e

/-- The first context. -/
theorem ctxNew_first {g : Nat} {l : InUse} (hb : Below 6 l) (f1 f2 : Find) (keys : Bool) (s : Shape) (e : Thing) :
    inUse (ctxNew e g f1 f2 none (.good keys s)) l = some (plus l (outer ++ inner g s)) := by
  have hA := then_ok (parse_ok (hb.mono (by decide)) (hb (.settings g) (by simp [lvl])) keys)
    (atomName_ok (hb.mono (by decide)) (hb (.settings g) (by simp [lvl])) (hb (.atomFile g) (by simp [lvl])) s)
  have hst : ∀ x ∈ started g s, lvl x = 2 ∨ lvl x = 4 := by
    unfold started
    cases s.ownAtom <;> simp [lvl]
  have hnb (x : Thing) (h5 : lvl x = 5 ∨ x = .binPath ∨ x = .binDir ∨ x = .binName) : x ∉ started g s := by
    unfold started
    cases s.ownAtom <;> simp <;> (repeat' constructor) <;> rintro rfl <;> simp [lvl] at h5
  have hf (x : Thing) (hx : lvl x < 6) (h5 : lvl x = 5 ∨ x = .binPath ∨ x = .binDir ∨ x = .binName) (ys : List Thing)
      (hy : x ∉ ys) : plus l (started g s ++ ys) x = false :=
    plus_false.mpr ⟨hb x hx, fun hm => (List.mem_append.mp hm).elim (hnb x h5) hy⟩
  have hB : inUse (freshOrBase f1 f2 none) (plus l (started g s)) = some (plus l (started g s ++ outer)) := by
    have b1 : inUse [.acquire .ctx] (plus l (started g s)) = some (plus l (started g s ++ [.ctx])) := by
      rw [do_acquire (hb _ (by decide)) (hnb _ (.inl rfl)), inUse_nil]
      exact congrArg some (plus_congr fun x => by simp; grind)
    have b2 : inUse (findBinary .blogc f1) (plus l (started g s ++ [.ctx]))
        = some (plus l (started g s ++ [.ctx, .blogc])) := by
      rw [findBinary_ok (hf _ (by decide) (.inl rfl) _ (by simp)) rfl (hf _ (by decide) (by simp) _ (by simp))
        (hf _ (by decide) (by simp) _ (by simp)) (hf _ (by decide) (by simp) _ (by simp)), plus_plus]
      simp
    have b3 : inUse (findBinary .runserver f2) (plus l (started g s ++ [.ctx, .blogc]))
        = some (plus l (started g s ++ outer)) := by
      rw [findBinary_ok (hf _ (by decide) (.inl rfl) _ (by simp)) rfl (hf _ (by decide) (by simp) _ (by simp))
        (hf _ (by decide) (by simp) _ (by simp)) (hf _ (by decide) (by simp) _ (by simp)), plus_plus]
      simp [outer]
    exact then_ok (then_ok b1 b2) b3
  have hC : inUse (fillCtx g s) (plus l (started g s ++ outer)) = some (plus l (outer ++ inner g s)) := by
    have e : plus l (started g s ++ outer) = plus (plus l outer) (started g s) := by
      rw [plus_plus]
      exact plus_congr fun x => by simp [or_comm]
    rw [e, ← plus_plus]
    refine fillCtx_ok ?_ (plus_true.mpr (.inr (by simp [outer])))
    exact fun x hx _ => ((hb.mono (by decide)).plus fun x hx => by have := outer_lvl hx; omega : Below 5 _) x hx
  have := then_ok (then_ok hA hB) hC
  simpa only [ctxNew, List.append_assoc, List.cons_append, List.nil_append] using this

/-- The context is made anew. -/
theorem ctxNew_again {g0 g : Nat} {l : InUse} (hb : Below 3 l) (hi : ∀ x, lvl x = 4 → l x = false) (hne : g ≠ g0)
    (hc : l .ctx = true) (f1 f2 : Find) (keys : Bool) (s0 s : Shape) (e : Thing) :
    inUse (ctxNew e g f1 f2 (some (g0, s0)) (.good keys s)) (plus l (inner g0 s0)) = some (plus l (inner g s)) := by
  have hin (x : Thing) (h4 : lvl x = 4) (hx : ∀ y ∈ inner g0 s0, y ≠ x) : plus l (inner g0 s0) x = false :=
    plus_false.mpr ⟨hi x h4, fun hm => hx x hm rfl⟩
  have hs0 : ∀ y ∈ inner g0 s0, y ≠ .settings g := by
    intro y hy e
    subst e
    simp only [inner, List.mem_append, mem_numbered] at hy
    revert hy
    cases s0.ownAtom <;> cases s0.entry <;> simp [hne]
  have ha0 : ∀ y ∈ inner g0 s0, y ≠ .atomFile g := by
    intro y hy e
    subst e
    simp only [inner, List.mem_append, mem_numbered] at hy
    revert hy
    cases s0.ownAtom <;> cases s0.entry <;> simp [hne]
  have hb' : Below 3 (plus l (inner g0 s0)) := hb.plus fun x hx => by have := inner_lvl hx; omega
  have hA := then_ok (parse_ok hb' (hin _ rfl hs0) keys) (atomName_ok hb' (hin _ rfl hs0) (hin _ rfl ha0) s)
  have hst : ∀ x ∈ started g s, x ∉ inner g0 s0 := by
    intro x hx hm
    have h1 : x = .absName ∨ x = .settings g ∨ x = .atomName ∨ x = .atomFile g := by
      revert hx
      unfold started
      cases s.ownAtom <;> simp <;> grind
    rcases h1 with rfl | rfl | rfl | rfl
    · have := inner_lvl hm
      simp [lvl] at this
    · exact hs0 _ hm rfl
    · have := inner_lvl hm
      simp [lvl] at this
    · exact ha0 _ hm rfl
  have hB : inUse (freeInternal g0 s0) (plus (plus l (inner g0 s0)) (started g s)) = some (plus l (started g s)) := by
    have e : plus (plus l (inner g0 s0)) (started g s) = plus (plus l (started g s)) (inner g0 s0) := by
      rw [plus_plus, plus_plus]
      exact plus_congr fun x => by simp [or_comm]
    rw [e]
    refine freeInternal_ok (plus_true.mpr (.inl hc)) fun x hx => ?_
    exact plus_false.mpr ⟨hi x (inner_lvl hx), fun hm => hst x hm hx⟩
  have hC : inUse (fillCtx g s) (plus l (started g s)) = some (plus l (inner g s)) := by
    refine fillCtx_ok (fun x h5 h3 => ?_) hc
    by_cases h4 : lvl x = 4
    · exact hi x h4
    · exact hb x (by omega)
  have := then_ok (then_ok hA hB) hC
  simpa only [ctxNew, freshOrBase, List.append_assoc, List.cons_append, List.nil_append] using this

end Blogc.MakeMem
