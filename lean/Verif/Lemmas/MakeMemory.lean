import Verif.Spec.MakeAccount

/-!
# Lemmas about what blogc-make has in use
-/

namespace Blogc.MakeMem

open Blogc Blogc.Spec.MakeAccount

theorem inUse_append (a b : List Event) (l : InUse) : inUse (a ++ b) l = (inUse a l).bind (inUse b) := by
  induction a generalizing l with
  | nil => rfl
  | cons e a ih =>
    show (account l e).bind (inUse (a ++ b)) = ((account l e).bind (inUse a)).bind (inUse b)
    cases account l e with
    | none => rfl
    | some l' => exact ih l'

theorem inUse_nil (l : InUse) : inUse [] l = some l := rfl

/-- First some events, then others. -/
theorem then_ok {a b : List Event} {l l' : InUse} {o : Option InUse} (ha : inUse a l = some l') (hb : inUse b l' = o) :
    inUse (a ++ b) l = o := by
  rw [inUse_append, ha]
  exact hb

/-- What is in use with some things more. -/
def plus (l : InUse) (xs : List Thing) : InUse := fun x => l x || decide (x ∈ xs)

theorem plus_congr {l : InUse} {xs ys : List Thing} (h : ∀ x, x ∈ xs ↔ x ∈ ys) : plus l xs = plus l ys := by
  funext x
  simp only [plus, h]

theorem plus_plus (l : InUse) (xs ys : List Thing) : plus (plus l xs) ys = plus l (xs ++ ys) := by
  funext x
  simp only [plus, List.mem_append, Bool.decide_or, Bool.or_assoc]

theorem plus_nil (l : InUse) : plus l [] = l := by
  funext x
  simp [plus]

theorem plus_false {l : InUse} {xs : List Thing} {x : Thing} : plus l xs x = false ↔ l x = false ∧ x ∉ xs := by
  simp [plus]

theorem plus_true {l : InUse} {xs : List Thing} {x : Thing} : plus l xs x = true ↔ l x = true ∨ x ∈ xs := by
  simp [plus]

/-- The thing is not in use, and not among the new ones. -/
theorem do_acquire {l : InUse} {xs : List Thing} {x : Thing} (h : l x = false) (hx : x ∉ xs) (r : List Event) :
    inUse (.acquire x :: r) (plus l xs) = inUse r (plus l (x :: xs)) := by
  have e : mark (plus l xs) x true = plus l (x :: xs) := by
    funext y
    unfold mark plus
    by_cases hy : y = x <;> simp [hy]
  simp only [inUse, account, plus, h, hx, decide_false, Bool.or_self, Bool.false_eq_true, if_false, Option.bind_some]
  exact congrArg (inUse r) e

theorem mark_false {l : InUse} {xs : List Thing} {x : Thing} (h : l x = false) :
    mark (plus l xs) x false = plus l (xs.filter (· ≠ x)) := by
  funext y
  unfold mark plus
  by_cases hy : y = x <;> simp [hy, h]

theorem do_release {l : InUse} {xs : List Thing} {x : Thing} (h : l x = false) (hx : x ∈ xs) (r : List Event) :
    inUse (.release x :: r) (plus l xs) = inUse r (plus l (xs.filter (· ≠ x))) := by
  simp only [inUse, account, plus, hx, decide_true, Bool.or_true, if_true, Option.bind_some]
  exact congrArg (inUse r) (mark_false h)

theorem do_use {l : InUse} {xs : List Thing} {x : Thing} (h : l x = true ∨ x ∈ xs) (r : List Event) :
    inUse (.use x :: r) (plus l xs) = inUse r (plus l xs) := by
  have e : plus l xs x = true := plus_true.mpr h
  simp only [inUse, account, e, if_true, Option.bind_some]

/-- The same things are in use afterwards. -/
def Neutral (ev : List Event) (l : InUse) : Prop := inUse ev l = some l

theorem neutral_nil (l : InUse) : Neutral [] l := rfl

theorem neutral_append {a b : List Event} {l : InUse} (ha : Neutral a l) (hb : Neutral b l) : Neutral (a ++ b) l :=
  then_ok ha hb

theorem neutral_use {x : Thing} {l : InUse} {r : List Event} (hx : l x = true) (hr : Neutral r l) :
    Neutral (.use x :: r) l := by
  simp only [Neutral, inUse, account, hx, if_true, Option.bind_some]
  exact hr

theorem neutral_uses {xs : List Thing} {l : InUse} (h : ∀ x ∈ xs, l x = true) : Neutral (xs.map .use) l := by
  induction xs with
  | nil => rfl
  | cons x xs ih =>
    exact neutral_use (h x List.mem_cons_self) (ih fun y hy => h y (List.mem_cons_of_mem _ hy))

theorem neutral_repeated {ev : List Event} {l : InUse} (h : Neutral ev l) (n : Nat) : Neutral (repeated n ev) l := by
  induction n with
  | zero => rfl
  | succ n ih =>
    unfold repeated at ih ⊢
    rw [List.replicate_succ, List.flatten_cons]
    exact neutral_append h ih

theorem neutral_flatMap {α : Type} {xs : List α} {f : α → List Event} {l : InUse} (h : ∀ x ∈ xs, Neutral (f x) l) :
    Neutral (xs.flatMap f) l := by
  induction xs with
  | nil => rfl
  | cons x xs ih =>
    rw [List.flatMap_cons]
    exact neutral_append (h x List.mem_cons_self) (ih fun y hy => h y (List.mem_cons_of_mem _ hy))

/-- Something is taken, and given back after what leaves all as it is. -/
theorem neutral_around {x : Thing} {ev : List Event} {l : InUse} (hx : l x = false) (h : Neutral ev (plus l [x])) :
    Neutral (.acquire x :: ev ++ [.release x]) l := by
  have e : inUse (.acquire x :: ev ++ [.release x]) (plus l []) = some (plus l []) := by
    rw [List.cons_append, do_acquire hx (by simp)]
    refine then_ok h ?_
    rw [do_release hx (by simp)]
    simp [inUse_nil]
  rw [plus_nil] at e
  exact e

theorem neutral_brief {x : Thing} {l : InUse} (hx : l x = false) : Neutral (brief x) l :=
  neutral_around (ev := [.use x]) hx (neutral_use (plus_true.mpr (.inr (by simp))) rfl)

/-- Things are given back. -/
theorem releases_ok {l : InUse} (xs : List Thing) {ys : List Thing} (hn : (xs ++ ys).Nodup)
    (h : ∀ x ∈ xs, l x = false) : inUse (xs.map .release) (plus l (xs ++ ys)) = some (plus l ys) := by
  induction xs with
  | nil => rfl
  | cons x xs ih =>
    rw [List.cons_append, List.nodup_cons] at hn
    rw [List.map_cons, do_release (h x List.mem_cons_self) (by simp)]
    have e : plus l (List.filter (fun y => decide (y ≠ x)) (x :: xs ++ ys)) = plus l (xs ++ ys) := by
      refine plus_congr fun y => ?_
      simp only [List.mem_filter, List.cons_append, List.mem_cons, decide_eq_true_eq]
      constructor
      · rintro ⟨rfl | hy, hne⟩
        · exact absurd rfl hne
        · exact hy
      · intro hy
        refine ⟨.inr hy, ?_⟩
        rintro rfl
        exact hn.1 hy
    rw [e]
    exact ih hn.2 fun y hy => h y (List.mem_cons_of_mem _ hy)

theorem releases_all {l : InUse} {xs : List Thing} (hn : xs.Nodup) (h : ∀ x ∈ xs, l x = false) :
    inUse (xs.map .release) (plus l xs) = some l := by
  have := releases_ok xs (ys := []) (by simpa using hn) h
  rwa [List.append_nil, plus_nil] at this

/-- How deep a thing is made: nothing of a smaller level is in use when it is. -/
def lvl : Thing → Nat
  | .need | .string | .quoted | .tags | .cmd | .input | .text | .cmdOut | .cmdErr | .cmdError | .fname | .fdFrom | .fdTo
  | .dirHandle | .upShort | .upDir | .upTmp | .rmErr => 0
  | .outNode _ | .out _ | .fileNode _ | .variables | .local | .lastPage | .pageNo | .name => 1
  | .absName | .content | .config | .keys | .atomName | .fd | .atomText | .feedUrl | .postUrl | .binPath | .binDir
  | .binName | .walkPath _ | .walkDir _ | .walkName _ => 2
  | .reloadName | .reloadErr | .argKey => 3
  | .settings _ | .atomFile _ | .root | .shortDir | .outDir | .mainTemplate | .atomTemplate | .settingsFile | .entry
  | .post _ | .page _ | .copied _ => 4
  | .ctx | .blogc | .runserver => 5
  | .rule _ | .blogcfile _ | .err | .args _ => 6

/-- Nothing below a level is in use. -/
def Below (n : Nat) (l : InUse) : Prop := ∀ x, lvl x < n → l x = false

theorem Below.mono {n m : Nat} {l : InUse} (h : Below n l) (hm : m ≤ n) : Below m l := fun x hx => h x (by omega)

theorem Below.plus {n : Nat} {l : InUse} (h : Below n l) {xs : List Thing} (hx : ∀ x ∈ xs, n ≤ lvl x) :
    Below n (plus l xs) := by
  intro x hl
  rw [plus_false]
  exact ⟨h x hl, fun hm => by have := hx x hm; omega⟩

/-! ## Commands -/

theorem buildCmd_ok {c : Cmd} {l : InUse} (h : Below 1 l) (hs : l (.settings c.g) = true) (hb : l .blogc = true)
    (hp : ∀ p ∈ c.paths, l p = true) :
    inUse (buildCmd c) (plus l [.input]) = some (plus l [.cmd, .input]) := by
  have h0 (x : Thing) (hx : lvl x = 0) : l x = false := h x (by omega)
  have n1 (x : Thing) (hx : lvl x = 0) (h1 : x ≠ .string) (h2 : x ≠ .input) : plus l [.string, .input] x = false := by
    rw [plus_false]
    exact ⟨h0 x hx, by simp [h1, h2]⟩
  have hq : Neutral (brief .quoted) (plus l [.string, .input]) := neutral_brief (n1 _ rfl (by simp) (by simp))
  have ht : Neutral (brief .tags) (plus l [.string, .input]) := neutral_brief (n1 _ rfl (by simp) (by simp))
  have hmid : Neutral ((if c.locale then brief .quoted else []) ++ [.use .blogc] ++ (if c.tags then brief .tags else [])
      ++ repeated c.vars (brief .quoted) ++ c.paths.flatMap (fun p => .use p :: brief .quoted))
      (plus l [.string, .input]) := by
    refine neutral_append (neutral_append (neutral_append (neutral_append ?_ ?_) ?_) ?_) ?_
    · split
      · exact hq
      · rfl
    · exact neutral_use (plus_true.mpr (.inl hb)) rfl
    · split
      · exact ht
      · rfl
    · exact neutral_repeated hq _
    · exact neutral_flatMap fun p hpp => neutral_use (plus_true.mpr (.inl (hp p hpp))) hq
  have e : buildCmd c = [.acquire .string, .use (.settings c.g)] ++ (((if c.locale then brief .quoted else [])
      ++ [.use .blogc] ++ (if c.tags then brief .tags else [])
      ++ repeated c.vars (brief .quoted) ++ c.paths.flatMap (fun p => .use p :: brief .quoted))
      ++ turn .string .cmd) := by
    simp only [buildCmd, List.append_assoc]
  rw [e]
  refine then_ok (l' := plus l [.string, .input]) ?_ (then_ok hmid ?_)
  · rw [do_acquire (h0 _ rfl) (by simp), do_use (.inl hs), inUse_nil]
  · rw [turn, do_release (h0 _ rfl) (by simp), do_acquire (h0 _ rfl) (by simp), inUse_nil]
    simp

theorem input_ok {l : InUse} {sources : List Thing} (h : l .input = false) (hs : ∀ x ∈ sources, l x = true) :
    inUse (inputEvents sources) l = some (plus l [.input]) := by
  have e : inUse (inputEvents sources) (plus l []) = some (plus l [.input]) := by
    rw [inputEvents, do_acquire h (by simp)]
    exact neutral_uses fun x hx => plus_true.mpr (.inl (hs x hx))
  rwa [plus_nil] at e

/-- What `bm_exec_blogc` needs to be in use. -/
structure CmdReady (c : Cmd) (sources : List Thing) (l : InUse) : Prop where
  below : Below 1 l
  ctx : l .ctx = true
  settings : l (.settings c.g) = true
  blogc : l .blogc = true
  paths : ∀ p ∈ c.paths, l p = true
  sources : ∀ x ∈ sources, l x = true

theorem cmd_ready {c : Cmd} {sources : List Thing} {l : InUse} (h : CmdReady c sources l) :
    inUse ([.use .ctx] ++ inputEvents sources ++ buildCmd c) l = some (plus l [.cmd, .input]) :=
  then_ok (then_ok (neutral_use h.ctx rfl) (input_ok (h.below _ (by decide)) h.sources))
    (buildCmd_ok h.below h.settings h.blogc h.paths)

theorem execBlogc_ok {c : Cmd} {sources : List Thing} {l : InUse} (h : CmdReady c sources l) (r : Ran) :
    Neutral (execBlogc c sources r) l := by
  have h0 (x : Thing) (hx : lvl x = 0) : l x = false := h.below x (by omega)
  have h1 := h0 .text rfl
  have h2 := h0 .cmdOut rfl
  have h3 := h0 .cmdErr rfl
  have h4 := h0 .cmdError rfl
  have h5 := h0 .cmd rfl
  have h6 := h0 .input rfl
  unfold execBlogc
  rw [List.append_assoc]
  refine then_ok (cmd_ready h) ?_
  cases r with
  | noStart =>
    simp [commandEvents, readEvents, Ran.failed, Ran.hasOut, Ran.hasErr, freeIf, do_use, do_acquire, do_release, h4, h5,
      h6, inUse_nil, plus_nil]
  | outBroken s =>
    cases s <;> simp [commandEvents, readEvents, Ran.failed, Ran.hasOut, Ran.hasErr, freeIf, do_use, do_acquire,
      do_release, h1, h4, h5, h6, inUse_nil, plus_nil]
  | errBroken o s =>
    cases o <;> cases s <;> simp [commandEvents, readEvents, readAll, turn, Ran.failed, Ran.hasOut, Ran.hasErr, freeIf,
      do_use, do_acquire, do_release, h1, h2, h4, h5, h6, inUse_nil, plus_nil]
  | ended o e st =>
    cases o <;> cases e <;> simp [commandEvents, readEvents, readAll, turn, Ran.failed, Ran.hasOut, Ran.hasErr, freeIf,
      do_use, do_acquire, do_release, h1, h2, h3, h5, h6, inUse_nil, plus_nil]

theorem getVariable_ok {c : Cmd} {sources : List Thing} {l : InUse} (h : CmdReady c sources l)
    (hl : l .lastPage = false) (r : Ran) :
    inUse (getVariable c sources r) l = some (if r.value then plus l [.lastPage] else l) := by
  have h0 (x : Thing) (hx : lvl x = 0) : l x = false := h.below x (by omega)
  have h1 := h0 .text rfl
  have h2 := h0 .cmdOut rfl
  have h3 := h0 .cmdErr rfl
  have h4 := h0 .cmdError rfl
  have h5 := h0 .cmd rfl
  have h6 := h0 .input rfl
  unfold getVariable
  rw [List.append_assoc]
  refine then_ok (cmd_ready h) ?_
  cases r with
  | noStart =>
    simp [commandEvents, readEvents, Ran.failed, Ran.value, Ran.hasOut, Ran.hasErr, freeIf, do_use, do_acquire,
      do_release, h4, h5, h6, inUse_nil, plus_nil]
  | outBroken s =>
    cases s <;> simp [commandEvents, readEvents, Ran.failed, Ran.value, Ran.hasOut, Ran.hasErr, freeIf, do_use,
      do_acquire, do_release, h1, h4, h5, h6, inUse_nil, plus_nil]
  | errBroken o s =>
    cases o <;> cases s <;> simp [commandEvents, readEvents, readAll, turn, Ran.failed, Ran.value, Ran.hasOut,
      Ran.hasErr, freeIf, do_use, do_acquire, do_release, h1, h2, h4, h5, h6, inUse_nil, plus_nil]
  | ended o e st =>
    by_cases hst : st = 0 <;>
    cases o <;> cases e <;> simp [commandEvents, readEvents, readAll, turn, Ran.failed, Ran.value, Ran.hasOut,
      Ran.hasErr, freeIf, do_use, do_acquire, do_release, h1, h2, h3, h5, h6, hl, hst, inUse_nil, plus_nil]

theorem needRebuild_ok {out : Thing} {files : List Thing} {l : InUse} (h : l .need = false) (ho : l out = true)
    (hf : ∀ x ∈ files, l x = true) (early : Bool) : Neutral (needRebuild early out files) l := by
  unfold needRebuild
  refine neutral_use ho ?_
  cases early with
  | true => rfl
  | false =>
    have : Neutral (.acquire .need :: (files.map .use ++ [.use .need]) ++ [.release .need]) l := by
      refine neutral_around h (neutral_append (neutral_uses fun x hx => plus_true.mpr (.inl (hf x hx))) ?_)
      exact neutral_use (plus_true.mpr (.inr (by simp))) rfl
    simpa using this

theorem copyFile_ok {source out : Thing} {l : InUse} (h : Below 1 l) (hs : l source = true) (ho : l out = true)
    (r : Copied) : Neutral (copyFile source out r) l := by
  have h1 := h .fname (by decide)
  have h2 := h .fdFrom (by decide)
  have h3 := h .fdTo (by decide)
  unfold copyFile
  refine neutral_append (neutral_append (neutral_use hs (neutral_use ho rfl)) (neutral_brief h1)) ?_
  have e : ∀ ev, Neutral ev (plus l []) → Neutral ev l := fun ev h => by rwa [plus_nil] at h
  cases r with
  | noDir => rfl
  | noSource => rfl
  | noTarget => exact e _ (by simp [Neutral, do_acquire, do_release, h2, inUse_nil])
  | broken => exact e _ (by simp [Neutral, do_acquire, do_release, do_use, h2, h3, inUse_nil])
  | done => exact e _ (by simp [Neutral, do_acquire, do_release, do_use, h2, h3, inUse_nil])

end Blogc.MakeMem
