import Verif.Lemmas.TemplateMemory

/-!
# Releasing a template, and the whole of reading one
-/

namespace Blogc.TmplMem

open Blogc Blogc.Template Blogc.Spec.TmplAccount

/-- Nodes `k` to before `m`, with their data, are no longer in use. -/
def lessNodes (l : InUse) (k m : Nat) : InUse
  | .node j => if k ≤ j ∧ j < m then false else l (.node j)
  | .first j => if k ≤ j ∧ j < m then false else l (.first j)
  | .second j => if k ≤ j ∧ j < m then false else l (.second j)
  | x => l x

theorem release_if {l r : InUse} {x : Thing} {b : Bool} {rest : List Event} (h : l x = b)
    (hr : inUse rest (put l x false) = some r) : inUse ((if b then [Event.release x] else []) ++ rest) l = some r := by
  cases b with
  | true => exact release_ok h hr
  | false => rw [put_same h] at hr; exact hr

theorem freeNodes_ok (ns : List Node) : ∀ (k : Nat) (l : InUse),
    (∀ i n, ns[i]? = some n → l (.link (k + i)) = true ∧ l (.node (k + i)) = true ∧
      l (.first (k + i)) = n.data0.isSome ∧ l (.second (k + i)) = n.data1.isSome) →
    inUse (freeNodes k ns) l = some (lessNodes l k (k + ns.length)) := by
  induction ns with
  | nil =>
    intro k l _
    refine nil_ok fun x => ?_
    cases x <;> simp only [lessNodes] <;> grind
  | cons n ns ih =>
    intro k l h
    obtain ⟨h1, h2, h3, h4⟩ := h 0 n rfl
    simp only [Nat.add_zero] at h1 h2 h3 h4
    simp only [freeNodes, List.append_assoc, List.cons_append, List.nil_append]
    refine use_ok h1 (use_ok h2 (release_if h3 (release_if (by simp [put, h4]) (release_ok (by simp [put, h2]) ?_))))
    rw [ih (k + 1) _ fun i m hm => ?_]
    · congr 1
      funext x
      cases x <;> simp only [lessNodes, put, List.length_cons] <;> grind
    · have := h (i + 1) m hm
      have e : k + 1 + i = k + (i + 1) := by omega
      rw [e]
      have hk : k + (i + 1) ≠ k := by omega
      simp [put, hk, this]

/-- The elements of the list before `m` are no longer in use. -/
def lessLinks (l : InUse) (m : Nat) : InUse
  | .link j => if j < m then false else l (.link j)
  | x => l x

theorem freeLinks_ok (m : Nat) (l : InUse) (h : ∀ k, k < m → l (.link k) = true) :
    inUse ((List.range m).flatMap fun k => [Event.use (.link k), Event.release (.link k)]) l = some (lessLinks l m) := by
  induction m with
  | zero =>
    refine nil_ok fun x => ?_
    cases x <;> simp [lessLinks]
  | succ m ih =>
    rw [List.range_succ, List.flatMap_append]
    refine then_ok (ih fun k hk => h k (by omega)) ?_
    have e : lessLinks l m (.link m) = true := by simp [lessLinks, h m (by omega)]
    refine use_ok e (release_ok e (nil_ok fun x => ?_))
    cases x <;> simp only [lessLinks, put] <;> grind

/-- The template is no longer in use; the rest is. -/
def less (l : InUse) : InUse
  | .node _ | .first _ | .second _ | .link _ => false
  | x => l x

/-- The template of some nodes is in use. -/
def Has (l : InUse) (ns : List Node) : Prop :=
  ∀ k, l (.node k) = ofTemplate ns (.node k) ∧ l (.link k) = ofTemplate ns (.link k) ∧
    l (.first k) = ofTemplate ns (.first k) ∧ l (.second k) = ofTemplate ns (.second k)

theorem freeAst_ok {l : InUse} {ns : List Node} (h : Has l ns) : inUse (freeAst ns) l = some (less l) := by
  refine then_ok (freeNodes_ok ns 0 l fun i n hn => ?_) ?_
  · obtain ⟨h1, h2, h3, h4⟩ := h i
    have hi : i < ns.length := (List.getElem?_eq_some_iff.mp hn).1
    rw [Nat.zero_add, h1, h2, h3, h4]
    simp only [ofTemplate, hn, hi, decide_true, Option.any_some, and_self]
  · rw [freeLinks_ok ns.length _ fun k hk => ?_]
    · congr 1
      funext x
      cases x with
      | node k => have := (h k).1; simp only [lessLinks, lessNodes, less, ofTemplate] at *; grind
      | link k => have := (h k).2.1; simp only [lessLinks, lessNodes, less, ofTemplate] at *; grind
      | first k => have := (h k).2.2.1; simp only [lessLinks, lessNodes, less, ofTemplate] at *; grind
      | second k => have := (h k).2.2.2; simp only [lessLinks, lessNodes, less, ofTemplate] at *; grind
      | _ => rfl
    · show l (.link k) = true
      rw [(h k).2.1]
      simp [ofTemplate, hk]

theorem has_ofTemplate (ns : List Node) : Has (ofTemplate ns) ns := fun _ => ⟨rfl, rfl, rfl, rfl⟩

theorem blockNode_ok {ns : List Node} {k : Nat} (h : blockNode ns = some k) :
    ofTemplate ns.reverse (.first k) = true := by
  induction ns with
  | nil => cases h
  | cons n ns ih =>
    rw [List.reverse_cons, ofTemplate_snoc]
    simp only [blockNode] at h
    split at h
    · split at h
      · rename_i h0
        cases h
        simp [put, h0]
      · cases h
    · have hk := ih h
      have : k < ns.length := by
        have e : ofTemplate ns.reverse (.first k) = true := hk
        simp only [ofTemplate] at e
        cases hg : ns.reverse[k]? with
        | none => rw [hg] at e; cases e
        | some m => have := (List.getElem?_eq_some_iff.mp hg).1; simpa using this
      have hne : Thing.first k ≠ .first ns.reverse.length := by
        intro e; injection e with e; rw [List.length_reverse] at e; omega
      simp only [put, reduceCtorEq, if_false, if_neg hne]
      exact hk

/-- The error is made and the nodes are released. -/
theorem error_ok (st : St) (e : Err) :
    inUse (errorEvents st e ++ freeAst st.ast.reverse) (ofTemplate st.ast.reverse) = some (only .error) := by
  have h1 : inUse [Event.acquire .error] (ofTemplate st.ast.reverse) =
      some (put (ofTemplate st.ast.reverse) .error true) := acquire_ok rfl rfl
  have h2 : inUse (errorEvents st e) (ofTemplate st.ast.reverse) =
      some (put (ofTemplate st.ast.reverse) .error true) := by
    have h3 : inUse (((blockNode st.ast).toList.map fun k => Event.use (.first k)) ++ [Event.acquire .error])
        (ofTemplate st.ast.reverse) = some (put (ofTemplate st.ast.reverse) .error true) := by
      refine then_ok (uses_ok fun ev hev => ?_) h1
      obtain ⟨k, hk, rfl⟩ := List.mem_map.mp hev
      exact ⟨_, rfl, blockNode_ok (Option.mem_toList.mp hk)⟩
    cases e <;> first | exact h1 | exact h3
  refine then_ok h2 ?_
  rw [freeAst_ok (l := put (ofTemplate st.ast.reverse) .error true) (ns := st.ast.reverse)
    fun k => ⟨rfl, rfl, rfl, rfl⟩]
  congr 1
  funext x
  cases x <;> simp [less, only, put, ofTemplate]

theorem loop_memory (src : Str) : ∀ (rest : Str) (cur : Nat) (st : St),
    match loop src rest cur st with
    | .ok (.ok ns) => inUse (loopEvents src rest cur st) (ofTemplate st.ast.reverse) = some (ofTemplate ns)
    | .ok (.error _) => inUse (loopEvents src rest cur st) (ofTemplate st.ast.reverse) = some (only .error)
    | .ub => True := by
  intro rest
  induction rest with
  | nil =>
    intro cur st
    simp only [loop, loopEvents]
    cases hf : finish st with
    | error e => exact error_ok st e
    | ok ns =>
      have : ns = st.ast.reverse := by
        simp only [finish] at hf
        (repeat' split at hf) <;> cases hf
        rfl
      subst this
      rfl
  | cons c rest ih =>
    intro cur st
    simp only [loop, loopEvents]
    cases hs : step src cur st c with
    | ub => trivial
    | ok r =>
      cases r with
      | error e => exact error_ok st e
      | ok st' =>
        have h1 := step_keeps (src := src) (cur := cur) (st := st) (c := c) st' hs
        have h2 := ih (cur + 1) st'
        simp only
        cases hl : loop src rest (cur + 1) st' with
        | ub => trivial
        | ok r =>
          rw [hl] at h2
          cases r with
          | error e => exact then_ok h1 h2
          | ok ns => exact then_ok h1 h2

theorem nothing_eq : ofTemplate [] = nothing := by
  funext x
  cases x <;> simp [ofTemplate, nothing]

/-- Reading a template: afterwards exactly its nodes are in use, or only the error. -/
theorem parse_memory (src : Str) :
    match parse src with
    | .ok (.ok ns) => inUse (parseEvents src) nothing = some (ofTemplate ns)
    | .ok (.error _) => inUse (parseEvents src) nothing = some (only .error)
    | .ub => True := by
  have h := loop_memory src src 0 {}
  rw [show ofTemplate (({} : St).ast.reverse) = nothing from nothing_eq] at h
  rw [parse, diagnose, parseEvents]
  cases hl : loop src src 0 {} with
  | ub => trivial
  | ok r =>
    rw [hl] at h
    cases r with
    | error e => exact h
    | ok ns => exact h

end Blogc.TmplMem
