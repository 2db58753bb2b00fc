import Verif.Model.HttpdRun
import Verif.Props.C93

/-!
# C97: the web server starts on the first address that can be used
-/

namespace Blogc.C97

open Blogc Blogc.HttpdRun

/-! ## Specification -/

/-- The calls of an execution, with their results. -/
abbrev Trace := List (Call × Bool)

/-- The address `i` was tried, and cannot be used. -/
def Unusable (t : Trace) (i : Nat) : Prop :=
  (.socket i, false) ∈ t ∨ (.reuse (i + 1), false) ∈ t ∨ (.bind (i + 1), false) ∈ t

/-- The address `i` was tried, and is bound. -/
def Bound (t : Trace) (i : Nat) : Prop :=
  (.socket i, true) ∈ t ∧ (.reuse (i + 1), true) ∈ t ∧ (.bind (i + 1), true) ∈ t

/-- The first address that can be used. -/
def First (t : Trace) (k : Nat) : Prop := (∀ j < k, Unusable t j) ∧ Bound t k

/-- A socket that was opened and is not closed. -/
def Open (t : Trace) (fd : Nat) : Prop :=
  ∃ i, fd = i + 1 ∧ (.socket i, true) ∈ t ∧ ∀ ok, (.close fd, ok) ∉ t

/-- A text that was allocated and is not freed. -/
def Kept (t : Trace) (i : Nat) : Prop := (∃ ok, (.text i, ok) ∈ t) ∧ ∀ ok, (.freeText i, ok) ∉ t

/-- What the user is told: a URL that leads to the address. -/
def Address (a : Addr) (url : Str) : Prop :=
  ∃ host port, url = b!"http://" ++ host ++ port ++ b!"/" ∧
    (host = if a.v6 then b!"[" ++ a.host ++ b!"]" else a.host) ∧
    (port = [] ∧ a.port = 80 ∨ port = b!":" ++ decNat a.port)

/-! ## Proof -/

/-- The number that a call is about. -/
def about : Call → Nat
  | .text i => i + 1
  | .freeText i => i + 1
  | .socket i => i + 1
  | .reuse fd => fd
  | .bind fd => fd
  | .listen fd => fd
  | .close fd => fd
  | .say _ => 0

/-- The socket that a call closes. -/
def closed : Call × Bool → Option Nat
  | (.close fd, _) => some fd
  | _ => none

theorem closed_eq {e : Call × Bool} {fd : Nat} (h : closed e = some fd) : ∃ ok, e = (.close fd, ok) := by
  obtain ⟨c, ok⟩ := e
  cases c <;> first | (cases h; done) | (cases h; exact ⟨ok, rfl⟩)

structure Good (addrs : List Addr) (i : Nat) (t : Trace) (out : Outcome) : Prop where
  frame : ∀ e ∈ t, about e.1 = 0 ∨ i < about e.1
  closes : ∀ fd ok, (.close fd, ok) ∈ t → ∃ k, fd = k + 1 ∧ (.socket k, true) ∈ t
  once : (t.filterMap closed).Nodup
  serving : ∀ a fd, out = .serving a fd → ∃ k, addrs[k]? = some a ∧ fd = i + k + 1 ∧ (∀ j < k, Unusable t (i + j)) ∧
    Bound t (i + k) ∧ (.listen fd, true) ∈ t ∧ (∃ ok, (.say (url a), ok) ∈ t) ∧ ∀ f, Open t f ↔ f = fd
  exit : ∀ s, out = .exit s → s = 1 ∧ (∀ f, ¬ Open t f) ∧ (∀ u ok, (.say u, ok) ∉ t) ∧
    ((∀ j < addrs.length, Unusable t (i + j)) ∨
      ∃ k < addrs.length, (∀ j < k, Unusable t (i + j)) ∧ Bound t (i + k) ∧ (.listen (i + k + 1), false) ∈ t)

/-- One address that cannot be used comes first. -/
theorem good_cons (a : Addr) (rest : List Addr) (i : Nat) (head t : Trace) (out : Outcome)
    (hrest : Good rest (i + 1) t out)
    (hframe : ∀ e ∈ head, about e.1 = i + 1) (hun : Unusable head i)
    (hclosed : (.socket i, true) ∈ head → ∃ ok, (.close (i + 1), ok) ∈ head)
    (hcl : ∀ fd ok, (.close fd, ok) ∈ head → fd = i + 1 ∧ (.socket i, true) ∈ head)
    (honce : (head.filterMap closed).Nodup) :
    Good (a :: rest) i (head ++ t) out := by
  have hopen : ∀ f, Open (head ++ t) f ↔ Open t f := by
    intro f
    constructor
    · rintro ⟨k, rfl, h1, h2⟩
      rcases List.mem_append.1 h1 with h1 | h1
      · have : k = i := by have := hframe _ h1; simpa [about] using this
        subst this
        obtain ⟨ok, h3⟩ := hclosed h1
        exact absurd (List.mem_append_left _ h3) (h2 ok)
      · exact ⟨k, rfl, h1, fun ok h => h2 ok (List.mem_append_right _ h)⟩
    · rintro ⟨k, rfl, h1, h2⟩
      refine ⟨k, rfl, List.mem_append_right _ h1, fun ok h => ?_⟩
      rcases List.mem_append.1 h with h | h
      · have h3 := (hcl _ _ h).1
        have h4 := hrest.frame _ h1
        simp only [about] at h4
        omega
      · exact h2 ok h
  have hU : ∀ j, Unusable t (i + 1 + j) → Unusable (head ++ t) (i + (j + 1)) := by
    intro j h
    rw [show i + (j + 1) = i + 1 + j by omega]
    unfold Unusable at h ⊢
    simp only [List.mem_append]
    tauto
  have hU0 : Unusable (head ++ t) i := by
    unfold Unusable at hun ⊢
    simp only [List.mem_append]
    tauto
  have hB : ∀ j, Bound t (i + 1 + j) → Bound (head ++ t) (i + (j + 1)) := by
    intro j h
    rw [show i + (j + 1) = i + 1 + j by omega]
    unfold Bound at h ⊢
    simp only [List.mem_append]
    tauto
  have hall : ∀ n, (∀ j < n, Unusable t (i + 1 + j)) → ∀ j < n + 1, Unusable (head ++ t) (i + j) := by
    intro n h j hj
    cases j with
    | zero => exact hU0
    | succ j => exact hU j (h j (by omega))
  constructor
  · intro e h
    rcases List.mem_append.1 h with h | h
    · have := hframe _ h; omega
    · have := hrest.frame _ h; omega
  · intro fd ok h
    rcases List.mem_append.1 h with h | h
    · obtain ⟨h1, h2⟩ := hcl _ _ h
      exact ⟨i, h1, List.mem_append_left _ h2⟩
    · obtain ⟨k, h1, h2⟩ := hrest.closes _ _ h
      exact ⟨k, h1, List.mem_append_right _ h2⟩
  · rw [List.filterMap_append, List.nodup_append]
    refine ⟨honce, hrest.once, ?_⟩
    intro x hx y hy e
    subst e
    obtain ⟨c, h1, h2⟩ := List.mem_filterMap.1 hx
    obtain ⟨c', h3, h4⟩ := List.mem_filterMap.1 hy
    obtain ⟨ok, rfl⟩ := closed_eq h2
    obtain ⟨ok', rfl⟩ := closed_eq h4
    have h5 := (hcl _ _ h1).1
    have h6 := hrest.frame _ h3
    simp only [about] at h6
    omega
  · intro a' fd e
    obtain ⟨k, h1, h2, h3, h4, h5, ⟨ok, h6⟩, h7⟩ := hrest.serving a' fd e
    refine ⟨k + 1, by simpa using h1, by omega, hall k h3, hB k h4, List.mem_append_right _ h5,
      ⟨ok, List.mem_append_right _ h6⟩, fun f => (hopen f).trans (h7 f)⟩
  · intro s e
    obtain ⟨h1, h2, h2b, h3⟩ := hrest.exit s e
    refine ⟨h1, fun f => (hopen f).not.2 (h2 f), ?_, ?_⟩
    · intro u ok h
      rcases List.mem_append.1 h with h | h
      · have := hframe _ h; simp [about] at this
      · exact h2b u ok h
    rcases h3 with h3 | ⟨k, hk, h3, h4, h5⟩
    · exact .inl (hall rest.length h3)
    · refine .inr ⟨k + 1, by simpa using hk, hall k h3, hB k h4, List.mem_append_right _ ?_⟩
      rw [show i + (k + 1) + 1 = i + 1 + k + 1 by omega]
      exact h5

/-- Closes the goals of the branches that end. -/
local macro "leaf" : tactic => `(tactic| first
  | simp [List.forall_mem_cons, about]; done
  | simp [about, Unusable, Open, closed, Bound]; done
  | exact List.nodup_nil
  | exact List.nodup_singleton _
  | grind [about, Unusable, Open, closed, Bound])

theorem exec_loop (addrs : List Addr) (hne : addrs ≠ []) (i : Nat) (t : Trace) (out : Outcome)
    (h : (loop addrs i).Exec t out) : Good addrs i t out := by
  induction addrs generalizing i t out with
  | nil => exact absurd rfl hne
  | cons a rest ih =>
    rw [loop] at h
    rcases h with _ | h
    rename_i ok0 t
    rcases h with _ | h
    rename_i ok1 t
    cases ok1 with
    | false =>
      simp only [Bool.not_false, if_true] at h
      split at h
      · rename_i hr
        subst hr
        rcases h with _ | h
        rcases h with _ | h
        constructor <;> leaf
      · rename_i hr
        refine good_cons a rest i [_, _] t out (ih hr _ _ _ h) ?_ ?_ ?_ ?_ ?_ <;> leaf
    | true =>
      simp only [Bool.not_true] at h
      rcases h with _ | h
      rename_i ok2 t
      cases ok2 with
      | false =>
        simp only [Bool.not_false, if_true] at h
        split at h
        · rename_i hr
          subst hr
          rcases h with _ | h
          rcases h with _ | h
          rcases h with _ | h
          constructor <;> leaf
        · rename_i hr
          rcases h with _ | h
          rename_i ok3 t
          refine good_cons a rest i [_, _, _, _] t out (ih hr _ _ _ h) ?_ ?_ ?_ ?_ ?_ <;> leaf
      | true =>
        simp only [Bool.not_true] at h
        rcases h with _ | h
        rename_i ok3 t
        cases ok3 with
        | true =>
          simp only [if_true] at h
          rcases h with _ | h
          rename_i ok4 t
          cases ok4 with
          | false =>
            simp only [Bool.not_false, if_true] at h
            rcases h with _ | h
            rcases h with _ | h
            rcases h with _ | h
            refine ⟨by leaf, by leaf, by leaf, by leaf, fun s e => ?_⟩
            cases e
            exact ⟨rfl, by leaf, by leaf, .inr ⟨0, by simp, by simp, by leaf, by simp⟩⟩
          | true =>
            rcases h with _ | h
            rcases h with _ | h
            constructor <;> leaf
        | false =>
          simp only [Bool.false_eq_true, if_false] at h
          split at h
          · rename_i hr
            subst hr
            rcases h with _ | h
            rcases h with _ | h
            rcases h with _ | h
            constructor <;> leaf
          · rename_i hr
            rcases h with _ | h
            rename_i ok3 t
            rcases h with _ | h
            rename_i ok3 t
            refine good_cons a rest i [_, _, _, _, _, _] t out (ih hr _ _ _ h) ?_ ?_ ?_ ?_ ?_ <;> leaf

/-- The server listens on the first address that can be used, tells the user, and has
only this socket open. Otherwise it ends with status 1, with no socket open, and only
if no address can be used or the first one that can does not allow to listen. -/
theorem starts (addrs : List Addr) (hne : addrs ≠ []) (t : Trace) (out : Outcome)
    (h : (start (some addrs)).Exec t out) :
    (∀ a fd, out = .serving a fd → ∃ k, addrs[k]? = some a ∧ First t k ∧ (.listen fd, true) ∈ t ∧
      (∃ url ok, Address a url ∧ (.say url, ok) ∈ t) ∧ ∀ f, Open t f ↔ f = fd) ∧
    (∀ s, out = .exit s → s = 1 ∧ (∀ f, ¬ Open t f) ∧ (∀ url ok, (.say url, ok) ∉ t) ∧
      ((∀ j < addrs.length, Unusable t j) ∨
        ∃ k < addrs.length, First t k ∧ (.listen (k + 1), false) ∈ t)) := by
  have g := exec_loop addrs hne 0 t out h
  constructor
  · intro a fd e
    obtain ⟨k, h1, h2, h3, h4, h5, ⟨ok, h6⟩, h7⟩ := g.serving a fd e
    simp only [Nat.zero_add] at h3 h4
    refine ⟨k, h1, ⟨h3, h4⟩, h5, ⟨_, ok, ?_, h6⟩, h7⟩
    refine ⟨_, _, rfl, rfl, ?_⟩
    by_cases hp : a.port = 80
    · exact .inl ⟨by rw [if_neg (fun h => h hp)], hp⟩
    · exact .inr (by rw [if_pos hp])
  · intro s e
    obtain ⟨h1, h2, h3, h4⟩ := g.exit s e
    simp only [Nat.zero_add] at h4
    refine ⟨h1, h2, h3, ?_⟩
    rcases h4 with h4 | ⟨k, h4, h5, h6, h7⟩
    · exact .inl h4
    · exact .inr ⟨k, h4, ⟨h5, h6⟩, h7⟩

/-- Only sockets that were opened are closed, each once. -/
theorem closes (addrs : List Addr) (hne : addrs ≠ []) (t : Trace) (out : Outcome)
    (h : (start (some addrs)).Exec t out) :
    (∀ fd ok, (.close fd, ok) ∈ t → ∃ k, fd = k + 1 ∧ (.socket k, true) ∈ t) ∧ (t.filterMap closed).Nodup :=
  have g := exec_loop addrs hne 0 t out h
  ⟨g.closes, g.once⟩

/-- A name or port that is unknown is an error. -/
theorem unknown (t : Trace) (out : Outcome) (h : (start none).Exec t out) : t = [] ∧ out = .exit 1 := by
  cases h
  exact ⟨rfl, rfl⟩

/-- The text of an address is not freed when no socket can be opened for it, and
another address follows. -/
theorem text_violated : ∃ (addrs : List Addr) (t : Trace) (out : Outcome),
    (start (some addrs)).Exec t out ∧ out = .exit 1 ∧ Kept t 0 := by
  refine ⟨[⟨true, b!"::1", 8080⟩, ⟨false, b!"127.0.0.1", 8080⟩],
    [(.text 0, true), (.socket 0, false), (.text 1, true), (.socket 1, false), (.freeText 1, true)], .exit 1, ?_, rfl, ?_⟩
  · exact .call (.call (.call (.call (.call (.ret _)))))
  · exact ⟨⟨true, by decide⟩, by decide⟩

/-! Non-vacuity: the first address has no socket, the second is taken, and the third
is used. -/

example : ∃ t, (start (some [⟨true, b!"::1", 80⟩, ⟨true, b!"fe80::1", 80⟩, ⟨false, b!"127.0.0.1", 8080⟩])).Exec t
    (.serving ⟨false, b!"127.0.0.1", 8080⟩ 3) ∧ (.say b!"http://127.0.0.1:8080/", true) ∈ t :=
  ⟨[(.text 0, true), (.socket 0, false), (.text 1, true), (.socket 1, true), (.reuse 2, true), (.bind 2, false),
    (.freeText 1, true), (.close 2, true), (.text 2, true), (.socket 2, true), (.reuse 3, true), (.bind 3, true),
    (.listen 3, true), (.say b!"http://127.0.0.1:8080/", true)],
    .call (.call (.call (.call (.call (.call (.call (.call (.call (.call (.call (.call (.call (.call
      (.ret _)))))))))))))), by decide⟩

example : url ⟨true, b!"::1", 80⟩ = b!"http://[::1]/" := by decide +kernel

end Blogc.C97
