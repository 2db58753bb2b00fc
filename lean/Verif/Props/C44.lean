import Verif.Lemmas.Trie
import Verif.Model.PreReceive
import Verif.Spec.PreReceive
import Mathlib.Data.List.Induction

/-!
# C44: pushed branches are decoded
-/

namespace Blogc.C44

open Blogc Blogc.PreReceive

variable {input : Str}

theorem walk_old (s rest : Str) (h : c!" " ∉ s) (cur st sn : Nat) (rv : Trie Str) :
    loop input (s ++ rest) cur .old st sn rv = loop input rest (cur + s.length) .old st sn rv := by
  induction s generalizing cur with
  | nil => rfl
  | cons c s ih =>
    rw [List.cons_append, loop, if_pos (fun e => h (by simp [e])), ih (fun e => h (by simp [e]))]
    congr 1
    simp only [List.length_cons]; omega

theorem walk_new (s rest : Str) (h : c!" " ∉ s) (cur st sn : Nat) (rv : Trie Str) :
    loop input (s ++ rest) cur .new st sn rv = loop input rest (cur + s.length) .new st sn rv := by
  induction s generalizing cur with
  | nil => rfl
  | cons c s ih =>
    rw [List.cons_append, loop, if_pos (fun e => h (by simp [e])), ih (fun e => h (by simp [e]))]
    congr 1
    simp only [List.length_cons]; omega

theorem walk_ref (s rest : Str) (h : c!"\n" ∉ s) (cur st sn : Nat) (rv : Trie Str) :
    loop input (s ++ rest) cur .ref st sn rv = loop input rest (cur + s.length) .ref st sn rv := by
  induction s generalizing cur with
  | nil => rfl
  | cons c s ih =>
    rw [List.cons_append, loop, if_pos (fun e => h (by simp [e])), ih (fun e => h (by simp [e]))]
    congr 1
    simp only [List.length_cons]; omega

theorem slice_mid (a b c : Str) (i j : Nat) (hi : i = a.length) (hj : j = a.length + b.length) :
    slice (a ++ b ++ c) i j = b := by
  subst hi hj
  simp [slice]

theorem cstr_of_nulFree (s : Str) (h : NulFree s) : cstr s = s := by
  unfold cstr
  induction s with
  | nil => rfl
  | cons b s ih =>
    have hb : (b != 0) = true := by simpa using h b (by simp)
    rw [List.takeWhile_cons_of_pos (p := (· != 0)) hb, ih (fun x hx => h x (by simp [hx]))]

/-- Effect of one line on the table. -/
def add (rv : Trie Str) (u : Update) : Trie Str :=
  if u.ref.length > 11 ∧ u.ref.take 11 = b!"refs/heads/" then (rv.insert (u.ref.drop 11) u.newRev).1
  else rv

theorem loop_line (u : Update) (hu : u.Ok) (pre rest : Str) (hin : input = pre ++ (u.line ++ rest))
    (st sn : Nat) (rv : Trie Str) :
    ∃ st' sn', loop input (u.line ++ rest) pre.length .startOld st sn rv =
      loop input rest (pre ++ u.line).length .startOld st' sn' (add rv u) := by
  obtain ⟨o, n, r⟩ := u
  obtain ⟨h1, h2, h3, h4, h5, h6, h7, h8⟩ := hu
  simp only at h1 h2 h3 h4 h5 h6 h7 h8
  obtain ⟨o0, o, rfl⟩ := List.exists_cons_of_ne_nil h1
  obtain ⟨n0, n, rfl⟩ := List.exists_cons_of_ne_nil h3
  obtain ⟨r0, r, rfl⟩ := List.exists_cons_of_ne_nil h6
  have ho : c!" " ∉ o := fun e => h2 (by simp [e])
  have hn : c!" " ∉ n := fun e => h4 (by simp [e])
  have hr : c!"\n" ∉ r := fun e => h7 (by simp [e])
  refine ⟨pre.length + (1 + o.length + 1 + 1 + n.length + 1), pre.length + (1 + o.length + 1), ?_⟩
  have hline : (⟨o0 :: o, n0 :: n, r0 :: r⟩ : Update).line ++ rest =
      o0 :: (o ++ c!" " :: n0 :: (n ++ c!" " :: r0 :: (r ++ c!"\n" :: rest))) := by
    simp [Update.line]
  have hlen : (pre ++ (⟨o0 :: o, n0 :: n, r0 :: r⟩ : Update).line).length
      = pre.length + (1 + o.length + 1 + 1 + n.length + 1 + 1 + r.length + 1) := by
    simp [Update.line]; omega
  rw [hline, loop, walk_old o _ ho, loop, if_neg (by simp), loop, walk_new n _ hn, loop,
    if_neg (by simp), loop, walk_ref r _ hr, loop, if_neg (by simp), hlen]
  -- the pieces
  have e1 : slice input (pre.length + 1 + o.length + 1 + 1 + n.length + 1)
      (pre.length + 1 + o.length + 1 + 1 + n.length + 1 + 11)
      = ((r0 :: r) ++ c!"\n" :: rest).take 11 := by
    have : input = (pre ++ (o0 :: o) ++ b!" " ++ (n0 :: n) ++ b!" ") ++ ((r0 :: r) ++ c!"\n" :: rest) := by
      rw [hin]; simp [Update.line]
    have hl : pre.length + 1 + o.length + 1 + 1 + n.length + 1
        = (pre ++ (o0 :: o) ++ b!" " ++ (n0 :: n) ++ b!" ").length := by
      simp; omega
    rw [hl, this, slice, List.drop_left]
    congr 1
    omega
  have e2 : slice input (pre.length + 1 + o.length + 1)
      (pre.length + 1 + o.length + 1 + 1 + n.length + 1 - 1) = n0 :: n := by
    have : input = (pre ++ (o0 :: o) ++ b!" ") ++ (n0 :: n) ++ (b!" " ++ (r0 :: r) ++ c!"\n" :: rest) := by
      rw [hin]; simp [Update.line]
    rw [this]
    apply slice_mid
    · simp; omega
    · simp; omega
  have e3 : (r0 :: r).length > 11 →
      slice input (pre.length + 1 + o.length + 1 + 1 + n.length + 1 + 11)
      (pre.length + 1 + o.length + 1 + 1 + n.length + 1 + 1 + r.length) = (r0 :: r).drop 11 := by
    intro hlong
    have : input = (pre ++ (o0 :: o) ++ b!" " ++ (n0 :: n) ++ b!" " ++ (r0 :: r).take 11) ++
        (r0 :: r).drop 11 ++ (c!"\n" :: rest) := by
      rw [hin]
      simp only [List.append_assoc]
      rw [← List.append_assoc (List.take 11 (r0 :: r)), List.take_append_drop]
      simp [Update.line]
    simp only [List.length_cons] at hlong
    rw [this]
    apply slice_mid
    · simp only [List.length_append, List.length_take, List.length_cons, List.length_nil]
      omega
    · simp only [List.length_append, List.length_take, List.length_drop, List.length_cons,
        List.length_nil]
      omega
  have hcond : (pre.length + 1 + o.length + 1 + 1 + n.length + 1 + 1 + r.length
        - (pre.length + 1 + o.length + 1 + 1 + n.length + 1) > 11 ∧
      slice input (pre.length + 1 + o.length + 1 + 1 + n.length + 1)
        (pre.length + 1 + o.length + 1 + 1 + n.length + 1 + 11) = b!"refs/heads/") ↔
      ((r0 :: r).length > 11 ∧ (r0 :: r).take 11 = b!"refs/heads/") := by
    rw [e1]
    constructor
    · rintro ⟨a, b⟩
      have hl : (r0 :: r).length > 11 := by simp only [List.length_cons]; omega
      rw [List.take_append_of_le_length (by omega)] at b
      exact ⟨hl, b⟩
    · rintro ⟨a, b⟩
      rw [List.take_append_of_le_length (by omega)]
      exact ⟨by simp only [List.length_cons] at a; omega, b⟩
  have hi1 : pre.length + (1 + o.length + 1 + 1 + n.length + 1 + 1 + r.length + 1)
      = pre.length + 1 + o.length + 1 + 1 + n.length + 1 + 1 + r.length + 1 := by omega
  have hi2 : pre.length + (1 + o.length + 1 + 1 + n.length + 1)
      = pre.length + 1 + o.length + 1 + 1 + n.length + 1 := by omega
  have hi3 : pre.length + (1 + o.length + 1) = pre.length + 1 + o.length + 1 := by omega
  unfold add
  rw [hi1, hi2, hi3]
  by_cases hc : (r0 :: r).length > 11 ∧ (r0 :: r).take 11 = b!"refs/heads/"
  · rw [if_pos (hcond.2 hc), if_pos hc, e2, e3 hc.1, cstr_of_nulFree _ h5, cstr_of_nulFree]
    intro x hx
    exact h8 x (List.mem_of_mem_drop hx)
  · rw [if_neg (fun e => hc (hcond.1 e)), if_neg hc]

theorem loop_lines (us : List Update) (hu : ∀ u ∈ us, u.Ok) (pre : Str)
    (hin : input = pre ++ us.flatMap Update.line) (st sn : Nat) (rv : Trie Str) :
    loop input (us.flatMap Update.line) pre.length .startOld st sn rv = us.foldl add rv := by
  induction us generalizing pre st sn rv with
  | nil => simp [loop]
  | cons u us ih =>
    rw [List.flatMap_cons]
    rw [List.flatMap_cons] at hin
    obtain ⟨st', sn', e⟩ := loop_line u (hu u (by simp)) pre (us.flatMap Update.line) hin st sn rv
    rw [e, ih (fun x hx => hu x (by simp [hx])) (pre ++ u.line) (by rw [hin]; simp)]
    rfl

/-- Looking up in the table built from the lines. -/
theorem lookup_add (us : List Update) (hu : ∀ u ∈ us, u.Ok) (b : Str) (hb : NulFree b) :
    (us.foldl add .nil).lookup b = if b = [] then none else revOf us b := by
  induction us using List.reverseRecOn with
  | nil => simp [revOf, Trie.lookup]
  | append_singleton us u ih =>
    have ih := ih (fun x hx => hu x (by simp [hx]))
    have huok := hu u (by simp)
    rw [List.foldl_append, List.foldl_cons, List.foldl_nil, add]
    have hrev : revOf (us ++ [u]) b =
        if u.ref = b!"refs/heads/" ++ b then some u.newRev else revOf us b := by
      unfold revOf
      rw [List.reverse_append, List.reverse_singleton, List.singleton_append, List.find?_cons]
      by_cases h : u.ref = b!"refs/heads/" ++ b
      · simp [h]
      · have : (u.ref == b!"refs/heads/" ++ b) = false := by simpa using h
        rw [this, if_neg h]
    rw [hrev]
    by_cases hc : u.ref.length > 11 ∧ u.ref.take 11 = b!"refs/heads/"
    · have hsplit : u.ref = b!"refs/heads/" ++ u.ref.drop 11 := by
        rw [← hc.2, List.take_append_drop]
      have hnd : NulFree (u.ref.drop 11) :=
        fun x hx => huok.2.2.2.2.2.2.2 x (List.mem_of_mem_drop hx)
      rw [if_pos hc, Trie.lookup_insert _ _ _ _ hnd hb, ih]
      by_cases e : u.ref.drop 11 = b
      · have hbne : b ≠ [] := by
          rw [← e]; intro h
          have := congrArg List.length h
          simp only [List.length_drop, List.length_nil] at this
          omega
        rw [if_pos e.symm, if_neg hbne, if_pos (by rw [← e]; exact hsplit)]
      · have : ¬ u.ref = b!"refs/heads/" ++ b := by
          intro h
          rw [hsplit] at h
          exact e (List.append_cancel_left h)
        rw [if_neg (fun h => e h.symm), if_neg this]
    · rw [if_neg hc, ih]
      by_cases hb0 : b = []
      · rw [if_pos hb0, if_pos hb0]
      · have : ¬ u.ref = b!"refs/heads/" ++ b := by
          intro h
          apply hc
          rw [h]
          refine ⟨?_, by simp⟩
          have := List.length_pos_iff.2 hb0
          simp only [List.length_append, List.length_cons, List.length_nil]
          omega
        rw [if_neg hb0, if_neg hb0, if_neg this]

theorem wf_add (us : List Update) (hu : ∀ u ∈ us, u.Ok) : Trie.WF (us.foldl add .nil) := by
  induction us using List.reverseRecOn with
  | nil => trivial
  | append_singleton us u ih =>
    have ih := ih (fun x hx => hu x (by simp [hx]))
    have huok := hu u (by simp)
    rw [List.foldl_append, List.foldl_cons, List.foldl_nil, add]
    split
    · exact Trie.insert_wf _ _ _ (fun x hx => huok.2.2.2.2.2.2.2 x (List.mem_of_mem_drop hx)) ih
    · exact ih

/-- For every sequence of update lines and every branch name: what is found for
the branch is the new revision of the last line about it. -/
theorem branches_exact (us : List Update) (hu : ∀ u ∈ us, u.Ok) (b : Str) (hb : NulFree b)
    (hne : b ≠ []) :
    lookupBranch (us.flatMap Update.line) b = revOf us b := by
  have hl := loop_lines us hu [] rfl 0 0 .nil
  rw [List.length_nil, List.nil_append] at hl
  have hk := lookup_add us hu b hb
  rw [if_neg hne] at hk
  unfold lookupBranch parse
  rw [hl]
  by_cases hz : (us.foldl add .nil).size = 0
  · simp only [hz, if_true]
    rw [← hk]
    cases hlook : (us.foldl add .nil).lookup b with
    | none => rfl
    | some v =>
      have := (Trie.mem_foreach _ (wf_add us hu) b (some v)).2 ⟨hb, rfl, hlook⟩
      rw [Trie.size_eq, List.length_eq_zero_iff] at hz
      rw [hz] at this
      simp at this
  · simp only [hz, if_false]
    exact hk

/-- The deployed revision is that of `master`, else that of `main`, else none:
tags and other refs are ignored. -/
theorem deploy_exact (us : List Update) (hu : ∀ u ∈ us, u.Ok) :
    deployRef (us.flatMap Update.line) =
      match revOf us b!"master" with
      | some r => some r
      | none => revOf us b!"main" := by
  have h1 := branches_exact us hu b!"master" (by decide) (by decide)
  have h2 := branches_exact us hu b!"main" (by decide) (by decide)
  unfold deployRef
  rw [h1, h2]
  cases revOf us b!"master" <;> rfl

example : let us : List Update := [⟨b!"00", b!"1a", b!"refs/heads/main"⟩, ⟨b!"00", b!"2b", b!"refs/tags/main"⟩,
      ⟨b!"1a", b!"3c", b!"refs/heads/main"⟩, ⟨b!"00", b!"4d", b!"refs/heads/master2"⟩]
    (∀ u ∈ us, u.Ok) ∧ deployRef (us.flatMap Update.line) = some b!"3c" := by
  refine ⟨?_, by decide⟩
  intro u hu
  simp only [List.mem_cons, List.not_mem_nil, or_false] at hu
  rcases hu with rfl | rfl | rfl | rfl <;> simp [Update.Ok, NulFree]

end Blogc.C44
