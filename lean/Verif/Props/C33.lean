import Verif.Model.FileName

/-!
# C33: FILENAME is the last path component without its last extension
-/

namespace Blogc.C33

open Blogc

/-- A path separator. -/
def Sep (c : Byte) : Prop := c = 0x2f ∨ c = 0x5c

/-- `comp` is the last component of `path`. -/
def LastComponent (path comp : Str) : Prop :=
  (∀ c ∈ comp, ¬ Sep c) ∧ ∃ dir, path = dir ++ comp ∧ ∀ c, dir.getLast? = some c → Sep c

/-- `base` is `comp` without its last extension. -/
def WithoutExtension (comp base : Str) : Prop :=
  (0x2e ∉ comp ∧ base = comp) ∨ ∃ ext, 0x2e ∉ ext ∧ comp = base ++ 0x2e :: ext

theorem sep_iff (c : Byte) : (c == c!"/" || c == c!"\\") = true ↔ Sep c := by
  simp [Sep]

/-- The loop at a separator or the beginning stops. -/
theorem loop_stop (dir : Str) (hd : ∀ c, dir.getLast? = some c → Sep c) (b : Bool) (acc : Str) :
    filenameLoop dir.reverse b acc = acc ∨
      ∃ c, dir.getLast? = some c ∧ c = 0x2e := by
  rcases List.eq_nil_or_concat dir with h | ⟨ini, c, h⟩
  · subst h; left; rfl
  · rw [List.concat_eq_append] at h
    subst h
    have hs := hd c (by simp)
    left
    rw [List.reverse_append]
    simp only [List.reverse_singleton, List.singleton_append, filenameLoop]
    have h1 : (c == c!".") = false := by
      rcases hs with h | h <;> subst h <;> decide
    have h2 := (sep_iff c).2 hs
    simp only [h1, Bool.and_false, Bool.false_eq_true, if_false, h2, if_true]

theorem loop_stop' (dir : Str) (hd : ∀ c, dir.getLast? = some c → Sep c) (b : Bool) (acc : Str) :
    filenameLoop dir.reverse b acc = acc := by
  rcases loop_stop dir hd b acc with h | ⟨c, h, hc⟩
  · exact h
  · have := hd c h
    subst hc
    simp [Sep] at this

/-- Ordinary bytes are collected. -/
theorem loop_collect (rev : Str) (p : Str) (b : Bool) (acc : Str) (hp : ∀ c ∈ p, ¬ Sep c)
    (hdot : b = false → 0x2e ∉ p) :
    filenameLoop (p.reverse ++ rev) b acc = filenameLoop rev b (p ++ acc) := by
  induction h : p.reverse generalizing p acc with
  | nil =>
    have : p = [] := by simpa using h
    subst this; rfl
  | cons c q ih =>
    have hpe : p = q.reverse ++ [c] := by
      have := congrArg List.reverse h
      simpa using this
    subst hpe
    have hsep : ¬ Sep c := hp c (by simp)
    have hs : (c == c!"/" || c == c!"\\") = false := by
      rw [Bool.eq_false_iff]; exact fun h => hsep ((sep_iff c).1 h)
    have hd : (!b && c == c!".") = false := by
      cases b with
      | true => rfl
      | false =>
        have := hdot rfl
        simp only [List.mem_append, List.mem_singleton, not_or] at this
        simp only [Bool.not_false, Bool.true_and, beq_eq_false_iff_ne]
        exact fun h => this.2 h.symm
    simp only [List.cons_append, filenameLoop, hd, hs, Bool.false_eq_true, if_false]
    rw [ih (q.reverse) (c :: acc) (fun x hx => hp x (by simp [hx]))
      (fun hb => fun hx => hdot hb (by simp [hx])) (by simp)]
    simp

/-- For every path, FILENAME is its last component without its last
extension. -/
theorem filename_correct (path comp base : Str) (hne : path ≠ []) (hc : LastComponent path comp)
    (hb : WithoutExtension comp base) : getFilename (some path) = some base := by
  obtain ⟨hcomp, dir, rfl, hdir⟩ := hc
  have : getFilename (some (dir ++ comp)) = some (filenameLoop (dir ++ comp).reverse false []) := by
    cases h : dir ++ comp with
    | nil => exact absurd h hne
    | cons a l => rfl
  rw [this]
  congr 1
  rw [List.reverse_append]
  rcases hb with ⟨hdot, rfl⟩ | ⟨ext, hext, rfl⟩
  · rw [loop_collect _ _ _ _ hcomp (fun _ => hdot), loop_stop' _ hdir]
    simp
  · rw [List.reverse_append, List.reverse_cons, List.append_assoc, List.append_assoc,
      loop_collect _ _ _ _ (fun c h => hcomp c (by simp [h])) (fun _ => hext)]
    simp only [List.singleton_append, filenameLoop, Bool.not_false, Bool.true_and,
      beq_self_eq_true, if_true]
    rw [loop_collect _ _ _ _ (fun c h => hcomp c (by simp [h])) (by simp), loop_stop' _ hdir]
    simp

/-- Every path has a last component. -/
theorem lastComponent_exists (path : Str) : ∃ comp, LastComponent path comp := by
  have key : ∀ rev : Str, ∃ comp, LastComponent rev.reverse comp := by
    intro rev
    induction rev with
    | nil => exact ⟨[], by simp [LastComponent]⟩
    | cons c rev ih =>
      by_cases hs : Sep c
      · exact ⟨[], by simp, rev.reverse ++ [c], by simp, by simpa using hs⟩
      · obtain ⟨comp, h1, dir, h2, h3⟩ := ih
        refine ⟨comp ++ [c], ?_, dir, ?_, h3⟩
        · intro x hx
          rcases List.mem_append.1 hx with h | h
          · exact h1 x h
          · simp only [List.mem_singleton] at h; subst h; exact hs
        · simp [h2]
  simpa using key path.reverse

/-- Every component has a form without its last extension. -/
theorem withoutExtension_exists (comp : Str) : ∃ base, WithoutExtension comp base := by
  have key : ∀ rev : Str, ∃ base, WithoutExtension rev.reverse base := by
    intro rev
    induction rev with
    | nil => exact ⟨[], Or.inl (by simp)⟩
    | cons c rev ih =>
      by_cases hc : c = 0x2e
      · subst hc
        exact ⟨rev.reverse, Or.inr ⟨[], by simp, by simp⟩⟩
      · obtain ⟨base, h | ⟨ext, h1, h2⟩⟩ := ih
        · refine ⟨rev.reverse ++ [c], Or.inl ⟨?_, by simp⟩⟩
          simp only [List.reverse_cons, List.mem_append, List.mem_singleton, not_or]
          exact ⟨h.1, fun h => hc h.symm⟩
        · refine ⟨base, Or.inr ⟨ext ++ [c], ?_, ?_⟩⟩
          · simp only [List.mem_append, List.mem_singleton, not_or]
            exact ⟨h1, fun h => hc h.symm⟩
          · simp [h2]
  simpa using key comp.reverse

/-- So FILENAME is always defined for a non-empty path, and only then. -/
theorem filename_total (path : Str) : getFilename (some path) = none ↔ path = [] := by
  cases path <;> simp [getFilename]

example : LastComponent b!"content/post.d/my.post.txt" b!"my.post.txt" ∧
    WithoutExtension b!"my.post.txt" b!"my.post" :=
  ⟨⟨by simp [Sep], b!"content/post.d/", rfl, by simp [Sep]⟩, Or.inr ⟨b!"txt", by decide, rfl⟩⟩
example : getFilename (some b!"content/post.d/my.post.txt") = some b!"my.post" := by decide
example : getFilename (some b!"content/post.d/README") = some b!"README" := by decide

end Blogc.C33
