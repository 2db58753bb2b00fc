import Verif.Spec.Strings
import Verif.Lemmas.Strings

/-!
# C01: a dynamic string holds exactly the bytes appended to it
-/

namespace Blogc.C01

open Blogc

/-- After any sequence of appends on a fresh string, no access was out of
bounds, the recorded length is the number of bytes appended, the block is large
enough, and the block starts with exactly those bytes followed by a
terminator. -/
theorem dynamic_string (ops : List StrOp) :
    ∃ s, runStrOps ops = .ok s ∧
      s.len = (Spec.opsBytes ops).length ∧
      s.len < s.mem.length ∧
      s.mem.take (s.len + 1) = (Spec.opsBytes ops ++ [0]).map some := by
  obtain ⟨s0, h0, hh0⟩ := BcString.new_holds
  have key : ∀ (ops : List StrOp) (s : BcString) (bs : Str), BcString.Holds s bs →
      ∃ s', ops.foldlM StrOp.run s = .ok s' ∧ BcString.Holds s' (bs ++ Spec.opsBytes ops) := by
    intro ops
    induction ops with
    | nil => intro s bs h; exact ⟨s, rfl, by simpa [Spec.opsBytes] using h⟩
    | cons op ops ih =>
      intro s bs h
      have hstep : ∃ s', op.run s = .ok s' ∧ BcString.Holds s' (bs ++ Spec.opBytes op) := by
        cases op with
        | append t => exact BcString.appendLen_holds s bs (cstr t) h
        | appendLen t => exact BcString.appendLen_holds s bs t h
        | appendC c =>
          simp only [StrOp.run, BcString.appendC_eq]
          exact BcString.appendLen_holds s bs [c] h
      obtain ⟨s1, hs1, hh1⟩ := hstep
      obtain ⟨s2, hs2, hh2⟩ := ih s1 _ hh1
      refine ⟨s2, ?_, ?_⟩
      · rw [List.foldlM_cons, hs1]; exact hs2
      · simpa [Spec.opsBytes, List.append_assoc] using hh2
  obtain ⟨s, hs, h1, h2, h3⟩ := key ops s0 [] hh0
  refine ⟨s, ?_, by simpa using h1, by omega, by simpa using h3⟩
  simp only [runStrOps, h0, Res.bind_ok, hs]

/-- A 200-byte append after a short one crosses the growth boundary. -/
example : ∃ s, runStrOps [.append b!"ab\x00c", .appendLen (List.replicate 200 7), .appendC 0]
    = .ok s ∧ s.len = 203 := by
  obtain ⟨s, h, hl, _⟩ := dynamic_string [.append b!"ab\x00c", .appendLen (List.replicate 200 7), .appendC 0]
  exact ⟨s, h, by rw [hl]; decide +kernel⟩

end Blogc.C01
