import Verif.Props.C17

/-!
# C18: Reserved variables cannot be set from a source file
-/

namespace Blogc.C18

open Blogc Blogc.Spec Blogc.Spec.Source Blogc.Source
open Blogc.Config (slice_at cstr_of_nulFree)

theorem inserts_lookup_mem (hs : List Raw) (hok : ∀ h ∈ hs, h.Ok) (k v : Str) (hk : NulFree k)
    (h : (Trie.inserts (rawPairs hs)).1.lookup k = some v) : ValidKey k ∧ k ∉ reserved := by
  have hck : CKeys (rawPairs hs) := by
    intro kv hkv
    obtain ⟨x, hx, rfl⟩ := List.mem_map.1 hkv
    exact validKey_nulFree _ (hok x hx).key
  rw [C07.lookup_inserts _ hck k hk] at h
  unfold lastValue at h
  cases hf : (rawPairs hs).reverse.find? (fun kv => kv.1 == k) with
  | none => rw [hf] at h; cases h
  | some kv =>
    have h1 := List.find?_some hf
    have h2 := List.mem_of_find?_eq_some hf
    rw [List.mem_reverse] at h2
    obtain ⟨x, hx, rfl⟩ := List.mem_map.1 h2
    have : x.key = k := by simpa using h1
    rw [← this]
    exact ⟨(hok x hx).key, (hok x hx).allowed⟩

/-- Every name in the table of an accepted file matches `[A-Z][A-Z0-9_]*` and is not reserved,
except for `CONTENT`, and that is what the content parser made of `RAW_CONTENT`. -/
theorem reserved_never_set {src : Str} {t : Trie Str} (depth : Nat) (m : Int)
    (h : parse (Content.parse depth) src m = .ok (.ok t)) (k v : Str) (hk : NulFree k)
    (hv : t.lookup k = some v) :
    (ValidKey k ∧ k ∉ reserved) ∨
    (k = b!"CONTENT" ∧ ∃ raw b r, t.lookup b!"RAW_CONTENT" = some raw ∧
      Content.parse depth raw b = .ok r ∧ v = r.rv) := by
  obtain ⟨rs, p, hok, hsrc, hend⟩ := parse_sound h
  rcases hend with ⟨-, rfl⟩ | ⟨w, -, hf⟩
  · exact .inl (inserts_lookup_mem rs hok k v hk hv)
  · obtain ⟨r, hr, h1, h2, h3, h4, -, -, -⟩ := finishContent_lookup hf
    by_cases hc : k ∈ contentNames
    · simp only [contentNames, List.mem_cons, List.not_mem_nil, or_false] at hc
      rcases hc with rfl | rfl | rfl | rfl | rfl | rfl
      · exact .inl ⟨⟨_, _, rfl, by decide, by decide⟩, by decide⟩
      · refine .inr ⟨rfl, _, _, r, h3, hr, ?_⟩
        rw [h1] at hv
        exact (Option.some.inj hv).symm
      · exact .inl ⟨⟨_, _, rfl, by decide, by decide⟩, by decide⟩
      · exact .inl ⟨⟨_, _, rfl, by decide, by decide⟩, by decide⟩
      · exact .inl ⟨⟨_, _, rfl, by decide, by decide⟩, by decide⟩
      · exact .inl ⟨⟨_, _, rfl, by decide, by decide⟩, by decide⟩
    · rw [h4 k hk hc] at hv
      exact .inl (inserts_lookup_mem rs hok k v hk hv)

/-- The hypotheses are met by a file with content. -/
example : (match parse (Content.parse 3) b!"A: b\n---\nhello\n" 5 with
    | .ok (.ok t) => [t.lookup b!"A", t.lookup b!"CONTENT", t.lookup b!"RAW_CONTENT"]
    | _ => []) = [some b!"b", some b!"<p>hello</p>\n", some b!"hello\n"] := by decide +kernel

/-- A header line, after any number of others, that names a reserved variable stops the
parser with an error that says so, whatever follows. -/
theorem reserved_rejected (depth : Nat) (m : Int) (hs : List Header) (hok : ∀ h ∈ hs, h.Ok)
    (bl k rest : Str) (hb : ∀ c ∈ bl, Blank c) (hk : k ∈ reserved) :
    parse (Content.parse depth) (headersText hs ++ (bl ++ k ++ b!":" ++ rest)) m =
      .ok (.error (.forbidden k, (headersText hs ++ bl ++ k).length)) := by
  have hvk : ValidKey k := by
    simp only [reserved, List.mem_cons, List.not_mem_nil, or_false] at hk
    rcases hk with rfl | rfl | rfl | rfl | rfl | rfl | rfl | rfl | rfl | rfl | rfl <;>
      exact ⟨_, _, rfl, by decide, by decide⟩
  have hknul := validKey_nulFree _ hvk
  generalize hsrc : headersText hs ++ (bl ++ k ++ b!":" ++ rest) = src
  obtain ⟨s, hp⟩ := parse_headers (cp := Content.parse depth) (m := m) hs _ hok hsrc.symm
  obtain ⟨c, r, rfl, hc, hr⟩ := hvk
  have hup := (isUpper_iff c).2 hc
  have e1 : bl ++ c :: r ++ b!":" ++ rest = bl ++ (c :: (r ++ (c!":" :: rest))) := by simp
  have e2 : (headersText hs).length + bl.length + 1 + r.length =
      (headersText hs ++ bl ++ c :: r).length := by simp; omega
  rw [hp, e1, loop_blanks bl _ _ _ rfl hb,
    loop_cons (st' := ⟨(headersText hs).length + bl.length, none, _, .key⟩),
    loop_key r _ _ _ rfl (fun d hd => (isKeyChar_iff d).2 (hr d hd)), e2, loop]
  · have hsl : slice src ((headersText hs).length + bl.length) (headersText hs ++ bl ++ c :: r).length
        = c :: r := by
      rw [← List.length_append]
      exact slice_at (post := c!":" :: rest) (by rw [← hsrc]; simp)
    have hcol : isKeyChar c!":" = false := by decide
    rw [step]
    simp only [hcol, hsl, cstr_of_nulFree _ hknul, reserved_eq, if_pos hk, if_true]
    rfl
  · rw [step]
    simp only [upper_not_blank c hup, hup, if_true]
    rfl

example : parse (Content.parse 3) b!"A: b\nPAGE_NEXT: 3\n" 5 =
    .ok (.error (.forbidden b!"PAGE_NEXT", 14)) := by
  have h : headersText [⟨[], b!"A", b!" ", b!"b", [], 0x0a⟩] = b!"A: b\n" := rfl
  have := reserved_rejected 3 5 [⟨[], b!"A", b!" ", b!"b", [], 0x0a⟩] (by
    intro h hh
    simp only [List.mem_cons, List.not_mem_nil, or_false] at hh
    rw [hh]
    exact ⟨by simp, ⟨_, _, rfl, by decide, by decide⟩, by decide, by simp [White, Newline], by simp,
      by simp [Newline], by simp [White], by simp [White], by simp [Newline]⟩)
    [] b!"PAGE_NEXT" b!" 3\n" (by simp) (by decide)
  exact this

end Blogc.C18
