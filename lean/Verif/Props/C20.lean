import Verif.Props.C17

/-!
# C20: Source-provided FIRST_HEADER, DESCRIPTION and TOCTREE win
-/

namespace Blogc.C20

open Blogc Blogc.Spec Blogc.Spec.Source Blogc.Source

/-- In every accepted file, with every content, a `FIRST_HEADER`, `DESCRIPTION` or `TOCTREE`
given in the header lines is what the table has. -/
theorem source_wins {t : Trie Str} (depth : Nat) (m : Int) (d : Doc) (hd : d.Ok)
    (h2 : 2 ≤ d.content.length) (h : parse (Content.parse depth) d.text m = .ok (.ok t))
    (k v : Str) (hk : k ∈ [b!"FIRST_HEADER", b!"DESCRIPTION", b!"TOCTREE"])
    (hv : lastValue (pairs d.headers) k = some v) : t.lookup k = some v := by
  obtain ⟨r, -, -, -, -, -, h5, -⟩ := finishContent_lookup (parse_doc_ok d hd h2 h)
  refine h5 k hk v ?_
  rw [C07.lookup_inserts _ (pairs_ckeys hd.headers) k ?_, hv]
  simp only [List.mem_cons, List.not_mem_nil, or_false] at hk
  rcases hk with rfl | rfl | rfl <;> decide

/-- Without one, the generated first header and description are used. -/
theorem generated_otherwise {t : Trie Str} (depth : Nat) (m : Int) (d : Doc) (hd : d.Ok)
    (h2 : 2 ≤ d.content.length) (h : parse (Content.parse depth) d.text m = .ok (.ok t)) :
    ∃ b r, Content.parse depth d.content b = .ok r ∧
      (lastValue (pairs d.headers) b!"FIRST_HEADER" = none →
        t.lookup b!"FIRST_HEADER" = r.firstHeader) ∧
      (lastValue (pairs d.headers) b!"DESCRIPTION" = none →
        t.lookup b!"DESCRIPTION" = r.description) := by
  obtain ⟨r, hr, -, -, -, -, -, h6, h7⟩ := finishContent_lookup (parse_doc_ok d hd h2 h)
  refine ⟨_, r, hr, ?_, ?_⟩
  · intro hn; exact h6 (by rw [C07.lookup_inserts _ (pairs_ckeys hd.headers) _ (by decide), hn])
  · intro hn; exact h7 (by rw [C07.lookup_inserts _ (pairs_ckeys hd.headers) _ (by decide), hn])

/-- A file with a given description and table of contents, and a generated first header. -/
def sample : Doc :=
  ⟨[⟨[], b!"DESCRIPTION", b!" ", b!"mine", [], 0x0a⟩, ⟨[], b!"TOCTREE", [], [], [], 0x0a⟩],
    [], 3, b!"\n", b!"# h\n\ntext\n"⟩

example : sample.Ok ∧ 2 ≤ sample.content.length ∧
    lastValue (pairs sample.headers) b!"DESCRIPTION" = some b!"mine" ∧
    (match parse (Content.parse 3) sample.text 5 with
     | .ok (.ok t) => [t.lookup b!"DESCRIPTION", t.lookup b!"TOCTREE", t.lookup b!"FIRST_HEADER"]
     | _ => []) = [some b!"mine", some [], some b!"h"] := by
  refine ⟨⟨?_, by simp [sample], by decide, by simp [sample, Newline], by simp [sample], by decide,
    by simp [sample, Newline]⟩, by decide, by decide, by decide +kernel⟩
  intro h hh
  simp only [sample, List.mem_cons, List.not_mem_nil, or_false] at hh
  rcases hh with rfl | rfl
  · exact ⟨by simp, ⟨_, _, rfl, by decide, by decide⟩, by decide,
      by simp [White, Newline], by simp, by simp [Newline], by simp [White],
      by simp [White], by simp [Newline]⟩
  · exact ⟨by simp, ⟨_, _, rfl, by decide, by decide⟩, by decide,
      by simp, by simp, by simp, by simp, by simp, by simp [Newline]⟩

end Blogc.C20
