import Verif.Props.C17

/-!
# C19: Source content always produces CONTENT and EXCERPT
-/

namespace Blogc.C19

open Blogc Blogc.Spec Blogc.Spec.Source Blogc.Source

/-- A content of one byte is lost: the file is accepted, without `RAW_CONTENT`, `CONTENT` and
`EXCERPT`. -/
theorem one_byte_violated (depth : Nat) (m : Int) (d : Doc) (hd : d.Ok) (a : Byte)
    (hc : d.content = [a]) (hne : d.headers ≠ []) :
    ∃ t, parse (Content.parse depth) d.text m = .ok (.ok t) ∧
      ∀ k, NulFree k → t.lookup k = lastValue (pairs d.headers) k := by
  obtain ⟨hs, bl, n, nls, content⟩ := d
  obtain ⟨h1, hb, hn, hnl, hnn, hcn, hcf⟩ := hd
  simp only at h1 hb hn hnl hnn hcn hcf hc hne
  subst hc
  refine ⟨(Trie.inserts (pairs hs)).1, ?_, fun k hk => C07.lookup_inserts _ (pairs_ckeys h1) k hk⟩
  generalize hsrc : (Doc.mk hs bl n nls [a]).text = src
  cases nls with
  | nil => exact absurd rfl hnn
  | cons nl nls =>
  obtain ⟨n, rfl⟩ : ∃ k, n = k + 1 := ⟨n - 1, by omega⟩
  obtain ⟨s, hp⟩ := parse_headers (cp := Content.parse depth) (m := m) (src := src) hs
    (bl ++ (0x2d :: (List.replicate n 0x2d ++ (nl :: (nls ++ [a]))))) h1
    (by rw [← hsrc]; simp [Doc.text, List.replicate_succ])
  have hnl' := (isNl_iff nl).2 (hnl nl (by simp))
  have ha : ¬ Newline a := hcf a rfl
  have hsize : (Trie.inserts (pairs hs)).1.size ≠ 0 := by
    rcases List.eq_nil_or_concat hs with h | ⟨ini, x, h⟩
    · exact absurd h hne
    · have hx : x.Ok := h1 x (by simp [h])
      rw [h, List.concat_eq_append]
      unfold pairs
      rw [List.map_append, List.map_singleton, inserts_snoc]
      exact size_pos _ _ _ (validKey_nulFree _ hx.key)
  rw [hp, loop_blanks bl _ _ _ rfl hb, loop_cons (st' := ⟨s, none, (Trie.inserts (pairs hs)).1, .separator⟩),
    loop_dashes n _ _ _ rfl, loop_cons (st' := ⟨s, none, (Trie.inserts (pairs hs)).1, .contentStart⟩),
    loop_nls nls _ _ _ rfl (fun c hc => hnl c (by simp [hc])),
    loop_cons (st' := ⟨_, none, _, .content⟩), loop, finish, if_neg hsize]
  · rw [step]; simp only [(isNl_false a).2 ha]; rfl
  · rw [step]
    have h1 : nl ≠ c!"-" := by
      have := hnl nl (by simp)
      unfold Newline at this
      rintro rfl
      revert this; decide
    simp only [if_neg h1, hnl', if_true]
  · rw [step]; rfl

/-- The three names are unset in that case. -/
theorem one_byte_witness_violated :
    (match parse (Content.parse 3) b!"TITLE: t\n---\nx" 5 with
     | .ok (.ok t) => some [t.lookup b!"TITLE", t.lookup b!"RAW_CONTENT", t.lookup b!"CONTENT",
         t.lookup b!"EXCERPT"]
     | _ => none) = some [some b!"t", none, none, none] := by decide +kernel

/-- With a content of at least two bytes, an accepted file has all three, and the excerpt is
the beginning of the content. -/
theorem content_set_partial {t : Trie Str} (depth : Nat) (m : Int) (d : Doc) (hd : d.Ok)
    (h2 : 2 ≤ d.content.length) (h : parse (Content.parse depth) d.text m = .ok (.ok t)) :
    ∃ content excerpt, t.lookup b!"RAW_CONTENT" = some d.content ∧
      t.lookup b!"CONTENT" = some content ∧ t.lookup b!"EXCERPT" = some excerpt ∧
      excerpt <+: content ∧
      ∃ b r, Content.parse depth d.content b = .ok r ∧ content = r.rv := by
  obtain ⟨r, hr, h1, h2, h3, -⟩ := finishContent_lookup (parse_doc_ok d hd h2 h)
  refine ⟨r.rv, _, h3, h1, h2, ?_, _, r, hr, rfl⟩
  split
  · exact List.prefix_rfl
  · exact ((List.takeWhile_prefix _).trans (List.take_prefix _ _))

/-- An excerpt shorter than the content. -/
example : (C17.sample b!"a\n\n...\n\nb\n").Ok ∧
    (match parse (Content.parse 3) (C17.sample b!"a\n\n...\n\nb\n").text 5 with
     | .ok (.ok t) => [t.lookup b!"CONTENT", t.lookup b!"EXCERPT"]
     | _ => []) = [some b!"<p>a</p>\n<p>b</p>\n", some b!"<p>a</p>\n"] :=
  ⟨C17.sample_ok _ (by decide) (by simp [Newline]), by decide +kernel⟩

end Blogc.C19
