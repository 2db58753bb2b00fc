import Verif.Lemmas.SourceSound
import Verif.Lemmas.ContentHeaders
import Verif.Props.C35

/-!
# The table the source parser returns
-/

namespace Blogc.Source

open Blogc Blogc.Spec Blogc.Spec.Source
open Blogc.Config (slice_at cstr_of_nulFree)

variable {cp : Str → Bool → Run Content.BSt} {m : Int} {src : Str}

theorem insertNew_lookup (t : Trie Str) (name : Str) (o : Option Str) (k : Str)
    (hn : NulFree name) (hk : NulFree k) :
    (insertNew t name o).lookup k =
      if k = name then (match t.lookup name with | some v => some v | none => o) else t.lookup k := by
  unfold insertNew
  cases o with
  | none =>
    by_cases h : k = name
    · subst h; rw [if_pos rfl]; cases t.lookup k <;> rfl
    · rw [if_neg h]
  | some v =>
    cases ht : t.lookup name with
    | none =>
      simp only
      rw [if_pos trivial, Trie.lookup_insert t _ _ _ hn hk]
    | some x =>
      simp only
      rw [if_neg (by simp)]
      by_cases h : k = name
      · subst h; rw [if_pos rfl]; exact ht
      · rw [if_neg h]

theorem insertToc_lookup {t t' : Trie Str} {x : Res (Option Str)} (h : insertToc t x = .ok (.ok t'))
    (k : Str) (hk : NulFree k) (hne : k ≠ b!"TOCTREE") : t'.lookup k = t.lookup k := by
  unfold insertToc at h
  split at h
  · cases h; rfl
  · cases h; rw [Trie.lookup_insert _ _ _ _ (by decide) hk, if_neg hne]
  · cases h

theorem toc_lookup {t t' : Trie Str} {r : Content.BSt} (h : tableOfContents m t r = .ok (.ok t'))
    (k : Str) (hk : NulFree k) (hne : k ≠ b!"TOCTREE" ∨ r.headers = []) :
    t'.lookup k = t.lookup k := by
  unfold tableOfContents at h
  split at h
  · cases h; rfl
  · rename_i hh
    have hne' : k ≠ b!"TOCTREE" := hne.resolve_right hh
    split at h
    · split at h
      · cases h
      · exact insertToc_lookup h k hk hne'
    · exact insertToc_lookup h k hk hne'

theorem addContent_lookup (t : Trie Str) (r : Content.BSt) (k : Str) (hk : NulFree k) :
    (addContent t r).lookup k =
      if k = b!"EXCERPT" then some (if r.endExcerpt = 0 then r.rv else cstr (r.rv.take r.endExcerpt))
      else if k = b!"CONTENT" then some r.rv else t.lookup k := by
  unfold addContent
  rw [Trie.lookup_insert _ _ _ _ (by decide) hk, Trie.lookup_insert _ _ _ _ (by decide) hk]

/-- What the results of the content parser do to the table. -/
theorem addResults_lookup {t t' : Trie Str} {r : Content.BSt}
    (h : addResults m t r = .ok (.ok t')) :
    t'.lookup b!"CONTENT" = some r.rv ∧
    t'.lookup b!"EXCERPT" =
      some (if r.endExcerpt = 0 then r.rv else cstr (r.rv.take r.endExcerpt)) ∧
    (∀ k, NulFree k → k ∉ [b!"CONTENT", b!"EXCERPT", b!"FIRST_HEADER", b!"DESCRIPTION", b!"TOCTREE"] →
      t'.lookup k = t.lookup k) ∧
    (t'.lookup b!"FIRST_HEADER" =
      match t.lookup b!"FIRST_HEADER" with | some v => some v | none => r.firstHeader) ∧
    (t'.lookup b!"DESCRIPTION" =
      match t.lookup b!"DESCRIPTION" with | some v => some v | none => r.description) ∧
    (r.headers = [] → t'.lookup b!"TOCTREE" = t.lookup b!"TOCTREE") := by
  unfold addResults at h
  split at h <;> cases h
  rename_i t1 ht
  have key : ∀ k, NulFree k → k ≠ b!"EXCERPT" → k ≠ b!"CONTENT" →
      (k ≠ b!"TOCTREE" ∨ r.headers = []) → (addContent t1 r).lookup k =
        (insertNew (insertNew t b!"FIRST_HEADER" r.firstHeader) b!"DESCRIPTION" r.description).lookup k := by
    intro k hk h1 h2 h3
    rw [addContent_lookup _ _ _ hk, if_neg h1, if_neg h2, toc_lookup ht k hk h3]
  refine ⟨?_, ?_, ?_, ?_, ?_, ?_⟩
  · rw [addContent_lookup _ _ _ (by decide)]; rfl
  · rw [addContent_lookup _ _ _ (by decide)]; rfl
  · intro k hk hne
    simp only [List.mem_cons, List.not_mem_nil, or_false, not_or] at hne
    rw [key k hk hne.2.1 hne.1 (.inl hne.2.2.2.2), insertNew_lookup _ _ _ _ (by decide) hk,
      if_neg hne.2.2.2.1, insertNew_lookup _ _ _ _ (by decide) hk, if_neg hne.2.2.1]
  · rw [key _ (by decide) (by decide) (by decide) (.inl (by decide)),
      insertNew_lookup _ _ _ _ (by decide) (by decide), if_neg (by decide),
      insertNew_lookup _ _ _ _ (by decide) (by decide), if_pos rfl]
  · rw [key _ (by decide) (by decide) (by decide) (.inl (by decide)),
      insertNew_lookup _ _ _ _ (by decide) (by decide), if_pos rfl,
      insertNew_lookup _ _ _ _ (by decide) (by decide), if_neg (by decide)]
  · intro hh
    rw [key _ (by decide) (by decide) (by decide) (.inr hh),
      insertNew_lookup _ _ _ _ (by decide) (by decide), if_neg (by decide),
      insertNew_lookup _ _ _ _ (by decide) (by decide), if_neg (by decide)]

/-- An accepted content. -/
theorem finishContent_ok {t t' : Trie Str} {text : Str}
    (h : finishContent cp m t text = .ok (.ok t')) :
    ∃ r, cp text (decide (t.lookup b!"TOCTREE" = none)) = .ok r ∧
      addResults m (t.insert b!"RAW_CONTENT" text).1 r = .ok (.ok t') := by
  unfold finishContent at h
  have e : (t.insert b!"RAW_CONTENT" text).1.lookup b!"TOCTREE" = t.lookup b!"TOCTREE" := by
    rw [Trie.lookup_insert _ _ _ _ (by decide) (by decide), if_neg (by decide)]
  simp only [e] at h
  cases hcp : cp text (decide (t.lookup b!"TOCTREE" = none)) with
  | ub => rw [hcp] at h; cases h
  | out => rw [hcp] at h; cases h
  | ok r => rw [hcp] at h; exact ⟨r, rfl, h⟩

/-- The rules of lookup for an accepted content, in terms of the table before it. -/
theorem finishContent_lookup {t t' : Trie Str} {text : Str} {depth : Nat}
    (h : finishContent (Content.parse depth) m t text = .ok (.ok t')) :
    ∃ r, Content.parse depth text (decide (t.lookup b!"TOCTREE" = none)) = .ok r ∧
      t'.lookup b!"CONTENT" = some r.rv ∧
      t'.lookup b!"EXCERPT" =
        some (if r.endExcerpt = 0 then r.rv else cstr (r.rv.take r.endExcerpt)) ∧
      t'.lookup b!"RAW_CONTENT" = some text ∧
      (∀ k, NulFree k → k ∉ contentNames → t'.lookup k = t.lookup k) ∧
      (∀ k, k ∈ [b!"FIRST_HEADER", b!"DESCRIPTION", b!"TOCTREE"] → ∀ v, t.lookup k = some v →
        t'.lookup k = some v) ∧
      (t.lookup b!"FIRST_HEADER" = none → t'.lookup b!"FIRST_HEADER" = r.firstHeader) ∧
      (t.lookup b!"DESCRIPTION" = none → t'.lookup b!"DESCRIPTION" = r.description) := by
  obtain ⟨r, hr, ha⟩ := finishContent_ok h
  obtain ⟨h1, h2, h3, h4, h5, h6⟩ := addResults_lookup ha
  have raw : ∀ k, NulFree k → k ≠ b!"RAW_CONTENT" →
      (t.insert b!"RAW_CONTENT" text).1.lookup k = t.lookup k := by
    intro k hk hne
    rw [Trie.lookup_insert _ _ _ _ (by decide) hk, if_neg hne]
  rw [raw _ (by decide) (by decide)] at h4 h5
  refine ⟨r, hr, h1, h2, ?_, ?_, ?_, ?_, ?_⟩
  · rw [h3 _ (by decide) (by decide), Trie.lookup_insert _ _ _ _ (by decide) (by decide), if_pos rfl]
  · intro k hk hne
    simp only [contentNames, List.mem_cons, List.not_mem_nil, or_false, not_or] at hne
    rw [h3 k hk (by simp [hne]), raw k hk hne.1]
  · intro k hk v hv
    simp only [List.mem_cons, List.not_mem_nil, or_false] at hk
    rcases hk with rfl | rfl | rfl
    · rw [h4, hv]
    · rw [h5, hv]
    · rw [hv] at hr
      have := Content.parseBlocks_headers false depth text ⟨true, true, true, false⟩ none
      have hr' : Content.parseBlocks false depth text ⟨true, true, true, false⟩ none = .ok r := hr
      rw [hr'] at this
      rw [h6 (this.1 rfl), raw _ (by decide) (by decide), hv]
  · intro hn; rw [h4, hn]
  · intro hn; rw [h5, hn]

/-! ## From the specification to the parts -/

def toRaw (h : Header) : Raw := ⟨h.blanks, h.key, h.lead ++ h.value ++ h.trail, h.nl⟩

theorem toRaw_text (h : Header) : (toRaw h).text = h.text := by
  simp [toRaw, Raw.text, Header.text]

theorem toRaw_ok {h : Header} (hok : h.Ok) : (toRaw h).Ok := by
  refine ⟨hok.blanks, hok.key, hok.allowed, ?_, hok.nl⟩
  intro c hc
  simp only [toRaw, List.mem_append] at hc
  rcases hc with (hc | hc) | hc
  · exact (hok.lead c hc).2
  · exact (hok.value c hc).1
  · exact (hok.trail c hc).2

theorem white_ne_zero {c : Byte} (h : White c) : c ≠ 0 := by
  rintro rfl
  revert h
  unfold White
  decide

theorem strip_value {h : Header} (hok : h.Ok) : strip (cstr (toRaw h).raw) = h.value := by
  rw [cstr_of_nulFree]
  · exact C04.strip_unique _ _ ⟨⟨h.lead, h.trail, rfl, fun c hc => (hok.lead c hc).1,
      fun c hc => (hok.trail c hc).1⟩, hok.value_first, hok.value_last⟩
  · intro c hc
    simp only [toRaw, List.mem_append] at hc
    rcases hc with (hc | hc) | hc
    · exact white_ne_zero (hok.lead c hc).1
    · exact (hok.value c hc).2
    · exact white_ne_zero (hok.trail c hc).1

theorem toRaw_pairs {hs : List Header} (hok : ∀ h ∈ hs, h.Ok) :
    rawPairs (hs.map toRaw) = pairs hs := by
  unfold rawPairs pairs
  rw [List.map_map]
  refine List.map_congr_left fun h hh => ?_
  show (h.key, _) = _
  rw [strip_value (hok h hh)]

theorem toRaw_headersText (hs : List Header) : rawText (hs.map toRaw) = headersText hs := by
  unfold rawText headersText
  rw [List.flatMap_map]
  congr 1
  funext h
  exact toRaw_text h

theorem pairs_ckeys {hs : List Header} (hok : ∀ h ∈ hs, h.Ok) : CKeys (pairs hs) := by
  intro kv hkv
  obtain ⟨h, hh, rfl⟩ := List.mem_map.1 hkv
  exact validKey_nulFree _ (hok h hh).key

theorem parse_headers (hs : List Header) (r : Str) (hok : ∀ h ∈ hs, h.Ok)
    (hsrc : src = headersText hs ++ r) :
    ∃ s, parse cp src m = loop cp m src r (headersText hs).length
      { start := s, key := none, rv := (Trie.inserts (pairs hs)).1, state := .start } := by
  obtain ⟨s, h⟩ := loop_lines (cp := cp) (m := m) (src := src) (hs.map toRaw) [] [] r St.init
    (by
      intro x hx
      obtain ⟨h, hh, rfl⟩ := List.mem_map.1 hx
      exact toRaw_ok (hok h hh))
    (by rw [toRaw_headersText, hsrc]; simp) rfl rfl rfl
  refine ⟨s, ?_⟩
  rw [toRaw_headersText, toRaw_pairs hok] at h
  unfold parse
  rw [← hsrc] at h
  exact h

/-- A source file is processed as its parts say. -/
theorem parse_doc (d : Doc) (hd : d.Ok) (h2 : 2 ≤ d.content.length) :
    parse cp d.text m =
      wrap (d.text.length - 1) (finishContent cp m (Trie.inserts (pairs d.headers)).1 d.content) := by
  obtain ⟨hs, bl, n, nls, content⟩ := d
  obtain ⟨h1, hb, hn, hnl, hne, hc, hcf⟩ := hd
  simp only at h1 hb hn hnl hne hc hcf h2
  match content, h2 with
  | a :: b :: w, _ =>
    obtain ⟨w', z, hz⟩ : ∃ w' z, b :: w = w' ++ [z] :=
      ⟨(b :: w).dropLast, (b :: w).getLast (by simp), (List.dropLast_append_getLast _).symm⟩
    have ha := hcf a rfl
    rw [hz] at hc ⊢
    obtain ⟨n, rfl⟩ : ∃ k, n = k + 1 := ⟨n - 1, by omega⟩
    generalize htxt : (Doc.mk hs bl (n + 1) nls (a :: (w' ++ [z]))).text = src
    have hsrc : src = headersText hs ++ bl ++ List.replicate (n + 1) 0x2d ++ nls ++ (a :: w' ++ [z]) := by
      rw [← htxt]; rfl
    obtain ⟨s, hp⟩ := parse_headers (cp := cp) (m := m) (src := src) hs
      (bl ++ List.replicate (n + 1) 0x2d ++ nls ++ (a :: w' ++ [z])) h1 (by simp [hsrc])
    rw [hp, loop_tail (headersText hs) bl nls w' n a z _ rfl hb hnl hne ha hsrc,
      cstr_of_nulFree _ (by intro c hc'; exact hc c hc')]
    rfl

theorem parse_doc_ok {t : Trie Str} (d : Doc) (hd : d.Ok) (h2 : 2 ≤ d.content.length)
    (h : parse cp d.text m = .ok (.ok t)) :
    finishContent cp m (Trie.inserts (pairs d.headers)).1 d.content = .ok (.ok t) := by
  rw [parse_doc d hd h2] at h
  unfold wrap at h
  split at h <;> simp_all

end Blogc.Source
