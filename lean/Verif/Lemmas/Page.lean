import Verif.Model.Program
import Verif.Spec.Page
import Verif.Props.C74
import Verif.Props.C33
import Verif.Props.C20
import Verif.Props.C12
import Verif.Lemmas.Render

/-!
# A source file and the variables of its page
-/

namespace Blogc.Page

open Blogc Blogc.Spec Blogc.Spec.Page

/-! ## The name of the file -/

theorem exists_last (f : Str) : ∃ dir comp, f = dir ++ comp ∧ (∀ c, dir.getLast? = some c → Separator c) ∧
    ∀ c ∈ comp, ¬ Separator c := by
  induction f using List.reverseRecOn with
  | nil => exact ⟨[], [], rfl, by simp, by simp⟩
  | append_singleton f c ih =>
    by_cases hc : Separator c
    · exact ⟨f ++ [c], [], by simp, by simpa using hc, by simp⟩
    · obtain ⟨dir, comp, rfl, h1, h2⟩ := ih
      refine ⟨dir, comp ++ [c], by simp, h1, ?_⟩
      intro x hx
      rcases List.mem_append.1 hx with h | h
      · exact h2 x h
      · rw [List.mem_singleton.1 h]; exact hc

theorem exists_base (comp : Str) : ∃ base, (c!"." ∉ comp ∧ base = comp) ∨
    ∃ ext, c!"." ∉ ext ∧ comp = base ++ c!"." :: ext := by
  induction comp using List.reverseRecOn with
  | nil => exact ⟨[], .inl ⟨by simp, rfl⟩⟩
  | append_singleton f c ih =>
    by_cases hc : c = c!"."
    · exact ⟨f, .inr ⟨[], by simp, by rw [hc]⟩⟩
    · obtain ⟨base, ⟨h1, h2⟩ | ⟨ext, h1, h2⟩⟩ := ih
      · exact ⟨f ++ [c], .inl ⟨by simp [h1, Ne.symm hc], rfl⟩⟩
      · exact ⟨base, .inr ⟨ext ++ [c], by simp [h1, Ne.symm hc], by rw [h2]; simp⟩⟩

theorem filename (f : Str) (hne : f ≠ []) : ∃ base, BaseName f base ∧ getFilename (some f) = some base := by
  obtain ⟨dir, comp, hf, h1, h2⟩ := exists_last f
  obtain ⟨base, hb⟩ := exists_base comp
  exact ⟨base, ⟨dir, comp, hf, h1, h2, hb⟩, C33.filename_correct f comp base hne ⟨h2, dir, hf, h1⟩ hb⟩

/-! ## The table of contents -/

theorem level_le {e : Str} {top : Bool} {s : Str} {ps : List Piece} (hd : Doc e top s ps) :
    ∀ n t h, Piece.header n t h ∈ ps → n ≤ s.length := by
  induction hd with
  | nil => intro n t h hp; simp at hp
  | blank _ ih =>
    intro n t h hp
    have := ih n t h hp
    rw [List.length_append]; omega
  | block hb ht _ ih =>
    intro n t h hp
    rcases List.mem_cons.1 hp with rfl | hp
    · cases hb
    · have := ih n t h hp
      cases ht with
      | last => simp at this; omega
      | blank => rw [List.length_append, List.length_append]; omega
  | quote _ _ _ _ ht _ _ ih =>
    intro n t h hp
    have := ih n t h (by simpa using hp)
    cases ht with
    | last => simp at this; omega
    | blank => rw [List.length_append, List.length_append]; omega
  | header hk _ _ _ _ _ _ ih =>
    intro n t h hp
    rcases List.mem_cons.1 hp with hp | hp
    · injection hp with h1
      rw [h1]; simp
    · have := ih n t h hp
      rw [List.length_append]; omega
  | rule _ _ _ ih =>
    intro n t h hp
    have := ih n t h (by simpa using hp)
    rw [List.length_append]; omega
  | mark _ _ ih =>
    intro n t h hp
    have := ih n t h (by simpa using hp)
    rw [List.length_append]; omega

/-- A header as the parser reports it. -/
def toHeader (x : Nat × Str × Str) : Blogc.Toctree.Header := ⟨x.1, some (slug x.2.1), some x.2.2⟩

theorem contents (e : Str) (m : Int) (hs : List (Nat × Str × Str)) (hl : ∀ h ∈ hs, 1 ≤ h.1 ∧ h.1 < 2 ^ 63)
    (hm : -(2 ^ 31) ≤ m) (hm' : m < 2 ^ 31) :
    ∃ toc, Blogc.Toctree.render (hs.map toHeader) m (some e) = .ok toc ∧ Contents e m hs toc := by
  by_cases h0 : hs = [] ∨ m = 0
  · refine ⟨none, C35.toctree_none _ _ _ ?_, .none h0⟩
    rcases h0 with rfl | h0
    · exact .inl rfl
    · exact .inr h0
  · rw [not_or] at h0
    have hne : hs.map toHeader ≠ [] := by simpa using h0.1
    have hl' : ∀ h ∈ hs.map toHeader, 1 ≤ h.level ∧ h.level < 2 ^ 63 := by
      intro h hh
      obtain ⟨x, hx, rfl⟩ := List.mem_map.1 hh
      exact hl x hx
    obtain ⟨hp, hL⟩ := C35.lowerLevel_lowest _ hne (fun h hh => (hl' h hh).1)
    obtain ⟨toks, h1, h2⟩ := C35.toctree_correct _ m (some e) _ hne hl' hL h0.2 hm hm'
    refine ⟨_, h1, .some (top := Blogc.Toctree.lowerLevel 0 (hs.map toHeader)) h0.2 ?_ ?_ ?_⟩
    · intro h hh
      exact hL.1 _ (List.mem_map_of_mem hh)
    · obtain ⟨x, hx, he⟩ := hL.2
      obtain ⟨y, hy, rfl⟩ := List.mem_map.1 hx
      exact ⟨y, hy, he⟩
    · rw [h2, List.filter_map, List.map_map]
      rfl

theorem header_newline {e : Str} (he : LineEnding e) {top : Bool} {s : Str} {ps : List Piece} (hd : Doc e top s ps) :
    headersOf ps ≠ [] → ∃ c ∈ s, c = c!"\n" ∨ c = c!"\r" := by
  have hmem : ∃ c ∈ e, c = c!"\n" ∨ c = c!"\r" := by
    rcases he with rfl | rfl | rfl | rfl
    · exact ⟨_, List.mem_cons_self, .inl rfl⟩
    · exact ⟨_, List.mem_cons_self, .inr rfl⟩
    · exact ⟨_, List.mem_cons_self, .inr rfl⟩
    · exact ⟨_, List.mem_cons_self, .inl rfl⟩
  obtain ⟨c, hc, hn⟩ := hmem
  intro h
  cases hd with
  | nil => exact absurd rfl h
  | blank _ => exact ⟨c, by simp [hc], hn⟩
  | @block _ ls _ _ _ _ hb ht _ =>
    have : ls ≠ [] := by cases hb <;> simp [Item.source]
    obtain ⟨l, ls, rfl⟩ := List.exists_cons_of_ne_nil this
    exact ⟨c, by simp [textLines, hc], hn⟩
  | quote _ _ _ _ ht _ => exact ⟨c, by simp [textLines, hc], hn⟩
  | header _ _ _ _ _ _ _ => exact ⟨c, by simp [hc], hn⟩
  | rule _ _ _ => exact ⟨c, by simp [hc], hn⟩
  | mark _ _ => exact ⟨c, by simp [hc], hn⟩

/-- The table of contents in the table of variables. -/
theorem addResults_toc {t t' : Trie Str} {r : Content.BSt} {m : Int}
    (h : Blogc.Source.addResults m t r = .ok (.ok t')) (ht : t.lookup b!"TOCTREE" = none) :
    Blogc.Toctree.render r.headers
      (match t.lookup b!"TOCTREE_MAXDEPTH" with | some v => Blogc.Source.toInt (strtol v).1 | none => m)
      (some r.lineEnding) = .ok (t'.lookup b!"TOCTREE") := by
  unfold Blogc.Source.addResults at h
  split at h <;> cases h
  rename_i t1 h1
  rw [Blogc.Source.addContent_lookup _ _ _ (by decide), if_neg (by decide), if_neg (by decide)]
  generalize hT : Blogc.Source.insertNew (Blogc.Source.insertNew t b!"FIRST_HEADER" r.firstHeader) b!"DESCRIPTION" r.description = T at h1
  have low : ∀ k, NulFree k → k ≠ b!"FIRST_HEADER" → k ≠ b!"DESCRIPTION" → T.lookup k = t.lookup k := by
    intro k hk h1 h2
    rw [← hT, Blogc.Source.insertNew_lookup _ _ _ _ (by decide) hk, if_neg h2,
      Blogc.Source.insertNew_lookup _ _ _ _ (by decide) hk, if_neg h1]
  have hno : T.lookup b!"TOCTREE" = none := by rw [low _ (by decide) (by decide) (by decide), ht]
  rw [← low b!"TOCTREE_MAXDEPTH" (by decide) (by decide) (by decide)]
  have toc : ∀ x : Int, Blogc.Source.insertToc T (Blogc.Toctree.render r.headers x (some r.lineEnding)) = .ok (.ok t1) →
      Blogc.Toctree.render r.headers x (some r.lineEnding) = .ok (t1.lookup b!"TOCTREE") := by
    intro x hx
    unfold Blogc.Source.insertToc at hx
    split at hx
    · rename_i h; cases hx; rw [h, hno]
    · rename_i v h; cases hx; rw [h, Trie.lookup_insert _ _ _ _ (by decide) (by decide), if_pos rfl]
    · cases hx
  unfold Blogc.Source.tableOfContents at h1
  split at h1
  · rename_i hh
    cases h1
    rw [hno, C35.toctree_none _ _ _ (.inl hh)]
  · split at h1
    · rename_i v hv
      split at h1
      · cases h1
      · rw [hv]; exact toc _ h1
    · rename_i hv
      rw [hv]; exact toc _ h1

/-! ## Numbers -/

theorem toInt_small (n : Nat) (h : n < 2 ^ 31) : Blogc.Source.toInt (n : Int) = n := by
  unfold Blogc.Source.toInt; omega

theorem depth_strtol {v : Str} {m : Int} (h : Depth (some v) m) :
    (strtol v).2 = [] ∧ Blogc.Source.toInt (strtol v).1 = m := by
  cases h with
  | some hd hn =>
    rw [Render.strtol_digits hd]
    refine ⟨rfl, ?_⟩
    have : min (2 ^ 63 - 1) (numeral v : Int) = numeral v := by omega
    rw [this]
    exact toInt_small _ hn

theorem depth_range {o : Option Str} {m : Int} (h : Depth o m) : -(2 ^ 31) ≤ m ∧ m < 2 ^ 31 := by
  cases h with
  | none => decide
  | some _ hn => omega

theorem maxdepth {o : Option Str} {m : Int} (h : Depth o m) : Program.maxdepthOf o = m := by
  cases o with
  | none => cases h; rfl
  | some v => exact (depth_strtol h).2

/-! ## The file -/

theorem readText_ok {files : Program.Files} {f bytes : Str} {fuel : Nat} (hf : files f = some bytes)
    (hu : WellFormedUtf8 (dropBom bytes)) (hl : bytes.length + 2 < fuel) :
    Program.readText files fuel f = .ok (some (dropBom bytes)) := by
  unfold Program.readText
  simp only [hf, (C12.load_text bytes fuel hl).1 hu]

theorem parse_shows {p : Post} {bytes : Str} (hw : p.Written bytes) {m : Int} (hm : -(2 ^ 31) ≤ m) (hm' : m < 2 ^ 31)
    {depth : Nat} (hd : p.doc.content.length < depth) :
    ∃ t toc n, Blogc.Source.parse (Content.parse depth) p.doc.text m = .ok (.ok t) ∧
      (if p.header b!"TOCTREE_MAXDEPTH" = none then n = m else Depth (p.header b!"TOCTREE_MAXDEPTH") n) ∧
      Contents p.ending n (headersOf p.parts) toc ∧
      ∀ k, NulFree k → k ≠ b!"FILENAME" → ∀ base, t.lookup k = p.value base toc k := by
  have hn : NulFree p.doc.content := hw.doc.content
  have hck := Blogc.Source.pairs_ckeys hw.doc.headers
  have hdoc := fun b => C74.documented_partial p.ending p.doc.content p.parts hw.ending hw.parts hn depth hd b
  obtain ⟨t, ht⟩ := C17.accepted depth m p.doc hw.doc hw.length.1 hw.length.2 hm hm'
    (fun b => let ⟨r, hr, _⟩ := hdoc b; ⟨r, hr⟩) (fun v hv => by
      obtain ⟨x, hx⟩ := hw.depth
      unfold Post.header at hx
      rw [hv] at hx
      exact (depth_strtol hx).1)
  have hfin := Blogc.Source.parse_doc_ok p.doc hw.doc hw.length.1 ht
  obtain ⟨k1, k2⟩ := C17.headers_kept_partial depth m p.doc hw.doc hw.length.1 ht
  have k3 := C17.raw_content depth m p.doc hw.doc hw.length.1 ht
  obtain ⟨s1, s2, s3, s4⟩ := C74.source_file depth m p.doc hw.doc p.ending p.parts hw.ending hw.parts hw.length.1 hd ht
  have hwins := C20.source_wins depth m p.doc hw.doc hw.length.1 ht
  -- the limit
  obtain ⟨n, hn1, hn2, hn3⟩ : ∃ n : Int,
      (if p.header b!"TOCTREE_MAXDEPTH" = none then n = m else Depth (p.header b!"TOCTREE_MAXDEPTH") n) ∧
      (-(2 ^ 31) ≤ n ∧ n < 2 ^ 31) ∧
      n = (match p.header b!"TOCTREE_MAXDEPTH" with | some v => Blogc.Source.toInt (strtol v).1 | none => m) := by
    obtain ⟨x, hx⟩ := hw.depth
    cases hv : p.header b!"TOCTREE_MAXDEPTH" with
    | none => exact ⟨m, by rw [if_pos rfl], ⟨hm, hm'⟩, rfl⟩
    | some v =>
      rw [hv] at hx
      exact ⟨x, by rw [if_neg (by simp)]; exact hx, depth_range hx, (depth_strtol hx).2.symm⟩
  have hlev : ∀ h ∈ headersOf p.parts, 1 ≤ h.1 ∧ h.1 < 2 ^ 63 := by
    intro h hh
    unfold headersOf at hh
    obtain ⟨pc, hpc, he⟩ := List.mem_filterMap.1 hh
    cases pc with
    | header l ti ht =>
      cases he
      have := level_le hw.parts _ _ _ hpc
      have := hw.length.2
      exact ⟨BlockDoc.doc_level hw.parts _ _ _ hpc, by show l < 2 ^ 63; omega⟩
    | _ => cases he
  obtain ⟨toc, htoc, hcont⟩ := contents p.ending n (headersOf p.parts) hlev hn2.1 hn2.2
  refine ⟨t, toc, n, ht, hn1, hcont, ?_⟩
  intro k hk hfn base
  unfold Post.value
  rw [if_neg hfn]
  by_cases e1 : k = b!"RAW_CONTENT"
  · rw [if_pos e1, e1, k3]
  rw [if_neg e1]
  by_cases e2 : k = b!"CONTENT"
  · rw [if_pos e2, e2, s1]
  rw [if_neg e2]
  by_cases e3 : k = b!"EXCERPT"
  · rw [if_pos e3, e3, s2]; rfl
  rw [if_neg e3]
  unfold Post.generated
  cases hv : p.header k with
  | some v =>
    rw [Option.some_or]
    by_cases hc : k ∈ Spec.Source.contentNames
    · simp only [Spec.Source.contentNames, List.mem_cons, List.not_mem_nil, or_false, e1, e2, e3, false_or] at hc
      exact hwins k v (by simpa using hc) hv
    · rw [k2 k hk hc]; exact hv
  | none =>
    rw [Option.none_or]
    by_cases e4 : k = b!"FIRST_HEADER"
    · rw [if_pos e4, e4]; exact s3 (e4 ▸ hv)
    rw [if_neg e4]
    by_cases e5 : k = b!"DESCRIPTION"
    · rw [if_pos e5, e5]; exact s4 (e5 ▸ hv)
    rw [if_neg e5]
    by_cases e6 : k = b!"TOCTREE"
    · rw [if_pos e6, e6]
      subst e6
      obtain ⟨r, hr, ha⟩ := Blogc.Source.finishContent_ok hfin
      have look : ∀ k, NulFree k → k ≠ b!"RAW_CONTENT" →
          ((Trie.inserts (Spec.Source.pairs p.doc.headers)).1.insert b!"RAW_CONTENT" p.doc.content).1.lookup k =
            p.header k := by
        intro k hk hne
        rw [Trie.lookup_insert _ _ _ _ (by decide) hk, if_neg hne, C07.lookup_inserts _ hck k hk]
        rfl
      have hb : (Trie.inserts (Spec.Source.pairs p.doc.headers)).1.lookup b!"TOCTREE" = none := by
        rw [C07.lookup_inserts _ hck _ (by decide)]; exact hv
      have hres := addResults_toc ha (by rw [look _ (by decide) (by decide)]; exact hv)
      rw [look _ (by decide) (by decide), ← hn3] at hres
      rw [hb] at hr
      obtain ⟨r', hr', -, -, -, hh, -, hle⟩ := hdoc true
      have : r = r' := by
        have h1 : Content.parse depth p.doc.content true = .ok r := hr
        rw [h1] at hr'
        cases hr'
        rfl
      subst this
      rw [if_pos rfl] at hh
      have hh' : r.headers = (headersOf p.parts).map toHeader := hh
      by_cases h0 : headersOf p.parts = []
      · rw [h0, List.map_nil] at hh' htoc
        rw [hh', C35.toctree_none _ _ _ (.inl rfl)] at hres
        rw [C35.toctree_none _ _ _ (.inl rfl)] at htoc
        cases htoc
        exact (Res.ok.inj hres).symm
      · rw [hh', hle (header_newline hw.ending hw.parts h0), htoc] at hres
        exact (Res.ok.inj hres).symm
    · rw [if_neg e6]
      rw [k2 k hk (by simp [Spec.Source.contentNames, e1, e2, e3, e4, e5, e6])]
      exact hv

/-- A file that is written as the manual says is read, and the page has the variables the manual says. -/
theorem readSource_shows {files : Program.Files} {p : Post} {f bytes : Str} {md : Option Str} {m : Int}
    (hf : files f = some bytes) (hne : f ≠ []) (hw : p.Written bytes) (hm : Depth md m) {depth : Nat}
    (hd : bytes.length < depth) :
    ∃ t, (∀ fuel, bytes.length + 2 < fuel → Program.readSource files depth fuel md f = .ok (some t)) ∧
      Shows f m p t.lookup := by
  have hlen : p.doc.content.length < depth := by
    have h1 : p.doc.content.length ≤ p.doc.text.length := by
      unfold Spec.Source.Doc.text; rw [List.length_append]; omega
    have h2 : (dropBom bytes).length ≤ bytes.length := by
      unfold dropBom; split
      · rw [List.length_drop]; omega
      · omega
    rw [hw.bytes] at h2
    omega
  have hr := depth_range hm
  obtain ⟨t, toc, n, h1, h2, h3, h4⟩ := parse_shows hw hr.1 hr.2 hlen
  obtain ⟨base, hb, hg⟩ := filename f hne
  refine ⟨Program.setFilename f t, ?_, base, toc, n, hb, h2, h3, ?_⟩
  · intro fuel hl
    unfold Program.readSource
    rw [readText_ok hf (by rw [hw.bytes]; exact hw.utf8) hl, hw.bytes]
    simp only [Run.bind_ok, maxdepth hm, h1]
    rfl
  · intro k hk _
    unfold Program.setFilename
    rw [hg]
    simp only
    rw [Trie.lookup_insert _ _ _ _ (by decide) hk]
    by_cases e : k = b!"FILENAME"
    · rw [if_pos e]; unfold Post.value; rw [if_pos e]
    · rw [if_neg e]; exact h4 k hk e base

end Blogc.Page
