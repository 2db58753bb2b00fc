import Verif.Lemmas.BlockDocAll
import Verif.Props.C04
import Verif.Lemmas.Numbers

/-!
# Documents without NUL bytes have HTML without NUL bytes; the description of a paragraph
-/

namespace Blogc.BlockDoc

open Blogc Blogc.Spec Blogc.Content

variable {e : Str}

theorem nf_append {a b : Str} : NulFree (a ++ b) ↔ NulFree a ∧ NulFree b :=
  ⟨fun h => ⟨fun c hc => h c (by simp [hc]), fun c hc => h c (by simp [hc])⟩,
   fun h c hc => (List.mem_append.1 hc).elim (h.1 c) (h.2 c)⟩

theorem nf_cons {c : Byte} {s : Str} : NulFree (c :: s) ↔ c ≠ 0 ∧ NulFree s := by
  simp [NulFree]

theorem nf_nil : NulFree [] := by simp [NulFree]

theorem nf_flatMap {α : Type} {l : List α} {f : α → Str} (h : ∀ x ∈ l, NulFree (f x)) :
    NulFree (l.flatMap f) := by
  intro c hc
  obtain ⟨x, hx, hc⟩ := List.mem_flatMap.1 hc
  exact h x hx c hc

theorem nf_shown {c : Byte} (h : c ≠ 0) : NulFree (shown c) := by
  have : ∀ n : Fin 256, UInt8.ofFin n ≠ 0 → NulFree (shown (UInt8.ofFin n)) := by decide +kernel
  exact this c.toFin h

theorem nf_shownAll {s : Str} (h : NulFree s) : NulFree (shownAll s) :=
  nf_flatMap fun c hc => nf_shown (h c hc)

theorem nf_upto {d : Byte} {s u : Str} (h : Upto d s u) (hn : NulFree s) : NulFree u := by
  induction h with
  | nil => exact hn
  | pair x _ ih =>
    simp only [nf_cons] at hn ⊢
    exact ⟨hn.2.1, ih hn.2.2⟩
  | byte _ _ _ ih =>
    simp only [nf_cons] at hn ⊢
    exact ⟨hn.1, ih hn.2⟩

theorem nf_spaces (n : Nat) : NulFree (List.replicate n c!" ") := by
  intro c hc
  rw [List.eq_of_mem_replicate hc]
  decide

theorem nf_inline {s h : Str} (hi : Inline s h) (hn : NulFree s) : NulFree h := by
  induction hi with
  | nil => exact hn
  | char _ _ ih => exact nf_append.2 ⟨nf_shown (nf_cons.1 hn).1, ih (nf_cons.1 hn).2⟩
  | escape _ _ ih =>
    simp only [nf_cons] at hn
    exact nf_append.2 ⟨nf_shown hn.2.1, ih hn.2.2⟩
  | spaces _ _ _ ih => exact nf_append.2 ⟨nf_spaces _, ih (nf_append.1 hn).2⟩
  | lineBreak _ _ _ ih =>
    simp only [nf_append, nf_cons] at hn ⊢
    exact ⟨by decide, hn.2.1, ih hn.2.2⟩
  | lastBreak => decide
  | dash _ _ ih =>
    simp only [nf_cons] at hn ⊢
    exact ⟨by decide, ih hn.2⟩
  | enDash _ _ ih => exact nf_append.2 ⟨by decide, ih (nf_append.1 hn).2⟩
  | emDash _ ih => exact nf_append.2 ⟨by decide, ih (nf_append.1 hn).2⟩
  | bang _ _ ih =>
    simp only [nf_cons] at hn ⊢
    exact ⟨by decide, ih hn.2⟩
  | italic _ _ _ _ _ ih1 ih2 =>
    simp only [nf_append, nf_cons] at hn ⊢
    exact ⟨⟨⟨by decide, ih1 hn.1.2⟩, by decide⟩, ih2 hn.2.2⟩
  | bold _ _ _ _ ih1 ih2 =>
    simp only [nf_append, nf_cons] at hn ⊢
    exact ⟨⟨⟨by decide, ih1 hn.1.2.2⟩, by decide⟩, ih2 hn.2.2.2⟩
  | code _ _ _ ih =>
    simp only [nf_append, nf_cons] at hn ⊢
    exact ⟨⟨⟨by decide, nf_shownAll hn.1.2⟩, by decide⟩, ih hn.2.2⟩
  | codeDouble _ _ ih =>
    simp only [nf_append] at hn ⊢
    exact ⟨⟨⟨by decide, nf_shownAll hn.1.1.2⟩, by decide⟩, ih hn.2⟩
  | image h1 _ h2 _ ih =>
    simp only [nf_append] at hn ⊢
    exact ⟨⟨⟨⟨⟨by decide, nf_upto h2 hn.1.1.2⟩, by decide⟩, nf_upto h1 hn.1.1.1.1.1.1.2⟩, by decide⟩,
      ih hn.2⟩
  | link _ _ _ h2 _ ih1 ih2 =>
    simp only [nf_append] at hn ⊢
    exact ⟨⟨⟨⟨⟨by decide, nf_upto h2 hn.1.1.2⟩, by decide⟩, ih1 hn.1.1.1.1.1.1.2⟩, by decide⟩,
      ih2 hn.2⟩
  | autoLink _ h1 _ ih =>
    simp only [nf_append] at hn ⊢
    have := nf_upto h1 hn.1.1.2
    exact ⟨⟨⟨⟨⟨by decide, this⟩, by decide⟩, this⟩, by decide⟩, ih hn.2⟩

theorem nf_digit (n : Nat) (h : n < 10) : c!"0" + UInt8.ofNat n ≠ 0 := by
  have : ∀ k : Fin 10, c!"0" + UInt8.ofNat k.val ≠ 0 := by decide
  exact this ⟨n, h⟩

theorem nf_slug {t : Str} (h : NulFree t) : NulFree (slug t) := by
  intro c hc
  obtain ⟨x, hx, rfl⟩ := List.mem_map.1 hc
  have : ∀ n : Fin 256, UInt8.ofFin n ≠ 0 →
      (if UInt8.ofFin n ∈ b!"abcdefghijklmnopqrstuvwxyz0123456789" then UInt8.ofFin n
      else if UInt8.ofFin n ∈ b!"ABCDEFGHIJKLMNOPQRSTUVWXYZ" then UInt8.ofFin n + 32
      else c!"-") ≠ 0 := by decide +kernel
  exact this x.toFin (h x hx)

theorem strip_white {a b : Str} (h : ∀ c ∈ a, White c) : strip (a ++ b) = strip b := by
  obtain ⟨⟨pre, post, h1, h2, h3⟩, h4, h5⟩ := C04.strip_middle b
  refine C04.strip_unique _ _ ⟨⟨a ++ pre, post, ?_, ?_, h3⟩, h4, h5⟩
  · rw [List.append_assoc, List.append_assoc, ← List.append_assoc pre, ← h1]
  · intro c hc
    exact (List.mem_append.1 hc).elim (h c) (h2 c)

theorem fixLoop_line : ∀ (l rest cur : Str) (b : Bool) (rv : Str), OneLine l → l ≠ [] →
    fixLoop (l ++ rest) cur b rv = fixLoop rest (cur ++ l) false rv
  | [], _, _, _, _, _, h => absurd rfl h
  | c :: l, rest, cur, b, rv, h, _ => by
    rw [List.cons_append, fixLoop, if_neg (by have := h c (by simp); simp [this])]
    cases l with
    | nil => rfl
    | cons x l =>
      rw [fixLoop_line (x :: l) rest (cur ++ [c]) false rv (fun y hy => h y (by simp [hy])) (by simp)]
      simp

theorem fixLoop_ending (he : LineEnding e) (rest cur rv : Str) :
    ∃ a, (∀ c ∈ a, White c) ∧
      fixLoop (e ++ rest) cur false rv = fixLoop rest a true (rv ++ strip cur ++ b!" ") := by
  rcases he with rfl | rfl | rfl | rfl
  · exact ⟨[], by simp, rfl⟩
  · exact ⟨[], by simp, rfl⟩
  · exact ⟨b!"\n", by simp [White], rfl⟩
  · exact ⟨b!"\r", by simp [White], rfl⟩

theorem fixLoop_lines (he : LineEnding e) : ∀ (ls : List Str) (l a : Str) (b : Bool) (rv : Str),
    (∀ c ∈ a, White c) → (∀ x ∈ l :: ls, OneLine x ∧ x ≠ []) →
    fixLoop (List.intercalate e (l :: ls)) a b rv = rv ++ List.intercalate b!" " ((l :: ls).map strip)
  | [], l, a, b, rv, ha, h => by
    have := fixLoop_line l [] a b rv (h l (by simp)).1 (h l (by simp)).2
    rw [List.append_nil] at this
    rw [intercalate_one, this, fixLoop, if_neg (by simp), strip_white ha, List.map_singleton,
      intercalate_one]
  | x :: ls, l, a, b, rv, ha, h => by
    rw [intercalate_two, List.append_assoc, fixLoop_line l _ a b rv (h l (by simp)).1 (h l (by simp)).2]
    obtain ⟨a', ha', h'⟩ := fixLoop_ending he (List.intercalate e (x :: ls)) (a ++ l) rv
    rw [h', fixLoop_lines he ls x a' true _ ha' (fun y hy => h y (List.mem_cons_of_mem _ hy)),
      strip_white ha, List.map_cons (a := l), List.map_cons, intercalate_two]
    simp

theorem fixDescription_lines (he : LineEnding e) {l : Str} {ls : List Str}
    (h : ∀ x ∈ l :: ls, OneLine x ∧ x ≠ []) :
    fixDescription (List.intercalate e (l :: ls)) = shownAll (oneText (l :: ls)) := by
  unfold fixDescription oneText
  rw [fixLoop_lines he ls l [] false [] (by simp) h, InlineDoc.shownAll_eq]
  rfl

theorem nf_ended {t s : Str} (h : Ended e t s) (hn : NulFree t) : NulFree s :=
  fun c hc => hn c (ended_mem h c hc)

theorem nf_code {ls : List Str} (he : LineEnding e) (h : ∀ l ∈ ls, NulFree l) :
    NulFree (List.intercalate e (ls.map shownAll)) := by
  refine nulFree_intercalate he fun l hl => ?_
  obtain ⟨x, hx, rfl⟩ := List.mem_map.1 hl
  exact nf_shownAll (h x hx)

theorem nf_items {is : List Item} (h : ∀ l ∈ is.flatMap Item.source, NulFree l) : ∀ x ∈ is,
    ∀ l ∈ x.line :: x.more, NulFree l := by
  intro x hx l hl c hc
  rcases List.mem_cons.1 hl with rfl | hl
  · exact h (x.marker ++ x.line) (List.mem_flatMap.2 ⟨x, hx, by simp [Item.source]⟩) c
      (List.mem_append_right _ hc)
  · exact h (List.replicate x.marker.length c!" " ++ l) (List.mem_flatMap.2 ⟨x, hx, by
      rw [Item.source]
      exact List.mem_cons_of_mem _ (List.mem_map.2 ⟨l, hl, rfl⟩)⟩) c (List.mem_append_right _ hc)

theorem nf_list (he : LineEnding e) {tag : Str} {is : List Item} (ht : NulFree tag)
    (h : ∀ l ∈ is.flatMap Item.source, NulFree l) (hg : ∀ x ∈ is, x.Good e) :
    NulFree (listHtml e tag is) := by
  have hee := nulFree_ending he
  simp only [listHtml, nf_append]
  refine ⟨⟨⟨⟨⟨⟨⟨⟨by decide, ht⟩, by decide⟩, hee⟩, nf_flatMap fun x hx => ?_⟩, by decide⟩, ht⟩,
    by decide⟩, hee⟩
  simp only [nf_append]
  exact ⟨⟨⟨by decide, nf_inline (hg x hx).2 (nulFree_intercalate he (nf_items h x hx))⟩, by decide⟩, hee⟩

theorem nf_block (he : LineEnding e) {top : Bool} {ls : List Str} {p : Piece} (h : Block e top ls p)
    (hn : ∀ l ∈ ls, NulFree l) : NulFree (p.html e) := by
  have hee := nulFree_ending he
  cases h with
  | para _ _ hi =>
    simp only [Piece.html, nf_append]
    exact ⟨⟨⟨by decide, nf_inline hi (nulFree_intercalate he hn)⟩, by decide⟩, hee⟩
  | html _ => exact nf_append.2 ⟨nulFree_intercalate he hn, hee⟩
  | @code p l ls _ _ _ _ =>
    simp only [Piece.html, nf_append]
    refine ⟨⟨⟨by decide, nf_code he fun x hx c hc => ?_⟩, by decide⟩, hee⟩
    exact hn _ (List.mem_map.2 ⟨x, hx, rfl⟩) c (List.mem_append_right _ hc)
  | unordered _ _ _ _ his => exact nf_list he (by decide) hn fun x hx => (his x hx).2
  | ordered _ his => exact nf_list he (by decide) hn fun x hx => (his x hx).2.2.2
  | broken _ _ _ _ hi =>
    simp only [Piece.html, nf_append]
    exact ⟨⟨⟨by decide, nf_inline hi (nulFree_intercalate he hn)⟩, by decide⟩, hee⟩

theorem nf_doc (he : LineEnding e) {top : Bool} {s : Str} {ps : List Piece} (hd : Doc e top s ps)
    (hn : NulFree s) : ∀ p ∈ ps, NulFree (p.html e) := by
  have hee := nulFree_ending he
  induction hd with
  | nil => intro p hp; simp at hp
  | blank _ ih => exact ih (nf_append.1 hn).2
  | block hb ht _ ih =>
    intro p hp
    rcases List.mem_cons.1 hp with rfl | hp
    · exact nf_block he hb (nulFree_lines hn)
    · exact ih (nf_ended ht (nf_append.1 hn).2) p hp
  | @quote _ ws l ls qs ps t s _ _ _ _ ht _ ihq ih =>
    intro p hp
    rcases List.mem_cons.1 hp with rfl | hp
    · simp only [Piece.html, nf_append]
      refine ⟨⟨⟨by decide, nf_flatMap (ihq ?_)⟩, by decide⟩, hee⟩
      refine nf_flatMap fun x hx => nf_append.2 ⟨fun c hc => ?_, hee⟩
      exact nulFree_lines hn _ (List.mem_map.2 ⟨x, hx, rfl⟩) c (List.mem_append_right _ hc)
    · exact ih (nf_ended ht (nf_append.1 hn).2) p hp
  | header _ _ _ _ _ hi _ ih =>
    simp only [nf_append] at hn
    intro p hp
    rcases List.mem_cons.1 hp with rfl | hp
    · simp only [Piece.html, nf_append]
      have hnum : ∀ n, NulFree (decNat n) := by
        intro n c hc h0
        have := decNat_digits n c hc
        rw [h0] at this
        exact absurd this (by decide)
      exact ⟨⟨⟨⟨⟨⟨⟨⟨⟨by decide, hnum _⟩, by decide⟩, nf_slug hn.1.1.2⟩, by decide⟩,
        nf_inline hi hn.1.1.2⟩, by decide⟩, hnum _⟩, by decide⟩, hee⟩
    · exact ih hn.2 p hp
  | rule _ _ _ ih =>
    intro p hp
    rcases List.mem_cons.1 hp with rfl | hp
    · exact nf_append.2 ⟨by decide, hee⟩
    · exact ih (nf_append.1 hn).2 p hp
  | mark _ _ ih =>
    intro p hp
    rcases List.mem_cons.1 hp with rfl | hp
    · exact nf_nil
    · exact ih (nf_append.1 hn).2 p hp

/-- The lines of the paragraphs. -/
theorem doc_para {top : Bool} {s : Str} {ps : List Piece} (hd : Doc e top s ps) :
    ∀ ls h, Piece.para ls h ∈ ps → ls ≠ [] ∧ ∀ x ∈ ls, OneLine x ∧ x ≠ [] := by
  induction hd with
  | nil => intro ls h hp; simp at hp
  | blank _ ih => exact ih
  | block hb _ _ ih =>
    intro ls h hp
    rcases List.mem_cons.1 hp with rfl | hp
    · cases hb with
      | para _ hls _ => exact ⟨by simp, hls⟩
      | broken _ _ _ hls _ => exact ⟨by simp, hls⟩
    · exact ih ls h hp
  | quote _ _ _ _ _ _ _ ih => intro ls h hp; exact ih ls h (by simpa using hp)
  | header _ _ _ _ _ _ _ ih => intro ls h hp; exact ih ls h (by simpa using hp)
  | rule _ _ _ ih => intro ls h hp; exact ih ls h (by simpa using hp)
  | mark _ _ ih => intro ls h hp; exact ih ls h (by simpa using hp)

theorem doc_level {top : Bool} {s : Str} {ps : List Piece} (hd : Doc e top s ps) :
    ∀ n t h, Piece.header n t h ∈ ps → 1 ≤ n := by
  induction hd with
  | nil => intro n t h hp; simp at hp
  | blank _ ih => exact ih
  | block hb _ _ ih =>
    intro n t h hp
    rcases List.mem_cons.1 hp with rfl | hp
    · cases hb
    · exact ih n t h hp
  | quote _ _ _ _ _ _ _ ih => intro n t h hp; exact ih n t h (by simpa using hp)
  | header hk _ _ _ _ _ _ ih =>
    intro n t h hp
    rcases List.mem_cons.1 hp with hp | hp
    · injection hp with h1; rw [h1]; exact hk
    · exact ih n t h hp
  | rule _ _ _ ih => intro n t h hp; exact ih n t h (by simpa using hp)
  | mark _ _ ih => intro n t h hp; exact ih n t h (by simpa using hp)

/-! ### The other results -/

theorem firstHeader_foldl (w : Want) (hw : w.firstHeader = true) : ∀ (ps : List Piece) (o : Out),
    (ps.foldl (absorb w e) o).firstHeader =
      match o.firstHeader with
      | some x => some x
      | none => (firstTitle ps).map shownAll
  | [], o => by cases h : o.firstHeader <;> simp [firstTitle, h]
  | p :: ps, o => by
    rw [List.foldl_cons, firstHeader_foldl w hw ps]
    cases p <;> cases h : o.firstHeader <;>
      simp [absorb, firstTitle, h, hw, InlineDoc.shownAll_eq]

theorem headers_foldl (w : Want) : ∀ (ps : List Piece) (o : Out),
    (∀ n t h, Piece.header n t h ∈ ps → 1 ≤ n) →
    (ps.foldl (absorb w e) o).headers =
      if w.headers then o.headers ++ (headersOf ps).map (fun x => ⟨x.1, some (slug x.2.1), some x.2.2⟩)
      else o.headers
  | [], o, _ => by cases h : w.headers <;> simp [headersOf]
  | p :: ps, o, hl => by
    rw [List.foldl_cons, headers_foldl w ps _ fun n t h hm => hl n t h (List.mem_cons_of_mem _ hm)]
    cases p with
    | header n t h =>
      have : n ≠ 0 := by have := hl n t h (by simp); omega
      cases hw : w.headers <;> simp [absorb, headersOf, hw, Toctree.append, this, slug_eq]
    | block h => rfl
    | para ls h => rfl
    | mark => rfl

theorem description_foldl (he : LineEnding e) (w : Want) (hw : w.description = true) :
    ∀ (ps : List Piece) (o : Out),
    (∀ ls h, Piece.para ls h ∈ ps → ls ≠ [] ∧ ∀ x ∈ ls, OneLine x ∧ x ≠ []) →
    (ps.foldl (absorb w e) o).description =
      match o.description with
      | some x => some x
      | none => (firstPara ps).map (fun ls => shownAll (oneText ls))
  | [], o, _ => by cases h : o.description <;> simp [firstPara, h]
  | p :: ps, o, hl => by
    rw [List.foldl_cons, description_foldl he w hw ps _ fun ls h hm => hl ls h (List.mem_cons_of_mem _ hm)]
    cases p with
    | para ls h =>
      cases ls with
      | nil => exact absurd rfl (hl [] h (by simp)).1
      | cons l ls =>
        have := fixDescription_lines he (hl (l :: ls) h (by simp)).2
        cases hd : o.description <;> simp [absorb, firstPara, hd, hw, this]
    | block h => rfl
    | header n t h => rfl
    | mark => rfl

theorem endExcerpt_foldl (w : Want) : ∀ (ps : List Piece) (o : Out),
    (ps.foldl (absorb w e) o).endExcerpt =
      match beforeMark ps with
      | none => o.endExcerpt
      | some q => (o.rv ++ docHtml e q).length
  | [], o => rfl
  | p :: ps, o => by
    rw [List.foldl_cons, endExcerpt_foldl w ps]
    cases p <;> cases h : beforeMark ps <;>
      simp [absorb, beforeMark, h, docHtml, Piece.html, Nat.add_assoc]

theorem beforeMark_prefix : ∀ {ps q : List Piece}, beforeMark ps = some q → q <+: ps
  | [], q, h => by simp [beforeMark] at h
  | p :: ps, q, h => by
    cases hb : beforeMark ps with
    | none =>
      cases p <;> simp [beforeMark, hb] at h
      subst h; exact List.nil_prefix
    | some r =>
      have := beforeMark_prefix hb
      cases p <;> simp [beforeMark, hb] at h <;> subst h <;> exact (List.prefix_cons_inj _).2 this

theorem docHtml_append (p q : List Piece) : docHtml e (p ++ q) = docHtml e p ++ docHtml e q := by
  simp [docHtml]

end Blogc.BlockDoc
