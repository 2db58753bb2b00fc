import Verif.Lemmas.Config
import Verif.Spec.ConfigLayout

/-!
# Runs of the configuration parser over freely laid out documents
-/

namespace Blogc.Config

open Blogc Blogc.Spec Blogc.Spec.Config

variable {src : Str} {lists : List Str} {H : Hist} {cur start : Nat} {c : Byte}

/-- Characters a state skips, also at the end of the text. -/
theorem walk_skip (state : State) (key value : Option Str) (P : Byte → Prop)
    (hstep : ∀ cur c, src[cur]? = some c → P c →
      step src lists (mid H cur start state key value) =
        .next (mid H (cur + 1) start state key value))
    (w pre post : Str) (hsrc : src = pre ++ w ++ post) (hw : ∀ c ∈ w, P c) :
    Reach (step src lists) (mid H pre.length start state key value)
      (mid H (pre ++ w).length start state key value) := by
  induction w generalizing pre with
  | nil => simpa using Reach.refl _
  | cons c w ih =>
    have h1 : src = pre ++ c :: (w ++ post) := by simp [hsrc]
    refine Reach.head (hstep _ c (get_at h1) (hw c (by simp))) ?_
    have := ih (pre ++ [c]) (by simp [hsrc]) (fun x hx => hw x (by simp [hx]))
    simpa using this

/-- White space between the lines. -/
theorem run_skip (w pre post : Str) (hsrc : src = pre ++ w ++ post)
    (hw : ∀ c ∈ w, c = c!" " ∨ c = c!"\t" ∨ isNl c = true) :
    Reach (step src lists) (mid H pre.length start .start none none)
      (mid H (pre ++ w).length start .start none none) := by
  refine walk_skip .start none none _ ?_ w pre post hsrc hw
  intro cur c hc hP
  rw [step_mid hc _ _ _ (Or.inl rfl)]
  rcases hP with rfl | rfl | hP
  · simp [dispatch, mid, adv]
  · simp [dispatch, mid, adv]
  · have h1 : c ≠ c!"#" := fun e => by rw [e] at hP; exact absurd hP (by decide)
    have h2 : c ≠ c!";" := fun e => by rw [e] at hP; exact absurd hP (by decide)
    simp [dispatch, mid, adv, hP, h1, h2]

theorem ending_cons {e : Str} (h : Ending e) :
    ∃ c e', e = c :: e' ∧ isNl c = true ∧ ∀ x ∈ e', isNl x = true := by
  rcases h with rfl | rfl | rfl | rfl
  · exact ⟨_, _, rfl, rfl, by simp⟩
  · exact ⟨_, _, rfl, rfl, by simp⟩
  · exact ⟨_, _, rfl, rfl, by decide⟩
  · exact ⟨_, _, rfl, rfl, by decide⟩

/-- The end of a line, if its first character has been read. -/
theorem run_rest (w pre post : Str) (hsrc : src = pre ++ w ++ post) (hw : ∀ c ∈ w, isNl c = true) :
    Reach (step src lists) (mid H pre.length start .start none none)
      (mid H (pre ++ w).length start .start none none) :=
  run_skip w pre post hsrc fun c hc => .inr (.inr (hw c hc))

/-- A comment, up to the line end. -/
theorem run_note (m : Byte) (t pre post e : Str) (hsrc : src = pre ++ (m :: t ++ e) ++ post)
    (hm : m = c!"#" ∨ m = c!";") (ht : NoNl t) (he : Ending e) :
    Reach (step src lists) (mid H pre.length start .start none none)
      (mid H (pre ++ (m :: t ++ e)).length start .start none none) := by
  obtain ⟨c, e', rfl, hc, he'⟩ := ending_cons he
  have h1 : src = pre ++ m :: (t ++ (c :: e') ++ post) := by simp [hsrc]
  refine Reach.head (b := mid H (pre ++ (m :: t ++ [c])).length start .start none none) ?_ ?_
  · rw [step_mid (get_at h1) _ _ _ (Or.inl rfl)]
    have hmn : isNl m = false := by rcases hm with rfl | rfl <;> decide
    have hsk : skipComment src pre.length = pre.length + (t.length + 1) := by
      have hd : src.drop pre.length = (m :: t) ++ (c :: (e' ++ post)) := by
        rw [h1]; simp
      have htw : (src.drop pre.length).takeWhile (fun c => !isNl c) = m :: t := by
        rw [hd, List.takeWhile_append_of_pos]
        · simp [hc]
        · intro c hc
          rcases List.mem_cons.1 hc with rfl | hc
          · simp [hmn]
          · rw [isNl_false_of (fun e => ht.1 (e ▸ hc)) (fun e => ht.2 (e ▸ hc))]
            rfl
      unfold skipComment
      rw [htw]
      rfl
    have hcond : (m == c!"#" || m == c!";") = true := by rcases hm with rfl | rfl <;> decide
    simp only [dispatch, mid, adv, hcond, if_true, hsk]
    simp [Nat.add_assoc]
  · have := run_rest (src := src) (lists := lists) (H := H) (start := start) e' (pre ++ (m :: t ++ [c]))
      post (by simp [hsrc]) he'
    have e1 : pre ++ (m :: t ++ [c]) ++ e' = pre ++ (m :: t ++ c :: e') := by simp
    rw [e1] at this
    exact this

/-- A blank line or a comment. -/
theorem run_void {l : Line} {t e : Str} (pre post : Str) (hsrc : src = pre ++ (t ++ e) ++ post)
    (hl : l.OkPre) (hw : Written l t) (he : Ending e) :
    Reach (step src lists) (mid H pre.length start .start none none)
      (mid H (pre ++ (t ++ e)).length start .start none none) := by
  cases hw with
  | blank hi =>
    refine run_skip _ pre post hsrc ?_
    intro c hc
    rcases List.mem_append.1 hc with hc | hc
    · exact (hi c hc).imp id .inl
    · obtain ⟨x, e', rfl, hx, he'⟩ := ending_cons he
      rcases List.mem_cons.1 hc with rfl | hc
      · exact .inr (.inr hx)
      · exact .inr (.inr (he' c hc))
  | @comment m t i hi =>
    refine (run_skip i pre (m :: t ++ e ++ post) (by simp [hsrc])
      (fun c hc => (hi c hc).imp id .inl)).trans ?_
    have := run_note (src := src) (lists := lists) (H := H) (start := start) m t (pre ++ i) post e
      (by simp [hsrc]) hl.1 hl.2 he
    have e1 : pre ++ i ++ (m :: t ++ e) = pre ++ (i ++ m :: t ++ e) := by simp
    rw [e1] at this
    exact this
  | pair => exact absurd hl id
  | item => exact absurd hl id

/-- A section header, up to the bracket. -/
theorem run_head (n i pre post : Str) (hsrc : src = pre ++ (i ++ b!"[" ++ n ++ b!"]") ++ post)
    (hi : Indent i) (hn : NameOk n) :
    ∃ start', Reach (step src lists) (mid H pre.length start .start none none)
      (mid (H ++ [(n, if n ∈ lists then .list [] else .map .nil)])
        (pre ++ (i ++ b!"[" ++ n ++ b!"]")).length start' .start none none) := by
  obtain ⟨hne, hnul, hnl, hbr⟩ := hn
  have h0 := run_skip (src := src) (lists := lists) (H := H) (start := start) i pre
    (b!"[" ++ n ++ b!"]" ++ post) (by simp [hsrc]) (fun c hc => (hi c hc).imp id .inl)
  have e0 : pre ++ (i ++ b!"[" ++ n ++ b!"]") = (pre ++ i) ++ (b!"[" ++ n ++ b!"]") := by simp
  rw [e0]
  rw [e0] at hsrc
  generalize pre ++ i = p at h0 hsrc ⊢
  refine ⟨p.length + 1, h0.trans ?_⟩
  have h1 : src = p ++ c!"[" :: (n ++ b!"]" ++ post) := by simp [hsrc]
  refine Reach.head (b := mid H (p.length + 1) start .sectionStart none none) ?_ ?_
  · rw [step_mid (get_at h1) _ _ _ (Or.inl rfl)]
    simp [dispatch, mid, adv, isNl]
  obtain ⟨c, n', rfl⟩ := List.exists_cons_of_ne_nil hne
  have h2 : src = (p ++ b!"[") ++ c :: (n' ++ b!"]" ++ post) := by simp [hsrc]
  refine Reach.head (b := mid H (p.length + 2) (p.length + 1) .section none none) ?_ ?_
  · have := get_at h2
    simp only [List.length_append, List.length_singleton] at this
    rw [step_mid this _ _ _ (Or.inl rfl)]
    simp [dispatch, mid, adv]
  have hw := walk_adv (src := src) (lists := lists) (H := H) (start := p.length + 1) .section none
    none (fun c => c ≠ c!"]" ∧ isNl c = false)
    (by
      intro cur c hc _ hP
      rw [step_mid hc _ _ _ (Or.inl rfl)]
      simp [dispatch, mid, adv, hP.1, hP.2])
    n' (p ++ b!"[" ++ [c]) (b!"]" ++ post) (by simp [hsrc]) (by simp)
    (by
      intro x hx
      exact ⟨fun e => hbr (by simp [← e, hx]), isNl_false_of (fun e => hnl.1 (by simp [← e, hx]))
        (fun e => hnl.2 (by simp [← e, hx]))⟩)
  simp only [List.append_assoc, List.length_append, List.length_singleton] at hw
  refine Reach.trans (by simpa using hw) ?_
  have h3 : src = (p ++ b!"[" ++ c :: n') ++ c!"]" :: post := by simp [hsrc]
  have hsl : slice src (p.length + 1) (p ++ b!"[" ++ c :: n').length = c :: n' := by
    have := slice_at (src := src) (pre := p ++ b!"[") (w := c :: n') (post := b!"]" ++ post)
      (by simp [hsrc])
    simpa using this
  have e3 : (p ++ (b!"[" ++ c :: n' ++ b!"]")).length = (p ++ b!"[" ++ c :: n').length + 1 := by
    simp; omega
  refine Reach.one ?_
  rw [show p.length + (1 + (1 + n'.length)) = (p ++ b!"[" ++ c :: n').length by simp; omega]
  rw [step_mid (get_at h3) _ _ _ (Or.inl rfl)]
  simp only [dispatch, mid, endSection, hsl, cstr_of_nulFree _ hnul, adv, ids_append,
    Trie.inserts_append, e3]
  simp

/-- The first character of a key or of an item. -/
structure Starts (c : Byte) : Prop where
  hash : c ≠ c!"#"
  semicolon : c ≠ c!";"
  bracket : c ≠ c!"["
  blank : c ≠ c!" " ∧ c ≠ c!"\t" ∧ isNl c = false

theorem start_map {n : Str} {t : Trie Str} (hc : src[cur]? = some c) (h : Starts c) :
    step src lists (mid (H ++ [(n, .map t)]) cur start .start none none) =
      .next (mid (H ++ [(n, .map t)]) cur cur .key none none) := by
  rw [step_mid hc _ _ _ (Or.inl rfl)]
  have e1 : (c == c!"#" || c == c!";") = false := by simp [h.hash, h.semicolon]
  have e2 : (c == c!" " || c == c!"\t" || isNl c) = false := by simp [h.blank]
  have e3 : (c == c!"[") = false := by simp [h.bracket]
  have hd := deref_mid H n (.map t) cur start .start none none
  simp only [dispatch]
  have e4 : (mid (H ++ [(n, Sec.map t)]) cur start State.start none none).state = .start := rfl
  have e5 : (mid (H ++ [(n, Sec.map t)]) cur start State.start none none).sect =
    some H.length := by simp [mid]
  simp only [e4, e1, e2, e3, e5, hd, Bool.false_eq_true, if_false]
  simp [mid]

theorem start_list {n : Str} {l : List Str} (hc : src[cur]? = some c) (h : Starts c) :
    step src lists (mid (H ++ [(n, .list l)]) cur start .start none none) =
      .next (mid (H ++ [(n, .list l)]) cur cur .listStart none (some [])) := by
  rw [step_mid hc _ _ _ (Or.inl rfl)]
  have e1 : (c == c!"#" || c == c!";") = false := by simp [h.hash, h.semicolon]
  have e2 : (c == c!" " || c == c!"\t" || isNl c) = false := by simp [h.blank]
  have e3 : (c == c!"[") = false := by simp [h.bracket]
  have hd := deref_mid H n (.list l) cur start .start none none
  simp only [dispatch]
  have e4 : (mid (H ++ [(n, Sec.list l)]) cur start State.start none none).state = .start := rfl
  have e5 : (mid (H ++ [(n, Sec.list l)]) cur start State.start none none).sect =
    some H.length := by simp [mid]
  simp only [e4, e1, e2, e3, e5, hd, Bool.false_eq_true, if_false]
  simp [mid]

theorem gap_blank {g : Str} (h : Gap g) : ∀ c ∈ g, isBlank c = true := by
  intro c hc
  rcases h c hc with rfl | rfl | rfl | rfl <;> decide

theorem gap_white {g : Str} (h : Gap g) : ∀ c ∈ g, White c :=
  fun c hc => isBlank_white (gap_blank h c hc)

theorem gap_nulFree {g : Str} (h : Gap g) : NulFree g := by
  intro c hc
  rcases h c hc with rfl | rfl | rfl | rfl <;> decide

theorem gap_noNl {g : Str} (h : Gap g) : ∀ c ∈ g, isNl c = false := by
  intro c hc
  rcases h c hc with rfl | rfl | rfl | rfl <;> decide

/-- The blanks and tabs a line starts with, and the rest of the gap. -/
theorem gap_split {g : Str} (h : Gap g) : ∃ i f, g = i ++ f ∧ Indent i ∧ Gap f ∧
    ∀ c, f.head? = some c → Starts c := by
  induction g with
  | nil => exact ⟨[], [], rfl, by simp [Indent], by simp [Gap], by simp⟩
  | cons c g ih =>
    have hg : Gap g := fun x hx => h x (by simp [hx])
    obtain ⟨i, f, h1, h2, h3, h4⟩ := ih hg
    by_cases hc : c = c!" " ∨ c = c!"\t"
    · refine ⟨c :: i, f, by simp [h1], ?_, h3, h4⟩
      intro x hx
      rcases List.mem_cons.1 hx with rfl | hx
      · exact hc
      · exact h2 x hx
    · refine ⟨[], c :: g, rfl, by simp [Indent], h, ?_⟩
      intro x hx
      simp only [List.head?_cons, Option.some.injEq] at hx
      subst hx
      rcases h c (by simp) with rfl | rfl | rfl | rfl
      · exact absurd (.inl rfl) hc
      · exact absurd (.inr rfl) hc
      · exact ⟨by decide, by decide, by decide, by decide, by decide, by decide⟩
      · exact ⟨by decide, by decide, by decide, by decide, by decide, by decide⟩

theorem starts_first {v : Str} (h : FirstOk v) (ht : Trimmed v) : ∀ c, v.head? = some c → Starts c := by
  intro c hc
  have hw := ht.1 c hc
  obtain ⟨_, f1, f2, f3⟩ := h
  rw [hc] at f1 f2 f3
  refine ⟨by simpa using f1, by simpa using f2, by simpa using f3, ?_, ?_, ?_⟩
  · rintro rfl; exact hw (by simp [White])
  · rintro rfl; exact hw (by simp [White])
  · refine isNl_false_of ?_ ?_ <;> rintro rfl <;> exact hw (by simp [White])

/-- A gap is skipped. -/
theorem run_gap (state : State) (key value : Option Str)
    (hs : state = .valueStart ∨ state = .listStart ∨ state = .valuePostQuoted ∨ state = .listPostQuoted)
    (g pre post : Str) (hsrc : src = pre ++ g ++ post) (hg : Gap g) :
    Reach (step src lists) (mid H pre.length start state key value)
      (mid H (pre ++ g).length start state key value) := by
  refine walk_skip state key value (fun c => isBlank c = true) ?_ g pre post hsrc (gap_blank hg)
  intro cur c hc hP
  have : c ≠ c!"\\" := fun e => by rw [e] at hP; exact absurd hP (by decide)
  rw [step_mid hc _ _ _ (Or.inr this)]
  rcases hs with rfl | rfl | rfl | rfl <;> simp [dispatch, mid, adv, hP]

/-- A key, up to the value. -/
theorem run_key_free {n : Str} {t : Trie Str} (f k g pre post : Str)
    (hsrc : src = pre ++ (f ++ k ++ g ++ b!"=") ++ post) (hpost : post ≠ []) (hk : KeyOk k)
    (hf : Gap f) (hf' : ∀ c, f.head? = some c → Starts c) (hg : Gap g) :
    Reach (step src lists) (mid (H ++ [(n, .map t)]) pre.length start .start none none)
      (mid (H ++ [(n, .map t)]) (pre ++ (f ++ k ++ g ++ b!"=")).length pre.length .valueStart
        (some (f ++ k ++ g)) (some [])) := by
  obtain ⟨hnul, hnl, heq, htrim, hfirst⟩ := hk
  obtain ⟨c, r, hc, hst⟩ : ∃ c r, f ++ k ++ g ++ b!"=" ++ post = c :: r ∧ Starts c := by
    cases f with
    | nil =>
      obtain ⟨c, k', rfl⟩ := List.exists_cons_of_ne_nil hfirst.1
      exact ⟨c, _, rfl, starts_first hfirst htrim c rfl⟩
    | cons c f => exact ⟨c, _, rfl, hf' c rfl⟩
  have h1 : src = pre ++ c :: r := by rw [← hc, hsrc]; simp
  refine Reach.head (start_map (get_at h1) hst) ?_
  refine (walk_adv .key none none (fun c => c ≠ c!"=" ∧ isNl c = false) ?_ (f ++ k ++ g) pre
    (b!"=" ++ post) (by simp [hsrc]) (by simp) ?_).trans ?_
  · intro cur c hc hlt hP
    rw [step_mid hc _ _ _ (Or.inl rfl)]
    have : cur + 1 ≠ src.length := by omega
    simp [dispatch, mid, adv, hP.1, hP.2, this]
  · have hgap : ∀ g, Gap g → ∀ x ∈ g, x ≠ c!"=" ∧ isNl x = false := by
      intro g hg x hx
      refine ⟨?_, gap_noNl hg x hx⟩
      rintro rfl
      have := gap_blank hg _ hx
      exact absurd this (by decide)
    intro x hx
    simp only [List.mem_append] at hx
    rcases hx with (hx | hx) | hx
    · exact hgap f hf x hx
    · exact ⟨fun e => heq (e ▸ hx), isNl_false_of (fun e => hnl.1 (e ▸ hx))
        (fun e => hnl.2 (e ▸ hx))⟩
    · exact hgap g hg x hx
  have h2 : src = (pre ++ (f ++ k ++ g)) ++ c!"=" :: post := by simp [hsrc]
  have hsl : slice src pre.length (pre ++ (f ++ k ++ g)).length = f ++ k ++ g :=
    slice_at (post := b!"=" ++ post) (by simp [hsrc])
  have hnul' : NulFree (f ++ k ++ g) := by
    intro x hx
    simp only [List.mem_append] at hx
    rcases hx with (hx | hx) | hx
    · exact gap_nulFree hf x hx
    · exact hnul x hx
    · exact gap_nulFree hg x hx
  have hlt := lt_at h2 hpost
  have hlen : (pre ++ (f ++ k ++ g ++ b!"=")).length = (pre ++ (f ++ k ++ g)).length + 1 := by
    simp; omega
  rw [hlen]
  refine Reach.one ?_
  rw [step_mid (get_at h2) _ _ _ (Or.inl rfl)]
  generalize (pre ++ (f ++ k ++ g)).length = m at *
  have hne : m + 1 ≠ src.length := by omega
  simp only [dispatch, mid, hsl, cstr_of_nulFree _ hnul', adv]
  simp [hne]

/-- A value with its line end. -/
theorem run_value {n : Str} {t : Trie Str} (K k v : Str) (q : Bool) (g e p post : Str)
    (hsrc : src = p ++ (renderValue v q ++ g ++ e) ++ post) (hK : strip K = k) (hv : ValueOk v q)
    (hg : Gap g) (he : Ending e) :
    Reach (step src lists)
      (mid (H ++ [(n, .map t)]) p.length start .valueStart (some K) (some []))
      (mid (H ++ [(n, .map (t.insert k v).1)]) (p ++ (renderValue v q ++ g ++ e)).length start
        .start none none) := by
  obtain ⟨c0, e', rfl, hc0, he'⟩ := ending_cons he
  -- it is enough to come behind the first character of the line end
  suffices h : Reach (step src lists)
      (mid (H ++ [(n, .map t)]) p.length start .valueStart (some K) (some []))
      (mid (H ++ [(n, .map (t.insert k v).1)]) (p ++ (renderValue v q ++ g ++ [c0])).length start
        .start none none) by
    refine h.trans ?_
    have := run_rest (src := src) (lists := lists) (H := H ++ [(n, .map (t.insert k v).1)])
      (start := start) e' (p ++ (renderValue v q ++ g ++ [c0])) post (by simp [hsrc]) he'
    have e1 : p ++ (renderValue v q ++ g ++ [c0]) ++ e' = p ++ (renderValue v q ++ g ++ c0 :: e') := by
      simp
    rw [e1] at this
    exact this
  cases q with
  | true =>
    simp only [renderValue, if_true, ValueOk] at hsrc hv ⊢
    have hs1 : src = p ++ c!"\"" :: (esc v ++ b!"\"" ++ g ++ (c0 :: e') ++ post) := by simp [hsrc]
    refine Reach.head (b := mid (H ++ [(n, .map t)]) (p.length + 1) start
      .valueQuote (some K) (some [])) ?_ ?_
    · rw [step_mid (get_at hs1) _ _ _ (Or.inr (by decide))]
      simp [dispatch, mid, adv, isBlank]
    have hw := walk_esc (src := src) (lists := lists) (H := H ++ [(n, .map t)])
      (start := start) .valueQuote (some K) (Or.inl rfl) v [] (p ++ b!"\"")
      (b!"\"" ++ g ++ (c0 :: e') ++ post) (by simp [hs1])
    simp only [List.length_append, List.length_singleton, List.nil_append] at hw
    refine hw.trans ?_
    have hs2 : src = (p ++ b!"\"" ++ esc v) ++ c!"\"" :: (g ++ (c0 :: e') ++ post) := by simp [hs1]
    have hs3 : src = (p ++ b!"\"" ++ esc v ++ b!"\"") ++ g ++ ((c0 :: e') ++ post) := by simp [hs1]
    have hs4 : src = (p ++ b!"\"" ++ esc v ++ b!"\"" ++ g) ++ c0 :: (e' ++ post) := by simp [hs1]
    refine Reach.head (b := mid (H ++ [(n, .map (t.insert k v).1)])
      (p.length + 1 + (esc v).length + 1) start .valuePostQuoted none none) ?_ ?_
    · have hg := get_at hs2
      simp only [List.length_append, List.length_singleton] at hg
      rw [step_mid hg _ _ _ (Or.inr (by decide))]
      have hi := insertValue_mid H n t (p.length + 1 + (esc v).length) start .valueQuote
        K (some v) v
      have e4 : (mid (H ++ [(n, .map t)]) (p.length + 1 + (esc v).length) start .valueQuote
        (some K) (some v)).value = some v := rfl
      have e5 : (mid (H ++ [(n, .map t)]) (p.length + 1 + (esc v).length) start .valueQuote
        (some K) (some v)).state = .valueQuote := rfl
      simp only [dispatch, e4, e5, cstr_of_nulFree v hv, hi, hK]
      rfl
    have hgap := run_gap (src := src) (lists := lists) (H := H ++ [(n, .map (t.insert k v).1)])
      (start := start) .valuePostQuoted none none (by simp) g (p ++ b!"\"" ++ esc v ++ b!"\"")
      ((c0 :: e') ++ post) hs3 hg
    rw [show (p ++ b!"\"" ++ esc v ++ b!"\"").length = p.length + 1 + (esc v).length + 1 by
      simp only [List.length_append, List.length_singleton]] at hgap
    refine hgap.trans (Reach.one ?_)
    rw [step_mid (get_at hs4) _ _ _ (Or.inl rfl)]
    have hb : isBlank c0 = false := by
      have : ∀ c : Byte, isNl c = true → isBlank c = false := by
        intro c hc
        simp only [isNl, Bool.or_eq_true, beq_iff_eq] at hc
        rcases hc with rfl | rfl <;> decide
      exact this c0 hc0
    have hlen : (p ++ (b!"\"" ++ esc v ++ b!"\"" ++ g ++ [c0])).length =
        (p ++ b!"\"" ++ esc v ++ b!"\"" ++ g).length + 1 := by simp; omega
    rw [hlen]
    generalize (p ++ b!"\"" ++ esc v ++ b!"\"" ++ g).length = m
    simp [dispatch, mid, adv, hb, hc0]
  | false =>
    simp only [renderValue, ValueOk, Bool.false_eq_true, if_false] at hsrc hv ⊢
    obtain ⟨hnul, hnl, hbs, htrim, hq⟩ := hv
    have hc0b : c0 ≠ c!"\\" := fun e => by rw [e] at hc0; exact absurd hc0 (by decide)
    have hlen : (p ++ (v ++ g ++ [c0])).length = (p ++ (v ++ g)).length + 1 := by simp; omega
    have hs : src = p ++ (v ++ g) ++ c0 :: (e' ++ post) := by simp [hsrc]
    -- to state `value` with the text collected
    obtain ⟨V, hV, hVn, hreach⟩ : ∃ V, rstrip V = v ∧ NulFree V ∧ Reach (step src lists)
        (mid (H ++ [(n, .map t)]) p.length start .valueStart (some K) (some []))
        (mid (H ++ [(n, .map t)]) (p ++ (v ++ g)).length start .value (some K) (some V)) := by
      cases v with
      | nil =>
        refine ⟨[], rfl, by simp [NulFree], ?_⟩
        have hgap := run_gap (src := src) (lists := lists) (H := H ++ [(n, .map t)])
          (start := start) .valueStart (some K) (some []) (by simp) g p (c0 :: (e' ++ post))
          (by simp [hs]) hg
        refine hgap.trans (Reach.one ?_)
        have hs1 : src = p ++ g ++ c0 :: (e' ++ post) := by simp [hs]
        rw [step_mid (get_at hs1) _ _ _ (Or.inr hc0b)]
        have hb : isBlank c0 = false ∧ (c0 == c!"\"") = false := by
          simp only [isNl, Bool.or_eq_true, beq_iff_eq] at hc0
          rcases hc0 with rfl | rfl <;> decide
        simp [dispatch, mid, hb, hc0]
      | cons c v =>
        refine ⟨c :: v ++ g, ?_, ?_, ?_⟩
        · rw [C04.rstrip_eq]
          have h1 : ∀ x ∈ g.reverse, isSpace x = true := fun x hx =>
            (white_isSpace x).2 (gap_white hg x (List.mem_reverse.1 hx))
          have h2 := rstrip_trimmed (c :: v) htrim
          rw [C04.rstrip_eq] at h2
          rw [List.reverse_append, List.dropWhile_append_of_pos h1]
          exact h2
        · intro x hx
          rcases List.mem_append.1 hx with hx | hx
          · exact hnul x hx
          · exact gap_nulFree hg x hx
        have hs1 : src = p ++ c :: (v ++ g ++ c0 :: (e' ++ post)) := by simp [hs]
        have hcw : ¬ White c := htrim.1 c rfl
        have hcb : isBlank c = false := by
          cases h : isBlank c with
          | false => rfl
          | true => exact absurd (isBlank_white h) hcw
        have hcq : (c == c!"\"") = false := by
          have : c ≠ c!"\"" := by simpa using hq
          simp [this]
        have hcn : isNl c = false :=
          isNl_false_of (fun e => hnl.1 (by simp [← e])) (fun e => hnl.2 (by simp [← e]))
        have hlt := lt_at hs1 (by simp)
        refine Reach.head (b := mid (H ++ [(n, .map t)]) (p.length + 1) start .value
          (some K) (some [c])) ?_ ?_
        · rw [step_mid (get_at hs1) _ _ _ (Or.inr (fun e => hbs (by simp [← e])))]
          have : p.length + 1 ≠ src.length := by omega
          simp [dispatch, mid, hcb, hcq, hcn, this, St.push, advO, adv]
        · have := walk_push (src := src) (lists := lists) (H := H ++ [(n, .map t)])
            (start := start) .value (some K)
            (fun c => c ≠ c!"\\" ∧ isNl c = false)
            (by
              intro cur c v hc hlt hP
              rw [step_mid hc _ _ _ (Or.inr hP.1)]
              have : cur + 1 ≠ src.length := by omega
              simp [dispatch, mid, adv, advO, St.push, hP.2, this])
            (v ++ g) (p ++ [c]) (c0 :: (e' ++ post)) [c] (by simp [hs]) (by simp)
            (by
              intro x hx
              rcases List.mem_append.1 hx with hx | hx
              · exact ⟨fun e => hbs (by simp [← e, hx]),
                  isNl_false_of (fun e => hnl.1 (by simp [← e, hx]))
                    (fun e => hnl.2 (by simp [← e, hx]))⟩
              · refine ⟨?_, gap_noNl hg x hx⟩
                rintro rfl
                have := gap_blank hg _ hx
                exact absurd this (by decide))
          simpa using this
    refine hreach.trans (Reach.one ?_)
    rw [step_mid (get_at hs) _ _ _ (Or.inr hc0b), hlen]
    have hi := insertValue_mid H n t (p ++ (v ++ g)).length start .value K (some V) v
    have e4 : (mid (H ++ [(n, .map t)]) (p ++ (v ++ g)).length start .value
      (some K) (some V)).value = some V := rfl
    have e5 : (mid (H ++ [(n, .map t)]) (p ++ (v ++ g)).length start .value
      (some K) (some V)).state = .value := rfl
    simp only [dispatch, e5, hc0, Bool.true_or, if_true, endValue, lastPush, Option.bind_eq_bind,
      Option.bind_some, e4, cstr_of_nulFree V hVn, hV, hi, hK]
    simp [mid, advO, adv]

/-- An item with its line end. -/
theorem run_item_free {n : Str} {l : List Str} (f v : Str) (q : Bool) (g e p post : Str)
    (hsrc : src = p ++ (f ++ renderValue v q ++ g ++ e) ++ post) (hv : ValueOk v q)
    (hfirst : q = false → FirstOk v) (hf : Gap f) (hf' : ∀ c, f.head? = some c → Starts c)
    (hg : Gap g) (he : Ending e) :
    Reach (step src lists)
      (mid (H ++ [(n, .list l)]) p.length start .start none none)
      (mid (H ++ [(n, .list (l ++ [v]))]) (p ++ (f ++ renderValue v q ++ g ++ e)).length p.length
        .start none none) := by
  obtain ⟨c0, e', rfl, hc0, he'⟩ := ending_cons he
  suffices h : Reach (step src lists)
      (mid (H ++ [(n, .list l)]) p.length start .start none none)
      (mid (H ++ [(n, .list (l ++ [v]))]) (p ++ (f ++ renderValue v q ++ g ++ [c0])).length p.length
        .start none none) by
    refine h.trans ?_
    have := run_rest (src := src) (lists := lists) (H := H ++ [(n, .list (l ++ [v]))])
      (start := p.length) e' (p ++ (f ++ renderValue v q ++ g ++ [c0])) post (by simp [hsrc]) he'
    have e1 : p ++ (f ++ renderValue v q ++ g ++ [c0]) ++ e' =
      p ++ (f ++ renderValue v q ++ g ++ c0 :: e') := by simp
    rw [e1] at this
    exact this
  obtain ⟨c, r, hc, hst⟩ : ∃ c r, f ++ renderValue v q ++ g ++ (c0 :: e') ++ post = c :: r ∧ Starts c := by
    cases f with
    | nil =>
      cases q with
      | true =>
        exact ⟨c!"\"", _, rfl, ⟨by decide, by decide, by decide, by decide, by decide, by decide⟩⟩
      | false =>
        have hF := hfirst rfl
        obtain ⟨c, v', rfl⟩ := List.exists_cons_of_ne_nil hF.1
        exact ⟨c, _, rfl, starts_first hF hv.2.2.2.1 c rfl⟩
    | cons c f => exact ⟨c, _, rfl, hf' c rfl⟩
  have h1 : src = p ++ c :: r := by rw [← hc, hsrc]; simp
  refine Reach.head (start_list (get_at h1) hst) ?_
  refine (run_gap .listStart none (some []) (by simp) f p
    (renderValue v q ++ g ++ (c0 :: e') ++ post) (by simp [hsrc]) hf).trans ?_
  have e0 : p ++ (f ++ renderValue v q ++ g ++ [c0]) = (p ++ f) ++ (renderValue v q ++ g ++ [c0]) := by
    simp
  rw [e0]
  have hsrc : src = (p ++ f) ++ (renderValue v q ++ g ++ c0 :: e') ++ post := by simp [hsrc]
  generalize p.length = st0
  generalize p ++ f = p at hsrc ⊢
  cases q with
  | true =>
    simp only [renderValue, if_true, ValueOk] at hsrc hv ⊢
    have hs1 : src = p ++ c!"\"" :: (esc v ++ b!"\"" ++ g ++ (c0 :: e') ++ post) := by simp [hsrc]
    refine Reach.head (b := mid (H ++ [(n, .list l)]) (p.length + 1) st0
      .listQuote none (some [])) ?_ ?_
    · rw [step_mid (get_at hs1) _ _ _ (Or.inr (by decide))]
      simp [dispatch, mid, adv, isBlank]
    have hw := walk_esc (src := src) (lists := lists) (H := H ++ [(n, .list l)])
      (start := st0) .listQuote none (Or.inr rfl) v [] (p ++ b!"\"")
      (b!"\"" ++ g ++ (c0 :: e') ++ post) (by simp [hs1])
    simp only [List.length_append, List.length_singleton, List.nil_append] at hw
    refine hw.trans ?_
    have hs2 : src = (p ++ b!"\"" ++ esc v) ++ c!"\"" :: (g ++ (c0 :: e') ++ post) := by simp [hs1]
    have hs3 : src = (p ++ b!"\"" ++ esc v ++ b!"\"") ++ g ++ ((c0 :: e') ++ post) := by simp [hs1]
    have hs4 : src = (p ++ b!"\"" ++ esc v ++ b!"\"" ++ g) ++ c0 :: (e' ++ post) := by simp [hs1]
    refine Reach.head (b := mid (H ++ [(n, .list (l ++ [v]))])
      (p.length + 1 + (esc v).length + 1) st0 .listPostQuoted none none) ?_ ?_
    · have hg := get_at hs2
      simp only [List.length_append, List.length_singleton] at hg
      rw [step_mid hg _ _ _ (Or.inr (by decide))]
      have hi := appendItem_mid H n l (p.length + 1 + (esc v).length) st0 .listQuote
        none (some v) v
      have e4 : (mid (H ++ [(n, .list l)]) (p.length + 1 + (esc v).length) st0 .listQuote
        none (some v)).value = some v := rfl
      have e5 : (mid (H ++ [(n, .list l)]) (p.length + 1 + (esc v).length) st0 .listQuote
        none (some v)).state = .listQuote := rfl
      simp only [dispatch, e4, e5, cstr_of_nulFree v hv, hi]
      rfl
    have hgap := run_gap (src := src) (lists := lists) (H := H ++ [(n, .list (l ++ [v]))])
      (start := st0) .listPostQuoted none none (by simp) g (p ++ b!"\"" ++ esc v ++ b!"\"")
      ((c0 :: e') ++ post) hs3 hg
    rw [show (p ++ b!"\"" ++ esc v ++ b!"\"").length = p.length + 1 + (esc v).length + 1 by
      simp only [List.length_append, List.length_singleton]] at hgap
    refine hgap.trans (Reach.one ?_)
    rw [step_mid (get_at hs4) _ _ _ (Or.inl rfl)]
    have hb : isBlank c0 = false := by
      simp only [isNl, Bool.or_eq_true, beq_iff_eq] at hc0
      rcases hc0 with rfl | rfl <;> decide
    have hlen : (p ++ (b!"\"" ++ esc v ++ b!"\"" ++ g ++ [c0])).length =
        (p ++ b!"\"" ++ esc v ++ b!"\"" ++ g).length + 1 := by simp; omega
    rw [hlen]
    generalize (p ++ b!"\"" ++ esc v ++ b!"\"" ++ g).length = m
    simp [dispatch, mid, adv, hb, hc0]
  | false =>
    simp only [renderValue, ValueOk, Bool.false_eq_true, if_false] at hsrc hv ⊢
    obtain ⟨hnul, hnl, hbs, htrim, hq⟩ := hv
    have hF := hfirst rfl
    have hc0b : c0 ≠ c!"\\" := fun e => by rw [e] at hc0; exact absurd hc0 (by decide)
    have hlen : (p ++ (v ++ g ++ [c0])).length = (p ++ (v ++ g)).length + 1 := by simp; omega
    have hs : src = p ++ (v ++ g) ++ c0 :: (e' ++ post) := by simp [hsrc]
    have hreach : Reach (step src lists)
        (mid (H ++ [(n, .list l)]) p.length st0 .listStart none (some []))
        (mid (H ++ [(n, .list l)]) (p ++ (v ++ g)).length st0 .list none (some (v ++ g))) := by
      obtain ⟨c, v, rfl⟩ := List.exists_cons_of_ne_nil hF.1
      have hs1 : src = p ++ c :: (v ++ g ++ c0 :: (e' ++ post)) := by simp [hs]
      have hcw : ¬ White c := htrim.1 c rfl
      have hcb : isBlank c = false := by
        cases h : isBlank c with
        | false => rfl
        | true => exact absurd (isBlank_white h) hcw
      have hcq : (c == c!"\"") = false := by
        have : c ≠ c!"\"" := by simpa using hq
        simp [this]
      refine Reach.head (b := mid (H ++ [(n, .list l)]) (p.length + 1) st0 .list
        none (some [c])) ?_ ?_
      · rw [step_mid (get_at hs1) _ _ _ (Or.inr (fun e => hbs (by simp [← e])))]
        simp [dispatch, mid, hcb, hcq, St.push, advO, adv]
      · have := walk_push (src := src) (lists := lists) (H := H ++ [(n, .list l)])
          (start := st0) .list none
          (fun c => c ≠ c!"\\" ∧ isNl c = false)
          (by
            intro cur c v hc hlt hP
            rw [step_mid hc _ _ _ (Or.inr hP.1)]
            have : cur + 1 ≠ src.length := by omega
            simp [dispatch, mid, adv, advO, St.push, hP.2, this])
          (v ++ g) (p ++ [c]) (c0 :: (e' ++ post)) [c] (by simp [hs]) (by simp)
          (by
            intro x hx
            rcases List.mem_append.1 hx with hx | hx
            · exact ⟨fun e => hbs (by simp [← e, hx]),
                isNl_false_of (fun e => hnl.1 (by simp [← e, hx]))
                  (fun e => hnl.2 (by simp [← e, hx]))⟩
            · refine ⟨?_, gap_noNl hg x hx⟩
              rintro rfl
              have := gap_blank hg _ hx
              exact absurd this (by decide))
        simpa using this
    refine hreach.trans (Reach.one ?_)
    rw [step_mid (get_at hs) _ _ _ (Or.inr hc0b), hlen]
    have hi := appendItem_mid H n l (p ++ (v ++ g)).length st0 .list none (some (v ++ g)) v
    have e4 : (mid (H ++ [(n, .list l)]) (p ++ (v ++ g)).length st0 .list none (some (v ++ g))).value =
      some (v ++ g) := rfl
    have e5 : (mid (H ++ [(n, .list l)]) (p ++ (v ++ g)).length st0 .list none (some (v ++ g))).state =
      .list := rfl
    have hVn : NulFree (v ++ g) := by
      intro x hx
      rcases List.mem_append.1 hx with hx | hx
      · exact hnul x hx
      · exact gap_nulFree hg x hx
    have hstrip : strip (v ++ g) = v := by
      have := strip_pad [] v g htrim (by simp) (gap_white hg)
      simpa using this
    simp only [dispatch, e5, hc0, Bool.true_or, if_true, endItem, lastPush, Option.bind_eq_bind,
      Option.bind_some, e4, cstr_of_nulFree _ hVn, hstrip, hi]
    simp [mid, advO, adv]

end Blogc.Config
