import Verif.Model.Source
import Verif.Spec.Source
import Verif.Lemmas.Trie
import Verif.Lemmas.Config
import Verif.Props.C04
import Verif.Props.C07

/-!
# Runs of the source parser over the parts of a source file
-/

namespace Blogc.Source

open Blogc Blogc.Spec Blogc.Spec.Source
open Blogc.Config (slice_at cstr_of_nulFree)

variable {cp : Str → Bool → Run Content.BSt} {m : Int} {src : Str}

/-! ## Characters -/

theorem isNl_iff (c : Byte) : isNl c = true ↔ Newline c := by
  simp [isNl, Newline]

theorem isNl_false (c : Byte) : isNl c = false ↔ ¬ Newline c := by
  rw [← isNl_iff]; simp

theorem isUpper_iff (c : Byte) : isUpper c = true ↔ 0x41 ≤ c ∧ c ≤ 0x5a := by
  simp [isUpper]

theorem isKeyChar_iff (c : Byte) : isKeyChar c = true ↔
    (0x41 ≤ c ∧ c ≤ 0x5a) ∨ (0x30 ≤ c ∧ c ≤ 0x39) ∨ c = 0x5f := by
  simp [isKeyChar, isUpper, or_assoc]

theorem blank_iff (c : Byte) : (c == c!" " || c == c!"\t" || isNl c) = true ↔ Blank c := by
  simp [Blank, isNl, Newline, or_assoc]

theorem upper_not_blank (c : Byte) (h : isUpper c = true) :
    (c == c!" " || c == c!"\t" || isNl c) = false := by
  have := (isUpper_iff c).1 h
  simp only [isNl, Bool.or_eq_false_iff, beq_eq_false_iff_ne]
  grind

theorem validKey_nulFree (k : Str) (h : ValidKey k) : NulFree k := by
  obtain ⟨c, r, rfl, hc, hr⟩ := h
  intro d hd
  rcases List.mem_cons.1 hd with rfl | hd
  · grind
  · have := hr d hd; grind

/-! ## Segments -/

theorem loop_cons {c : Byte} {r : Str} {cur : Nat} {st st' : St}
    (h : step cp m src cur st c = .ok (.ok st')) :
    loop cp m src (c :: r) cur st = loop cp m src r (cur + 1) st' := by
  rw [loop]; simp only [h]

theorem loop_blanks (bl r : Str) (cur : Nat) (st : St) (hs : st.state = .start)
    (hb : ∀ c ∈ bl, Blank c) :
    loop cp m src (bl ++ r) cur st = loop cp m src r (cur + bl.length) st := by
  induction bl generalizing cur with
  | nil => rfl
  | cons c bl ih =>
    rw [List.cons_append, loop_cons (st' := st), ih _ (fun c hc => hb c (by simp [hc]))]
    · rw [List.length_cons, Nat.add_right_comm, Nat.add_assoc]
    · rw [step]; simp only [hs, (blank_iff c).2 (hb c (by simp)), if_true]

theorem loop_key (w r : Str) (cur : Nat) (st : St) (hs : st.state = .key)
    (hw : ∀ c ∈ w, isKeyChar c = true) :
    loop cp m src (w ++ r) cur st = loop cp m src r (cur + w.length) st := by
  induction w generalizing cur with
  | nil => rfl
  | cons c w ih =>
    rw [List.cons_append, loop_cons (st' := st), ih _ (fun c hc => hw c (by simp [hc]))]
    · rw [List.length_cons, Nat.add_right_comm, Nat.add_assoc]
    · rw [step]; simp only [hs, hw c (by simp), if_true]

theorem loop_value (w r : Str) (cur : Nat) (st : St) (hs : st.state = .value)
    (hw : ∀ c ∈ w, isNl c = false) :
    loop cp m src (w ++ r) cur st = loop cp m src r (cur + w.length) st := by
  induction w generalizing cur with
  | nil => rfl
  | cons c w ih =>
    rw [List.cons_append, loop_cons (st' := st), ih _ (fun c hc => hw c (by simp [hc]))]
    · rw [List.length_cons, Nat.add_right_comm, Nat.add_assoc]
    · rw [step]; simp only [hs, hw c (by simp)]; rfl

theorem loop_dashes (n : Nat) (r : Str) (cur : Nat) (st : St) (hs : st.state = .separator) :
    loop cp m src (List.replicate n 0x2d ++ r) cur st = loop cp m src r (cur + n) st := by
  induction n generalizing cur with
  | zero => rfl
  | succ n ih =>
    rw [List.replicate_succ, List.cons_append, loop_cons (st' := st), ih]
    · rw [Nat.add_right_comm, Nat.add_assoc]
    · rw [step]; simp only [hs, if_true]

theorem loop_nls (w r : Str) (cur : Nat) (st : St) (hs : st.state = .contentStart)
    (hw : ∀ c ∈ w, Newline c) :
    loop cp m src (w ++ r) cur st = loop cp m src r (cur + w.length) st := by
  induction w generalizing cur with
  | nil => rfl
  | cons c w ih =>
    rw [List.cons_append, loop_cons (st' := st), ih _ (fun c hc => hw c (by simp [hc]))]
    · rw [List.length_cons, Nat.add_right_comm, Nat.add_assoc]
    · rw [step]; simp only [hs, (isNl_iff c).2 (hw c (by simp)), if_true]

theorem loop_content (w r : Str) (cur : Nat) (st : St) (hs : st.state = .content)
    (hl : cur + w.length < src.length) :
    loop cp m src (w ++ r) cur st = loop cp m src r (cur + w.length) st := by
  induction w generalizing cur with
  | nil => rfl
  | cons c w ih =>
    simp only [List.length_cons] at hl
    rw [List.cons_append, loop_cons (st' := st), ih _ (by omega)]
    · rw [List.length_cons, Nat.add_right_comm, Nat.add_assoc]
    · rw [step]; simp only [hs]; rw [if_neg (by omega)]

/-! ## A header line -/

/-- A header line without the white space around its value told apart. -/
structure Raw where
  blanks : Str
  key : Str
  raw : Str
  nl : Byte

def Raw.text (h : Raw) : Str := h.blanks ++ h.key ++ b!":" ++ h.raw ++ [h.nl]

structure Raw.Ok (h : Raw) : Prop where
  blanks : ∀ c ∈ h.blanks, Blank c
  key : ValidKey h.key
  allowed : h.key ∉ reserved
  raw : ∀ c ∈ h.raw, ¬ Newline c
  nl : Newline h.nl

def rawPairs (hs : List Raw) : List (Str × Str) := hs.map fun h => (h.key, strip (cstr h.raw))

def rawText (hs : List Raw) : Str := hs.flatMap Raw.text

theorem loop_line_value (pre key raw r : Str) (nl : Byte) (st : St) (k : Str)
    (hsrc : src = pre ++ raw ++ (nl :: r)) (hs : st.state = .valueStart) (hk : st.key = some k)
    (hraw : ∀ c ∈ raw, ¬ Newline c) (hnl : Newline nl) :
    ∃ s, loop cp m src (raw ++ nl :: r) pre.length st =
      loop cp m src r (pre ++ raw ++ [nl]).length
        { start := s, key := none, rv := (st.rv.insert k (strip (cstr raw))).1, state := .start } := by
  have hnl' := (isNl_iff nl).2 hnl
  cases raw with
  | nil =>
    refine ⟨st.start, ?_⟩
    rw [List.nil_append, loop_cons (st' := _)]
    · simp; rfl
    · rw [step]
      simp only [hs, hnl', St.insert, hk]
      rfl
  | cons c raw =>
    have hc := (isNl_false c).2 (hraw c (by simp))
    refine ⟨pre.length, ?_⟩
    rw [List.cons_append, loop_cons (st' := { st with state := .value, start := pre.length }),
      loop_value raw _ _ _ rfl (fun d hd => (isNl_false d).2 (hraw d (by simp [hd]))),
      loop_cons (st' := _)]
    · congr 1
      simp; omega
    · rw [step]
      have h1 : pre.length + 1 + raw.length = (pre ++ (c :: raw)).length := by simp; omega
      simp only [hnl', if_true, St.insert, hk, h1]
      rw [slice_at hsrc]
      rfl
    · rw [step]; simp only [hs, hc, if_true]

theorem reserved_eq : forbiddenNames = reserved := rfl

theorem loop_line (pre r : Str) (h : Raw) (st : St) (hok : h.Ok) (hsrc : src = pre ++ h.text ++ r)
    (hs : st.state = .start) :
    ∃ s, loop cp m src (h.text ++ r) pre.length st = loop cp m src r (pre ++ h.text).length
      { start := s, key := none, rv := (st.rv.insert h.key (strip (cstr h.raw))).1,
        state := .start } := by
  obtain ⟨bl, key, raw, nl⟩ := h
  obtain ⟨hb, hk, ha, hr, hn⟩ := hok
  have hknul := validKey_nulFree _ hk
  obtain ⟨c, kr, hkey, hc, hkr⟩ := hk
  simp only at hb ha hr hn hkey hknul
  subst hkey
  have hup := (isUpper_iff c).2 hc
  have hsrc2 : src = (pre ++ bl) ++ (c :: kr) ++ (c!":" :: raw ++ nl :: r) := by
    simp [hsrc, Raw.text]
  have hsrc3 : src = (pre ++ bl ++ c :: kr ++ b!":") ++ raw ++ (nl :: r) := by
    simp [hsrc, Raw.text]
  obtain ⟨s, hfin⟩ := loop_line_value (cp := cp) (m := m) (pre ++ bl ++ c :: kr ++ b!":") (c :: kr)
    raw r nl { st with start := (pre ++ bl).length, key := some (c :: kr), state := .valueStart }
    (c :: kr) hsrc3 rfl rfl hr hn
  refine ⟨s, ?_⟩
  have e1 : Raw.text ⟨bl, c :: kr, raw, nl⟩ ++ r = bl ++ (c :: (kr ++ (c!":" :: (raw ++ nl :: r)))) := by
    simp [Raw.text]
  have e2 : (pre ++ bl).length + 1 + kr.length = (pre ++ bl ++ c :: kr).length := by
    simp; omega
  have e3 : (pre ++ bl ++ c :: kr).length + 1 = (pre ++ bl ++ c :: kr ++ b!":").length := by
    simp; omega
  rw [e1, loop_blanks bl _ _ st hs hb, ← List.length_append,
    loop_cons (st' := { st with state := .key, start := (pre ++ bl).length }),
    loop_key kr _ _ _ rfl (fun d hd => (isKeyChar_iff d).2 (hkr d hd)), e2,
    loop_cons (st' := { st with
      start := (pre ++ bl).length, key := some (c :: kr), state := .valueStart }), e3, hfin]
  · simp [Raw.text]
  · rw [step]
    have hsl : slice src (pre ++ bl).length (pre ++ bl ++ c :: kr).length = c :: kr := slice_at hsrc2
    have hcol : isKeyChar c!":" = false := by decide
    simp only [hcol, hsl, cstr_of_nulFree _ hknul, reserved_eq, if_neg ha, if_true]
    rfl
  · rw [step]
    simp only [hs, upper_not_blank c hup, hup, if_true]
    rfl

theorem rawPairs_cons (h : Raw) (hs : List Raw) :
    rawPairs (h :: hs) = (h.key, strip (cstr h.raw)) :: rawPairs hs := rfl

theorem inserts_snoc {α : Type u} (H : List (Str × α)) (k : Str) (v : α) :
    (Trie.inserts (H ++ [(k, v)])).1 = ((Trie.inserts H).1.insert k v).1 := by
  simp [Trie.inserts, List.foldl_append]

theorem loop_lines (hs : List Raw) (H : List (Str × Str)) (pre r : Str) (st : St)
    (hok : ∀ h ∈ hs, h.Ok) (hsrc : src = pre ++ rawText hs ++ r) (hst : st.state = .start)
    (hrv : st.rv = (Trie.inserts H).1) (hkey : st.key = none) :
    ∃ s, loop cp m src (rawText hs ++ r) pre.length st =
      loop cp m src r (pre ++ rawText hs).length
        { start := s, key := none, rv := (Trie.inserts (H ++ rawPairs hs)).1, state := .start } := by
  induction hs generalizing H pre st with
  | nil =>
    refine ⟨st.start, ?_⟩
    obtain ⟨a, b, c, d⟩ := st
    simp only at hst hrv hkey
    subst hst hrv hkey
    simp [rawText, rawPairs]
  | cons h hs ih =>
    have e : rawText (h :: hs) = h.text ++ rawText hs := by simp [rawText]
    obtain ⟨s1, h1⟩ := loop_line (cp := cp) (m := m) (src := src) pre (rawText hs ++ r) h st
      (hok h (by simp)) (by simp [hsrc, e]) hst
    obtain ⟨s2, h2⟩ := ih (H ++ [(h.key, strip (cstr h.raw))]) (pre ++ h.text)
      { start := s1, key := none, rv := (st.rv.insert h.key (strip (cstr h.raw))).1, state := .start }
      (fun x hx => hok x (by simp [hx])) (by simp [hsrc, e]) rfl
      (by rw [inserts_snoc, ← hrv]) rfl
    refine ⟨s2, ?_⟩
    rw [e, List.append_assoc, h1, h2, rawPairs_cons]
    simp only [List.append_assoc, List.singleton_append]

/-! ## The separator and the content -/

/-- The result of `blogc_source_parse` when the last character has been processed. -/
def wrap (at_ : Nat) : Run (Except Err (Trie Str)) → Run (Except (Err × Nat) (Trie Str))
  | .ok (.ok t) => .ok (.ok t)
  | .ok (.error e) => .ok (.error (e, at_))
  | .ub => .ub
  | .out => .out

theorem size_pos (t : Trie Str) (k v : Str) (hk : NulFree k) : (t.insert k v).1.size ≠ 0 := by
  intro h
  have h1 : (t.insert k v).1.lookup k = some v := by
    rw [Trie.lookup_insert t k k v hk hk, if_pos rfl]
  clear hk
  generalize (t.insert k v).1 = u at h h1
  induction u generalizing k with
  | nil => simp [Trie.lookup] at h1
  | node c d nx ch ih1 ih2 =>
    simp only [Trie.size] at h
    rw [Trie.lookup.eq_def] at h1
    simp only at h1
    split at h1
    · split at h1
      · rename_i h0; simp [h0] at h
      · split at h1
        · simp at h1
        · exact ih2 _ (by omega) h1
    · exact ih1 _ (by omega) h1

theorem addContent_size (t : Trie Str) (r : Content.BSt) : (addContent t r).size ≠ 0 :=
  size_pos _ _ _ (by decide)

theorem addResults_size {t t' : Trie Str} {r : Content.BSt}
    (h : addResults m t r = .ok (.ok t')) : t'.size ≠ 0 := by
  unfold addResults at h
  split at h <;> cases h
  exact addContent_size _ _

theorem finishContent_size {t t' : Trie Str} {text : Str}
    (h : finishContent cp m t text = .ok (.ok t')) : t'.size ≠ 0 := by
  unfold finishContent at h
  cases hcp : cp text (decide ((t.insert b!"RAW_CONTENT" text).1.lookup b!"TOCTREE" = none)) with
  | ub => simp only [hcp, Run.bind_ub] at h; cases h
  | out => simp only [hcp, Run.bind_out] at h; cases h
  | ok r =>
    simp only [hcp, Run.bind_ok] at h
    exact addResults_size h

/-- The separator, the blank lines and a content of at least two bytes. -/
theorem loop_tail (pre bl nls w : Str) (n : Nat) (a b : Byte) (st : St) (hs : st.state = .start)
    (hb : ∀ c ∈ bl, Blank c) (hn : ∀ c ∈ nls, Newline c) (hne : nls ≠ []) (ha : ¬ Newline a)
    (hsrc : src = pre ++ bl ++ List.replicate (n + 1) 0x2d ++ nls ++ (a :: w ++ [b])) :
    loop cp m src (bl ++ List.replicate (n + 1) 0x2d ++ nls ++ (a :: w ++ [b])) pre.length st =
      wrap (src.length - 1) (finishContent cp m st.rv (cstr (a :: w ++ [b]))) := by
  cases nls with
  | nil => exact absurd rfl hne
  | cons nl nls =>
    have hnl := (isNl_iff nl).2 (hn nl (by simp))
    have e1 : bl ++ List.replicate (n + 1) 0x2d ++ nl :: nls ++ (a :: w ++ [b]) =
        bl ++ (0x2d :: (List.replicate n 0x2d ++ (nl :: (nls ++ (a :: (w ++ [b])))))) := by
      simp [List.replicate_succ]
    have hlen : src.length = pre.length + bl.length + 1 + n + 1 + nls.length + 1 + w.length + 1 := by
      rw [hsrc]; simp; omega
    rw [e1, loop_blanks bl _ _ st hs hb, loop_cons (st' := { st with state := .separator }),
      loop_dashes n _ _ _ rfl, loop_cons (st' := { st with state := .contentStart }),
      loop_nls nls _ _ _ rfl (fun c hc => hn c (by simp [hc])),
      loop_cons (st' := { st with
        start := pre.length + bl.length + 1 + n + 1 + nls.length, state := .content }),
      loop_content w _ _ _ rfl (by omega)]
    · have hdrop : src.drop (pre.length + bl.length + 1 + n + 1 + nls.length) = a :: w ++ [b] := by
        have e2 : pre.length + bl.length + 1 + n + 1 + nls.length =
            (pre ++ bl ++ List.replicate (n + 1) 0x2d ++ nl :: nls).length := by
          simp; omega
        rw [e2, hsrc]; exact List.drop_left
      rw [loop, step]
      simp only [hdrop]
      rw [if_pos (by omega)]
      cases hf : finishContent cp m st.rv (cstr (a :: w ++ [b])) with
      | ub => rfl
      | out => rfl
      | ok x =>
        cases x with
        | error e => simp only [wrap]; congr 4; omega
        | ok t =>
          have := finishContent_size hf
          simp only [wrap, loop, finish, if_neg this]
    · rw [step]; simp only [(isNl_false a).2 ha]; rfl
    · rw [step]
      have h1 : nl ≠ c!"-" := by
        have := hn nl (by simp)
        unfold Newline at this
        rintro rfl
        revert this; decide
      simp only [if_neg h1, hnl, if_true]
    · rw [step]
      simp only [hs]
      rfl

end Blogc.Source
