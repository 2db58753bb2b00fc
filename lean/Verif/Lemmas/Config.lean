import Verif.Model.Config
import Verif.Spec.Config
import Verif.Props.C04
import Verif.Props.C15
import Verif.Props.C09

/-!
# Runs of the configuration parser over the parts of a document
-/

namespace Blogc.Config

open Blogc Blogc.Spec Blogc.Spec.Config

/-- The sections seen so far, oldest first. -/
abbrev Hist := List (Str × Sec)

def ids (H : Hist) : List (Str × Nat) := (H.map (·.1)).zipIdx

/-- A state of the parser without a pending escape, after the sections `H`. -/
def mid (H : Hist) (cur start : Nat) (state : State) (key value : Option Str) : St :=
  { current := cur, start := start, state := state, heap := H.map (·.2),
    root := (Trie.inserts (ids H)).1, freed := (Trie.inserts (ids H)).2,
    sect := if H = [] then none else some (H.length - 1), key := key, value := value,
    escaped := false }

theorem ids_append (H : Hist) (n : Str) (s : Sec) : ids (H ++ [(n, s)]) = ids H ++ [(n, H.length)] := by
  simp [ids, List.zipIdx_append]

theorem ids_update (H : Hist) (n : Str) (s s' : Sec) : ids (H ++ [(n, s)]) = ids (H ++ [(n, s')]) := by
  simp [ids]

theorem ids_snd_lt (H : Hist) : ∀ x ∈ (ids H).map (·.2), x < H.length := by
  intro x hx
  obtain ⟨p, hp, rfl⟩ := List.mem_map.1 hx
  have := List.snd_lt_of_mem_zipIdx hp
  simpa using this

theorem not_freed (H : Hist) (n : Str) (s : Sec) :
    H.length ∉ (Trie.inserts (ids (H ++ [(n, s)]))).2 := by
  rw [ids_append, Trie.inserts_append]
  have hp := C09.released_exactly_once (ids H)
  intro h
  rcases List.mem_append.1 h with h | h
  · have := ids_snd_lt H _ (hp.mem_iff.1 (List.mem_append_left _ h)); omega
  · have := ids_snd_lt H _ (hp.mem_iff.1 (List.mem_append_right _
      (Trie.mem_free_of_released _ _ _ _ h))); omega

theorem deref_mid (H : Hist) (n : Str) (s : Sec) (cur start : Nat) (state : State)
    (key value : Option Str) :
    (mid (H ++ [(n, s)]) cur start state key value).deref = some (H.length, s) := by
  have := not_freed H n s
  simp [St.deref, mid, this]

theorem insertValue_mid (H : Hist) (n : Str) (t : Trie Str) (cur start : Nat) (state : State)
    (k : Str) (value : Option Str) (v : Str) :
    (mid (H ++ [(n, .map t)]) cur start state (some k) value).insertValue v =
      some (mid (H ++ [(n, .map (t.insert (strip k) v).1)]) cur start state none value) := by
  have h := deref_mid H n (.map t) cur start state (some k) value
  unfold St.insertValue
  rw [h]
  simp only [mid, Option.some.injEq, St.mk.injEq, true_and, and_true]
  rw [ids_update H n (.map t) (.map (t.insert (strip k) v).1)]
  simp [List.set_append]

theorem appendItem_mid (H : Hist) (n : Str) (l : List Str) (cur start : Nat) (state : State)
    (key value : Option Str) (v : Str) :
    (mid (H ++ [(n, .list l)]) cur start state key value).appendItem v =
      some (mid (H ++ [(n, .list (l ++ [v]))]) cur start state key value) := by
  have h := deref_mid H n (.list l) cur start state key value
  unfold St.appendItem
  rw [h]
  simp only [mid, Option.some.injEq, St.mk.injEq, true_and, and_true]
  rw [ids_update H n (.list l) (.list (l ++ [v]))]
  simp [List.set_append]

variable {src : Str} {lists : List Str} {H : Hist} {cur start : Nat} {c : Byte}

theorem step_mid (h : src[cur]? = some c) (state : State) (key value : Option Str)
    (hv : value = none ∨ c ≠ c!"\\") :
    step src lists (mid H cur start state key value) =
      dispatch src lists (mid H cur start state key value) c := by
  unfold step
  have h1 : src[(mid H cur start state key value).current]? = some c := h
  have h2 : (mid H cur start state key value).escaped = false := rfl
  have h3 : ((mid H cur start state key value).value.isSome && c == c!"\\") = false := by
    rcases hv with rfl | hv
    · rfl
    · simp [hv]
  simp only [h1, h2, h3, Bool.false_eq_true, if_false]

theorem get_at {pre post : Str} (hsrc : src = pre ++ c :: post) : src[pre.length]? = some c := by
  simp [hsrc]

theorem lt_at {pre post : Str} (hsrc : src = pre ++ c :: post) (hp : post ≠ []) :
    pre.length + 1 < src.length := by
  have : 0 < post.length := List.length_pos_iff.2 hp
  simp [hsrc]; omega

/-- Characters a state skips. -/
theorem walk_adv (state : State) (key value : Option Str) (P : Byte → Prop)
    (hstep : ∀ cur c, src[cur]? = some c → cur + 1 < src.length → P c →
      step src lists (mid H cur start state key value) =
        .next (mid H (cur + 1) start state key value))
    (w pre post : Str) (hsrc : src = pre ++ w ++ post) (hpost : post ≠ []) (hw : ∀ c ∈ w, P c) :
    Reach (step src lists) (mid H pre.length start state key value)
      (mid H (pre ++ w).length start state key value) := by
  induction w generalizing pre with
  | nil => simpa using Reach.refl _
  | cons c w ih =>
    have h1 : src = pre ++ c :: (w ++ post) := by simp [hsrc]
    refine Reach.head (hstep _ c (get_at h1) (lt_at h1 (by simp [hpost])) (hw c (by simp))) ?_
    have := ih (pre ++ [c]) (by simp [hsrc]) (fun x hx => hw x (by simp [hx]))
    simpa using this

/-- Characters a state adds to the value. -/
theorem walk_push (state : State) (key : Option Str) (P : Byte → Prop)
    (hstep : ∀ cur c v, src[cur]? = some c → cur + 1 < src.length → P c →
      step src lists (mid H cur start state key (some v)) =
        .next (mid H (cur + 1) start state key (some (v ++ [c]))))
    (w pre post v : Str) (hsrc : src = pre ++ w ++ post) (hpost : post ≠ []) (hw : ∀ c ∈ w, P c) :
    Reach (step src lists) (mid H pre.length start state key (some v))
      (mid H (pre ++ w).length start state key (some (v ++ w))) := by
  induction w generalizing pre v with
  | nil => simpa using Reach.refl _
  | cons c w ih =>
    have h1 : src = pre ++ c :: (w ++ post) := by simp [hsrc]
    refine Reach.head (hstep _ c v (get_at h1) (lt_at h1 (by simp [hpost])) (hw c (by simp))) ?_
    have := ih (pre ++ [c]) (v ++ [c]) (by simp [hsrc]) (fun x hx => hw x (by simp [hx]))
    simpa using this

theorem isNl_false_of (h1 : c ≠ c!"\n") (h2 : c ≠ c!"\r") : isNl c = false := by
  simp [isNl, h1, h2]

/-- A blank line. -/
theorem run_blank (ws pre post : Str) (hsrc : src = pre ++ (ws ++ b!"\n") ++ post)
    (hw : ∀ c ∈ ws, c = c!" " ∨ c = c!"\t") :
    Reach (step src lists) (mid H pre.length start .start none none)
      (mid H (pre ++ (ws ++ b!"\n")).length start .start none none) := by
  refine (walk_adv .start none none (fun c => c = c!" " ∨ c = c!"\t") ?_ ws pre (b!"\n" ++ post)
    (by simp [hsrc]) (by simp) hw).trans ?_
  · intro cur c hc _ hP
    rw [step_mid hc _ _ _ (Or.inl rfl)]
    rcases hP with rfl | rfl <;> simp [dispatch, mid, adv]
  · have h1 : src = (pre ++ ws) ++ c!"\n" :: post := by simp [hsrc]
    refine Reach.one ?_
    rw [step_mid (get_at h1) _ _ _ (Or.inl rfl)]
    simp [dispatch, mid, adv, isNl, Nat.add_assoc]

/-- A comment line. -/
theorem run_comment (m : Byte) (t pre post : Str) (hsrc : src = pre ++ (m :: t ++ b!"\n") ++ post)
    (hm : m = c!"#" ∨ m = c!";") (ht : NoNl t) :
    Reach (step src lists) (mid H pre.length start .start none none)
      (mid H (pre ++ (m :: t ++ b!"\n")).length start .start none none) := by
  have h1 : src = pre ++ m :: (t ++ b!"\n" ++ post) := by simp [hsrc]
  refine Reach.one ?_
  rw [step_mid (get_at h1) _ _ _ (Or.inl rfl)]
  have hmn : isNl m = false := by rcases hm with rfl | rfl <;> decide
  have hsk : skipComment src pre.length = pre.length + (t.length + 1) := by
    have hd : src.drop pre.length = (m :: t) ++ (c!"\n" :: post) := by
      rw [h1]; simp
    have htw : (src.drop pre.length).takeWhile (fun c => !isNl c) = m :: t := by
      rw [hd, List.takeWhile_append_of_pos]
      · simp [isNl]
      · intro c hc
        rcases List.mem_cons.1 hc with rfl | hc
        · simp [hmn]
        · rw [isNl_false_of (fun e => ht.1 (e ▸ hc)) (fun e => ht.2 (e ▸ hc))]
          rfl
    unfold skipComment
    rw [htw]
    rfl
  have hcond : (m == c!"#" || m == c!";") = true := by rcases hm with rfl | rfl <;> decide
  simp only [dispatch, mid, adv, hcond, if_true, hsk]
  simp [Nat.add_assoc]

theorem slice_mid (pre w post : Str) :
    slice (pre ++ w ++ post) pre.length (pre ++ w).length = w := by
  simp [slice]

theorem slice_at {pre w post : Str} (hsrc : src = pre ++ w ++ post) :
    slice src pre.length (pre ++ w).length = w := by rw [hsrc]; exact slice_mid pre w post

theorem cstr_of_nulFree (s : Str) (h : NulFree s) : cstr s = s := by
  unfold cstr
  rw [List.takeWhile_eq_self_iff]
  intro c hc
  simp [h c hc]

/-- A section header. -/
theorem run_section (n pre post : Str) (hsrc : src = pre ++ (b!"[" ++ n ++ b!"]\n") ++ post)
    (hn : NameOk n) :
    Reach (step src lists) (mid H pre.length start .start none none)
      (mid (H ++ [(n, if n ∈ lists then .list [] else .map .nil)])
        (pre ++ (b!"[" ++ n ++ b!"]\n")).length (pre.length + 1) .start none none) := by
  obtain ⟨hne, hnul, hnl, hbr⟩ := hn
  have h1 : src = pre ++ c!"[" :: (n ++ b!"]\n" ++ post) := by simp [hsrc]
  refine Reach.head (b := mid H (pre.length + 1) start .sectionStart none none) ?_ ?_
  · rw [step_mid (get_at h1) _ _ _ (Or.inl rfl)]
    simp [dispatch, mid, adv, isNl]
  obtain ⟨c, n', rfl⟩ : ∃ c n', n = c :: n' := by
    cases n with
    | nil => exact absurd rfl hne
    | cons c n' => exact ⟨c, n', rfl⟩
  have h2 : src = (pre ++ b!"[") ++ c :: (n' ++ b!"]\n" ++ post) := by simp [hsrc]
  refine Reach.head (b := mid H (pre.length + 2) (pre.length + 1) .section none none) ?_ ?_
  · have := get_at h2
    simp only [List.length_append, List.length_singleton] at this
    rw [step_mid this _ _ _ (Or.inl rfl)]
    simp [dispatch, mid, adv]
  have hw := walk_adv (src := src) (lists := lists) (H := H) (start := pre.length + 1) .section none
    none (fun c => c ≠ c!"]" ∧ isNl c = false)
    (by
      intro cur c hc _ hP
      rw [step_mid hc _ _ _ (Or.inl rfl)]
      simp [dispatch, mid, adv, hP.1, hP.2])
    n' (pre ++ b!"[" ++ [c]) (b!"]\n" ++ post) (by simp [hsrc]) (by simp)
    (by
      intro x hx
      exact ⟨fun e => hbr (by simp [← e, hx]), isNl_false_of (fun e => hnl.1 (by simp [← e, hx]))
        (fun e => hnl.2 (by simp [← e, hx]))⟩)
  simp only [List.append_assoc, List.length_append, List.length_singleton] at hw
  refine Reach.trans (by simpa using hw) ?_
  have h3 : src = (pre ++ b!"[" ++ c :: n') ++ c!"]" :: (b!"\n" ++ post) := by simp [hsrc]
  have h4 : src = (pre ++ b!"[" ++ c :: n' ++ b!"]") ++ c!"\n" :: post := by simp [hsrc]
  have hsl : slice src (pre.length + 1) (pre ++ b!"[" ++ c :: n').length = c :: n' := by
    have := slice_at (src := src) (pre := pre ++ b!"[") (w := c :: n') (post := b!"]\n" ++ post)
      (by simp [hsrc])
    simpa using this
  have e1 : pre.length + (1 + 1 + n'.length) = (pre ++ b!"[" ++ c :: n').length := by
    simp; omega
  have e2 : (pre ++ (b!"[" ++ c :: n' ++ b!"]\n")).length =
      (pre ++ b!"[" ++ c :: n' ++ b!"]").length + 1 := by
    simp; omega
  have e3 : (pre ++ b!"[" ++ c :: n' ++ b!"]").length = (pre ++ b!"[" ++ c :: n').length + 1 := by
    simp; omega
  refine Reach.head (b := mid (H ++ [(c :: n', if c :: n' ∈ lists then .list [] else .map .nil)])
      (pre ++ b!"[" ++ c :: n' ++ b!"]").length (pre.length + 1) .start none none) ?_ ?_
  · rw [show pre.length + (1 + (1 + n'.length)) = (pre ++ b!"[" ++ c :: n').length by simp; omega]
    rw [step_mid (get_at h3) _ _ _ (Or.inl rfl)]
    simp only [dispatch, mid, endSection, hsl, cstr_of_nulFree _ hnul, adv, ids_append,
      Trie.inserts_append, e3]
    simp
  · refine Reach.one ?_
    rw [step_mid (get_at h4) _ _ _ (Or.inl rfl), e2]
    simp [dispatch, mid, adv, isNl]

theorem esc_cons (c : Byte) (v : Str) :
    esc (c :: v) = (if c = c!"\\" ∨ c = c!"\"" then [c!"\\", c] else [c]) ++ esc v := by
  simp [esc]

/-- Quoted text: escapes are undone. -/
theorem walk_esc (state : State) (key : Option Str) (hs : state = .valueQuote ∨ state = .listQuote)
    (v acc pre post : Str) (hsrc : src = pre ++ esc v ++ post) :
    Reach (step src lists) (mid H pre.length start state key (some acc))
      (mid H (pre ++ esc v).length start state key (some (acc ++ v))) := by
  induction v generalizing pre acc with
  | nil => simpa [esc] using Reach.refl _
  | cons c v ih =>
    rw [esc_cons] at hsrc ⊢
    split at hsrc
    · rename_i hc
      rw [if_pos hc]
      have h1 : src = pre ++ c!"\\" :: (c :: (esc v ++ post)) := by simp [hsrc]
      have h2 : src = (pre ++ b!"\\") ++ c :: (esc v ++ post) := by simp [hsrc]
      refine Reach.head (b := { mid H (pre.length + 1) start state key (some acc) with
        escaped := true }) ?_ (Reach.head (b := mid H (pre.length + 2) start state key
          (some (acc ++ [c]))) ?_ ?_)
      · have h3 : src[(mid H pre.length start state key (some acc)).current]? = some c!"\\" :=
          get_at h1
        unfold step
        simp only [h3]
        simp [mid, adv]
      · have h3 : src[(mid H (pre.length + 1) start state key (some acc)).current]? = some c := by
          have := get_at h2
          simpa [mid] using this
        unfold step
        simp only [h3]
        simp [mid, adv, advO, St.push]
      · have := ih (acc ++ [c]) (pre ++ b!"\\" ++ [c]) (by simp [hsrc])
        simpa [Nat.add_assoc] using this
    · rename_i hc
      rw [if_neg hc]
      have h1 : src = pre ++ c :: (esc v ++ post) := by simp [hsrc]
      refine Reach.head (b := mid H (pre.length + 1) start state key (some (acc ++ [c]))) ?_ ?_
      · rw [step_mid (get_at h1) _ _ _ (Or.inr (fun e => hc (Or.inl e)))]
        have : (c == c!"\"") = false := by
          simp only [beq_eq_false_iff_ne]
          exact fun e => hc (Or.inr e)
        rcases hs with rfl | rfl <;> simp [dispatch, mid, this, St.push, adv, advO]
      · have := ih (acc ++ [c]) (pre ++ [c]) (by simp [hsrc])
        simpa [Nat.add_assoc] using this

theorem white_isSpace (c : Byte) : isSpace c = true ↔ White c := C04.isSpace_iff c

theorem rstrip_trimmed (v : Str) (h : Trimmed v) : rstrip v = v := by
  rw [C04.rstrip_eq]
  rcases List.eq_nil_or_concat v with rfl | ⟨w, c, rfl⟩
  · rfl
  · have hc : isSpace c = false := by
      have := h.2 c (by simp)
      rw [← white_isSpace] at this
      simpa using this
    simp [hc]

theorem strip_pad (pre v post : Str) (h : Trimmed v) (h1 : ∀ c ∈ pre, White c)
    (h2 : ∀ c ∈ post, White c) : strip (pre ++ v ++ post) = v :=
  C04.strip_unique _ _ ⟨⟨pre, post, rfl, h1, h2⟩, h.1, h.2⟩

theorem isBlank_white (h : isBlank c = true) : White c := by
  simp [isBlank] at h
  unfold White
  grind

/-- The first character of a key, in a map. -/
theorem step_start_map {n : Str} {t : Trie Str} (hc : src[cur]? = some c) (h1 : c ≠ c!"#")
    (h2 : c ≠ c!";") (h3 : c ≠ c!"[") (h4 : ¬ White c) :
    step src lists (mid (H ++ [(n, .map t)]) cur start .start none none) =
      .next (mid (H ++ [(n, .map t)]) cur cur .key none none) := by
  rw [step_mid hc _ _ _ (Or.inl rfl)]
  have e1 : (c == c!"#" || c == c!";") = false := by simp [h1, h2]
  have e2 : (c == c!" " || c == c!"\t" || isNl c) = false := by
    unfold White at h4
    simp [isNl]; grind
  have e3 : (c == c!"[") = false := by simp [h3]
  have hd := deref_mid H n (.map t) cur start .start none none
  simp only [dispatch]
  have e4 : (mid (H ++ [(n, Sec.map t)]) cur start State.start none none).state = .start := rfl
  have e5 : (mid (H ++ [(n, Sec.map t)]) cur start State.start none none).sect =
    some H.length := by simp [mid]
  simp only [e4, e1, e2, e3, e5, hd, Bool.false_eq_true, if_false]
  simp [mid]

theorem step_start_list {n : Str} {l : List Str} (hc : src[cur]? = some c) (h1 : c ≠ c!"#")
    (h2 : c ≠ c!";") (h3 : c ≠ c!"[") (h4 : ¬ White c) :
    step src lists (mid (H ++ [(n, .list l)]) cur start .start none none) =
      .next (mid (H ++ [(n, .list l)]) cur cur .listStart none (some [])) := by
  rw [step_mid hc _ _ _ (Or.inl rfl)]
  have e1 : (c == c!"#" || c == c!";") = false := by simp [h1, h2]
  have e2 : (c == c!" " || c == c!"\t" || isNl c) = false := by
    unfold White at h4
    simp [isNl]; grind
  have e3 : (c == c!"[") = false := by simp [h3]
  have hd := deref_mid H n (.list l) cur start .start none none
  simp only [dispatch]
  have e4 : (mid (H ++ [(n, Sec.list l)]) cur start State.start none none).state = .start := rfl
  have e5 : (mid (H ++ [(n, Sec.list l)]) cur start State.start none none).sect =
    some H.length := by simp [mid]
  simp only [e4, e1, e2, e3, e5, hd, Bool.false_eq_true, if_false]
  simp [mid]

/-- `key = `, up to the value. -/
theorem run_key {n : Str} {t : Trie Str} (k pre post : Str) (hsrc : src = pre ++ (k ++ b!" = ") ++ post)
    (hpost : post ≠ []) (hk : KeyOk k) :
    Reach (step src lists) (mid (H ++ [(n, .map t)]) pre.length start .start none none)
      (mid (H ++ [(n, .map t)]) (pre ++ (k ++ b!" = ")).length pre.length .valueStart
        (some (k ++ b!" ")) (some [])) := by
  obtain ⟨hnul, hnl, heq, htrim, hne, f1, f2, f3⟩ := hk
  obtain ⟨c, k', hck⟩ : ∃ c k', k = c :: k' := by
    cases k with
    | nil => exact absurd rfl hne
    | cons c k' => exact ⟨c, k', rfl⟩
  have h1 : src = pre ++ c :: (k' ++ b!" = " ++ post) := by simp [hsrc, hck]
  refine Reach.head (step_start_map (get_at h1) (by simpa [hck] using f1)
    (by simpa [hck] using f2) (by simpa [hck] using f3) (htrim.1 c (by simp [hck]))) ?_
  refine (walk_adv .key none none (fun c => c ≠ c!"=" ∧ isNl c = false) ?_ (k ++ b!" ") pre
    (b!"= " ++ post) (by simp [hsrc]) (by simp) ?_).trans ?_
  · intro cur c hc hlt hP
    rw [step_mid hc _ _ _ (Or.inl rfl)]
    have : cur + 1 ≠ src.length := by omega
    simp [dispatch, mid, adv, hP.1, hP.2, this]
  · intro x hx
    rcases List.mem_append.1 hx with hx | hx
    · exact ⟨fun e => heq (e ▸ hx), isNl_false_of (fun e => hnl.1 (e ▸ hx))
        (fun e => hnl.2 (e ▸ hx))⟩
    · simp only [List.mem_singleton] at hx
      subst hx
      decide
  have h2 : src = (pre ++ (k ++ b!" ")) ++ c!"=" :: (b!" " ++ post) := by simp [hsrc]
  have hsl : slice src pre.length (pre ++ (k ++ b!" ")).length = k ++ b!" " :=
    slice_at (post := b!"= " ++ post) (by simp [hsrc])
  have hnul' : NulFree (k ++ b!" ") := by
    intro x hx
    rcases List.mem_append.1 hx with hx | hx
    · exact hnul x hx
    · simp only [List.mem_singleton] at hx; subst hx; decide
  have h3 : src = (pre ++ (k ++ b!" =")) ++ c!" " :: post := by simp [hsrc]
  have hlt := lt_at h2 (by simp)
  refine Reach.head (b := mid (H ++ [(n, .map t)]) (pre ++ (k ++ b!" =")).length pre.length
    .valueStart (some (k ++ b!" ")) (some [])) ?_ (Reach.one ?_)
  · rw [step_mid (get_at h2) _ _ _ (Or.inl rfl)]
    have : (pre ++ (k ++ b!" ")).length + 1 ≠ src.length := by omega
    simp only [dispatch, mid, hsl, cstr_of_nulFree _ hnul', adv]
    simp only [List.length_append, List.length_singleton] at this
    simp [Nat.add_assoc]
    intro h
    omega
  · rw [step_mid (get_at h3) _ _ _ (Or.inr (by decide))]
    simp [dispatch, mid, adv, isBlank, Nat.add_assoc]

theorem strip_key (k : Str) (h : Trimmed k) : strip (k ++ b!" ") = k := by
  have := strip_pad [] k b!" " h (by simp) (by simp [White])
  simpa using this

/-- A whole `key = value` line. -/
theorem run_pair {n : Str} {t : Trie Str} (k v : Str) (q : Bool) (pre post : Str)
    (hsrc : src = pre ++ ((Line.pair k v q).render ++ b!"\n") ++ post) (hk : KeyOk k)
    (hv : ValueOk v q) :
    Reach (step src lists) (mid (H ++ [(n, .map t)]) pre.length start .start none none)
      (mid (H ++ [(n, .map (t.insert k v).1)]) (pre ++ ((Line.pair k v q).render ++ b!"\n")).length
        pre.length .start none none) := by
  simp only [Line.render] at hsrc ⊢
  refine (run_key k pre (renderValue v q ++ b!"\n" ++ post) (by simp [hsrc]) (by simp) hk).trans ?_
  cases q with
  | true =>
    simp only [renderValue, if_true, ValueOk] at hsrc hv ⊢
    generalize hp : pre ++ (k ++ b!" = ") = p
    have hs1 : src = p ++ c!"\"" :: (esc v ++ b!"\"\n" ++ post) := by simp [hsrc, ← hp]
    have hlen : (pre ++ (k ++ b!" = " ++ (b!"\"" ++ esc v ++ b!"\"") ++ b!"\n")).length =
        p.length + 1 + (esc v).length + 2 := by simp [← hp]; omega
    refine Reach.head (b := mid (H ++ [(n, .map t)]) (p.length + 1) pre.length
      .valueQuote (some (k ++ b!" ")) (some [])) ?_ ?_
    · rw [step_mid (get_at hs1) _ _ _ (Or.inr (by decide))]
      simp [dispatch, mid, adv, isBlank]
    have hw := walk_esc (src := src) (lists := lists) (H := H ++ [(n, .map t)])
      (start := pre.length) .valueQuote (some (k ++ b!" ")) (Or.inl rfl) v [] (p ++ b!"\"")
      (b!"\"\n" ++ post) (by simp [hs1])
    simp only [List.length_append, List.length_singleton, List.nil_append] at hw
    refine hw.trans ?_
    have hs2 : src = (p ++ b!"\"" ++ esc v) ++ c!"\"" :: (b!"\n" ++ post) := by simp [hs1]
    have hs3 : src = (p ++ b!"\"" ++ esc v ++ b!"\"") ++ c!"\n" :: post := by simp [hs1]
    refine Reach.head (b := mid (H ++ [(n, .map (t.insert k v).1)])
      (p.length + 1 + (esc v).length + 1) pre.length .valuePostQuoted none none) ?_ (Reach.one ?_)
    · have hg := get_at hs2
      simp only [List.length_append, List.length_singleton] at hg
      rw [step_mid hg _ _ _ (Or.inr (by decide))]
      have hi := insertValue_mid H n t (p.length + 1 + (esc v).length) pre.length .valueQuote
        (k ++ b!" ") (some v) v
      have e4 : (mid (H ++ [(n, .map t)]) (p.length + 1 + (esc v).length) pre.length .valueQuote
        (some (k ++ b!" ")) (some v)).value = some v := rfl
      have e5 : (mid (H ++ [(n, .map t)]) (p.length + 1 + (esc v).length) pre.length .valueQuote
        (some (k ++ b!" ")) (some v)).state = .valueQuote := rfl
      simp only [dispatch, e4, e5, cstr_of_nulFree v hv, hi, strip_key k hk.2.2.2.1]
      rfl
    · have hg := get_at hs3
      simp only [List.length_append, List.length_singleton] at hg
      rw [step_mid hg _ _ _ (Or.inl rfl), hlen]
      simp [dispatch, mid, adv, isBlank, isNl]
  | false =>
    simp only [renderValue, ValueOk, Bool.false_eq_true, if_false] at hsrc hv ⊢
    obtain ⟨hnul, hnl, hbs, htrim, hq⟩ := hv
    generalize hp : pre ++ (k ++ b!" = ") = p
    have hlen : (pre ++ (k ++ b!" = " ++ v ++ b!"\n")).length = p.length + v.length + 1 := by
      simp [← hp]; omega
    have hs : src = p ++ v ++ c!"\n" :: post := by simp [hsrc, ← hp]
    -- to state `value` with the text collected
    have hreach : Reach (step src lists)
        (mid (H ++ [(n, .map t)]) p.length pre.length .valueStart (some (k ++ b!" ")) (some []))
        (mid (H ++ [(n, .map t)]) (p ++ v).length pre.length .value (some (k ++ b!" "))
          (some v)) := by
      cases v with
      | nil =>
        have hs1 : src = p ++ c!"\n" :: post := by simp [hs]
        refine Reach.one ?_
        rw [step_mid (get_at hs1) _ _ _ (Or.inr (by decide))]
        simp [dispatch, mid, isBlank, isNl]
      | cons c v =>
        have hs1 : src = p ++ c :: (v ++ c!"\n" :: post) := by simp [hs]
        have hcw : ¬ White c := htrim.1 c rfl
        have hcb : isBlank c = false := by
          cases h : isBlank c with
          | false => rfl
          | true => exact absurd (isBlank_white h) hcw
        have hcq : (c == c!"\"") = false := by
          have : c ≠ c!"\"" := by simpa using hq
          simp [this]
        have hcn : isNl c = false :=
          isNl_false_of (fun e => hnl.1 (by simp [← e])) (fun e => hnl.2 (by simp [← e]))
        have hlt := lt_at hs1 (by simp)
        refine Reach.head (b := mid (H ++ [(n, .map t)]) (p.length + 1) pre.length .value
          (some (k ++ b!" ")) (some [c])) ?_ ?_
        · rw [step_mid (get_at hs1) _ _ _ (Or.inr (fun e => hbs (by simp [← e])))]
          have : p.length + 1 ≠ src.length := by omega
          simp [dispatch, mid, hcb, hcq, hcn, this, St.push, advO, adv]
        · have := walk_push (src := src) (lists := lists) (H := H ++ [(n, .map t)])
            (start := pre.length) .value (some (k ++ b!" "))
            (fun c => c ≠ c!"\\" ∧ isNl c = false)
            (by
              intro cur c v hc hlt hP
              rw [step_mid hc _ _ _ (Or.inr hP.1)]
              have : cur + 1 ≠ src.length := by omega
              simp [dispatch, mid, adv, advO, St.push, hP.2, this])
            v (p ++ [c]) (c!"\n" :: post) [c] (by simp [hs]) (by simp)
            (by
              intro x hx
              exact ⟨fun e => hbs (by simp [← e, hx]),
                isNl_false_of (fun e => hnl.1 (by simp [← e, hx]))
                  (fun e => hnl.2 (by simp [← e, hx]))⟩)
          simpa using this
    refine hreach.trans (Reach.one ?_)
    have hs2 : src = (p ++ v) ++ c!"\n" :: post := hs
    rw [step_mid (get_at hs2) _ _ _ (Or.inr (by decide)), hlen]
    have hi := insertValue_mid H n t (p ++ v).length pre.length .value
      (k ++ b!" ") (some v) v
    have e4 : (mid (H ++ [(n, .map t)]) (p ++ v).length pre.length .value
      (some (k ++ b!" ")) (some v)).value = some v := rfl
    have e5 : (mid (H ++ [(n, .map t)]) (p ++ v).length pre.length .value
      (some (k ++ b!" ")) (some v)).state = .value := rfl
    have e6 : isNl c!"\n" = true := rfl
    simp only [dispatch, e5, e6, Bool.true_or, if_true, endValue, lastPush, Option.bind_eq_bind,
      Option.bind_some, e4, cstr_of_nulFree v hnul, rstrip_trimmed v htrim, hi,
      strip_key k hk.2.2.2.1]
    simp [mid, advO, adv]

/-- A list item line. -/
theorem run_item {n : Str} {l : List Str} (v : Str) (q : Bool) (pre post : Str)
    (hsrc : src = pre ++ ((Line.item v q).render ++ b!"\n") ++ post)
    (hv : ValueOk v q) (hf : q = false → FirstOk v) :
    Reach (step src lists) (mid (H ++ [(n, .list l)]) pre.length start .start none none)
      (mid (H ++ [(n, .list (l ++ [v]))]) (pre ++ ((Line.item v q).render ++ b!"\n")).length
        pre.length .start none none) := by
  simp only [Line.render] at hsrc ⊢
  cases q with
  | true =>
    simp only [renderValue, if_true, ValueOk] at hsrc hv ⊢
    have hs1 : src = pre ++ c!"\"" :: (esc v ++ b!"\"\n" ++ post) := by simp [hsrc]
    have hlen : (pre ++ (b!"\"" ++ esc v ++ b!"\"" ++ b!"\n")).length =
        pre.length + 1 + (esc v).length + 2 := by simp; omega
    refine Reach.head (step_start_list (get_at hs1) (by decide) (by decide) (by decide)
      (by simp [White])) ?_
    refine Reach.head (b := mid (H ++ [(n, .list l)]) (pre.length + 1) pre.length
      .listQuote none (some [])) ?_ ?_
    · rw [step_mid (get_at hs1) _ _ _ (Or.inr (by decide))]
      simp [dispatch, mid, adv, isBlank]
    have hw := walk_esc (src := src) (lists := lists) (H := H ++ [(n, .list l)])
      (start := pre.length) .listQuote none (Or.inr rfl) v [] (pre ++ b!"\"")
      (b!"\"\n" ++ post) (by simp [hs1])
    simp only [List.length_append, List.length_singleton, List.nil_append] at hw
    refine hw.trans ?_
    have hs2 : src = (pre ++ b!"\"" ++ esc v) ++ c!"\"" :: (b!"\n" ++ post) := by simp [hs1]
    have hs3 : src = (pre ++ b!"\"" ++ esc v ++ b!"\"") ++ c!"\n" :: post := by simp [hs1]
    refine Reach.head (b := mid (H ++ [(n, .list (l ++ [v]))])
      (pre.length + 1 + (esc v).length + 1) pre.length .listPostQuoted none none) ?_ (Reach.one ?_)
    · have hg := get_at hs2
      simp only [List.length_append, List.length_singleton] at hg
      rw [step_mid hg _ _ _ (Or.inr (by decide))]
      have hi := appendItem_mid H n l (pre.length + 1 + (esc v).length) pre.length .listQuote
        none (some v) v
      have e4 : (mid (H ++ [(n, .list l)]) (pre.length + 1 + (esc v).length) pre.length .listQuote
        none (some v)).value = some v := rfl
      have e5 : (mid (H ++ [(n, .list l)]) (pre.length + 1 + (esc v).length) pre.length .listQuote
        none (some v)).state = .listQuote := rfl
      simp only [dispatch, e4, e5, cstr_of_nulFree v hv, hi]
      rfl
    · have hg := get_at hs3
      simp only [List.length_append, List.length_singleton] at hg
      rw [step_mid hg _ _ _ (Or.inl rfl), hlen]
      simp [dispatch, mid, adv, isBlank, isNl]
  | false =>
    simp only [renderValue, ValueOk, Bool.false_eq_true, if_false] at hsrc hv ⊢
    obtain ⟨hnul, hnl, hbs, htrim, hq⟩ := hv
    obtain ⟨hne, f1, f2, f3⟩ := hf rfl
    have hlen : (pre ++ (v ++ b!"\n")).length = pre.length + v.length + 1 := by
      simp; omega
    have hs : src = pre ++ v ++ c!"\n" :: post := by simp [hsrc]
    have hreach : Reach (step src lists)
        (mid (H ++ [(n, .list l)]) pre.length start .start none none)
        (mid (H ++ [(n, .list l)]) (pre ++ v).length pre.length .list none (some v)) := by
      cases v with
      | nil => exact absurd rfl hne
      | cons c v =>
        have hs1 : src = pre ++ c :: (v ++ c!"\n" :: post) := by simp [hs]
        have hcw : ¬ White c := htrim.1 c rfl
        have hcb : isBlank c = false := by
          cases h : isBlank c with
          | false => rfl
          | true => exact absurd (isBlank_white h) hcw
        have hcq : (c == c!"\"") = false := by
          have : c ≠ c!"\"" := by simpa using hq
          simp [this]
        refine Reach.head (step_start_list (get_at hs1) (by simpa using f1)
          (by simpa using f2) (by simpa using f3) hcw) ?_
        refine Reach.head (b := mid (H ++ [(n, .list l)]) (pre.length + 1) pre.length .list
          none (some [c])) ?_ ?_
        · rw [step_mid (get_at hs1) _ _ _ (Or.inr (fun e => hbs (by simp [← e])))]
          simp [dispatch, mid, hcb, hcq, St.push, advO, adv]
        · have := walk_push (src := src) (lists := lists) (H := H ++ [(n, .list l)])
            (start := pre.length) .list none
            (fun c => c ≠ c!"\\" ∧ isNl c = false)
            (by
              intro cur c v hc hlt hP
              rw [step_mid hc _ _ _ (Or.inr hP.1)]
              have : cur + 1 ≠ src.length := by omega
              simp [dispatch, mid, adv, advO, St.push, hP.2, this])
            v (pre ++ [c]) (c!"\n" :: post) [c] (by simp [hs]) (by simp)
            (by
              intro x hx
              exact ⟨fun e => hbs (by simp [← e, hx]),
                isNl_false_of (fun e => hnl.1 (by simp [← e, hx]))
                  (fun e => hnl.2 (by simp [← e, hx]))⟩)
          simpa using this
    refine hreach.trans (Reach.one ?_)
    have hs2 : src = (pre ++ v) ++ c!"\n" :: post := hs
    rw [step_mid (get_at hs2) _ _ _ (Or.inr (by decide)), hlen]
    have hi := appendItem_mid H n l (pre ++ v).length pre.length .list none (some v) v
    have e4 : (mid (H ++ [(n, .list l)]) (pre ++ v).length pre.length .list none (some v)).value =
      some v := rfl
    have e5 : (mid (H ++ [(n, .list l)]) (pre ++ v).length pre.length .list none (some v)).state =
      .list := rfl
    have e6 : isNl c!"\n" = true := rfl
    have hst : strip v = v := by
      have := strip_pad [] v [] htrim (by simp) (by simp)
      simpa using this
    simp only [dispatch, e5, e6, Bool.true_or, if_true, endItem, lastPush, Option.bind_eq_bind,
      Option.bind_some, e4, cstr_of_nulFree v hnul, hst, hi]
    simp [mid, advO, adv]

end Blogc.Config
