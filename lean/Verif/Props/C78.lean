import Verif.Props.C17

/-!
# C78: a malformed source is rejected, with the right reason at the right place
-/

namespace Blogc.C78

open Blogc Blogc.Spec Blogc.Spec.Source Blogc.Source
open Blogc.Config (slice_at cstr_of_nulFree)

variable {cp : Str → Bool → Run Content.BSt} {m : Int} {src : Str}

/-- The error that stands for a reason. -/
def errorOf : Reason → Err
  | .noKeyOrSeparator => .noKeyOrSeparator
  | .invalidKey => .invalidKey
  | .reservedKey k => .forbidden k
  | .invalidSeparator => .invalidSeparator
  | .nothing => .empty
  | .noColon => .missingColon
  | .noValue k => .missingValue (some k)
  | .noNewline k => .missingNewline (some k)

theorem lines_raw {s : Str} (h : Lines s) : ∃ hs : List Raw, (∀ h ∈ hs, h.Ok) ∧ rawText hs = s := by
  induction h with
  | nil => exact ⟨[], by simp, rfl⟩
  | @cons bl k v s nl h1 h2 h3 h4 h5 _ ih =>
    obtain ⟨hs, hok, rfl⟩ := ih
    refine ⟨⟨bl, k, v, nl⟩ :: hs, ?_, by simp [rawText, Raw.text]⟩
    intro h hh
    rcases List.mem_cons.1 hh with rfl | hh
    · exact ⟨h1, h2, h3, h4, h5⟩
    · exact hok h hh

theorem raw_lines (hs : List Raw) (h : ∀ h ∈ hs, h.Ok) : Lines (rawText hs) := by
  induction hs with
  | nil => exact .nil
  | cons x hs ih =>
    obtain ⟨h1, h2, h3, h4, h5⟩ := h x (by simp)
    have := Lines.cons h1 h2 h3 h4 h5 (ih fun y hy => h y (by simp [hy]))
    simpa [rawText, Raw.text] using this

theorem loop_error {c : Byte} {r : Str} {cur : Nat} {st : St} {e : Err}
    (h : step cp m src cur st c = .ok (.error e)) :
    loop cp m src (c :: r) cur st = .ok (.error (e, cur)) := by
  rw [loop]; simp only [h]

theorem reserved_valid : ∀ k ∈ reserved, ValidKey k := by
  have : ∀ k ∈ reserved, (∃ c r, k = c :: r ∧ isUpper c = true ∧ ∀ d ∈ r, isKeyChar d = true) := by
    intro k hk
    simp only [reserved, List.mem_cons, List.not_mem_nil, or_false] at hk
    rcases hk with rfl | rfl | rfl | rfl | rfl | rfl | rfl | rfl | rfl | rfl | rfl <;>
      exact ⟨_, _, rfl, by decide, by decide⟩
  intro k hk
  obtain ⟨c, r, rfl, h1, h2⟩ := this k hk
  exact ⟨c, r, rfl, (isUpper_iff c).1 h1, fun d hd => (isKeyChar_iff d).1 (h2 d hd)⟩

/-- Blank space and a key have been read. -/
theorem loop_blanks_key (pre bl k r : Str) (st : St) (hs : st.state = .start) (hb : ∀ c ∈ bl, Blank c)
    (hk : ValidKey k) :
    loop cp m src (bl ++ k ++ r) pre.length st = loop cp m src r (pre ++ bl ++ k).length
      { st with state := .key, start := (pre ++ bl).length } := by
  obtain ⟨c, kr, rfl, hc, hkr⟩ := hk
  have hup := (isUpper_iff c).2 hc
  rw [List.append_assoc, loop_blanks bl _ _ st hs hb, ← List.length_append, List.cons_append,
    loop_cons (st' := { st with state := .key, start := (pre ++ bl).length }),
    loop_key kr _ _ _ rfl (fun d hd => (isKeyChar_iff d).2 (hkr d hd))]
  · congr 1
    simp; omega
  · rw [step]
    simp only [hs, upper_not_blank c hup, hup, if_true]
    rfl

theorem bad_rejected (pre p : Str) (r : Reason) (n : Nat) (st : St) (hs : st.state = .start)
    (h : Bad p r n) (hsrc : src = pre ++ p) :
    loop cp m src p pre.length st = .ok (.error (errorOf r, pre.length + n)) := by
  cases h with
  | @junk bl s c h1 h2 h3 h4 =>
    rw [loop_blanks bl _ _ st hs h1]
    refine loop_error ?_
    have b : (c == c!" " || c == c!"\t" || isNl c) = false := by
      cases h : (c == c!" " || c == c!"\t" || isNl c) with
      | false => rfl
      | true => exact absurd ((blank_iff c).1 h) h2
    have u : isUpper c = false := by
      cases h : isUpper c with
      | false => rfl
      | true => exact absurd ((isUpper_iff c).1 h) h3
    rw [step]
    simp only [hs, b, u, if_neg h4]
    rfl
  | @key bl k s c h1 h2 h3 h4 =>
    rw [loop_blanks_key pre bl k _ st hs h1 h2, List.append_assoc, List.length_append]
    refine loop_error ?_
    have u : isKeyChar c = false := by
      cases h : isKeyChar c with
      | false => rfl
      | true => exact absurd ((isKeyChar_iff c).1 h) h3
    rw [step]
    simp only [u, if_neg h4]
    rfl
  | @reserved bl k s h1 h2 =>
    have hv := reserved_valid k h2
    rw [loop_blanks_key pre bl k _ st hs h1 hv]
    have e : (pre ++ bl ++ k).length = pre.length + (bl ++ k).length := by simp [Nat.add_assoc]
    rw [← e]
    refine loop_error ?_
    have hsl : slice src (pre ++ bl).length (pre ++ bl ++ k).length = k :=
      slice_at (post := c!":" :: s) (by rw [hsrc]; simp)
    have hcol : isKeyChar c!":" = false := by decide
    rw [step]
    simp only [hcol, hsl, cstr_of_nulFree _ (validKey_nulFree k hv), reserved_eq, if_pos h2, if_true]
    rfl
  | @separator bl s d c h1 h2 h3 =>
    rw [List.append_assoc, loop_blanks bl _ _ st hs h1, List.replicate_succ, List.cons_append,
      loop_cons (st' := { st with state := .separator }), loop_dashes d _ _ _ rfl]
    · have : pre.length + (bl.length + (d + 1)) = pre.length + bl.length + 1 + d := by omega
      rw [this]
      refine loop_error ?_
      rw [step]
      simp only [if_neg h2, (isNl_false c).2 h3]
      rfl
    · rw [step]
      simp only [hs]
      rfl

theorem short_rejected (r : Reason) (h : Short src r) :
    parse cp src m = .ok (.error (errorOf r, src.length)) := by
  unfold parse
  have s0 : (Trie.nil : Trie Str).size = 0 := rfl
  have hi : St.init.state = .start := rfl
  cases h with
  | nothing h1 =>
    have := loop_blanks (cp := cp) (m := m) (src := src) src [] 0 St.init rfl h1
    rw [List.append_nil] at this
    rw [this, loop, finish]
    simp only [St.init, s0, if_true, Nat.zero_add]
    rfl
  | @key bl k h1 h2 =>
    have := loop_blanks_key (cp := cp) (m := m) (src := bl ++ k) [] bl k [] St.init rfl h1 h2
    simp only [List.append_nil, List.nil_append, List.length_nil] at this
    rw [this, loop, finish]
    simp only [St.init, s0, if_true]
    rfl
  | @colon bl k h1 h2 h3 =>
    have := loop_blanks_key (cp := cp) (m := m) (src := bl ++ k ++ b!":") [] bl k b!":" St.init rfl h1 h2
    simp only [List.nil_append, List.length_nil] at this
    rw [this, loop_cons (st' := { St.init with state := .valueStart, start := bl.length, key := some k }), loop, finish]
    · simp only [St.init, s0, if_true]
      simp [errorOf, Nat.add_assoc]
    · have hsl : slice (bl ++ k ++ b!":") bl.length (bl ++ k).length = k := slice_at rfl
      have hcol : isKeyChar c!":" = false := by decide
      rw [step]
      simp only [hcol, hsl, cstr_of_nulFree _ (validKey_nulFree k h2), reserved_eq, if_neg h3, if_true]
      rfl
  | @value bl k v h1 h2 h3 h4 h5 =>
    cases v with
    | nil => exact absurd rfl h4
    | cons c v =>
      have := loop_blanks_key (cp := cp) (m := m) (src := bl ++ k ++ b!":" ++ (c :: v)) [] bl k (b!":" ++ (c :: v))
        St.init rfl h1 h2
      simp only [List.nil_append, List.length_nil] at this
      rw [List.append_assoc (bl ++ k)] at this ⊢
      have hv := loop_value (cp := cp) (m := m) (src := bl ++ k ++ (b!":" ++ (c :: v))) v [] ((bl ++ k).length + 1 + 1)
        { St.init with state := .value, start := (bl ++ k).length + 1, key := some k } rfl
        (fun d hd => (isNl_false d).2 (h5 d (by simp [hd])))
      rw [List.append_nil, List.cons_append, List.nil_append] at hv
      rw [this, List.cons_append, loop_cons (st' := { St.init with state := .valueStart, start := bl.length, key := some k }),
        List.nil_append, loop_cons (st' := { St.init with state := .value, start := (bl ++ k).length + 1, key := some k }),
        hv, loop, finish]
      · simp only [St.init, s0, if_true]
        simp [errorOf]
        omega
      · rw [step]
        simp only [(isNl_false c).2 (h5 c (by simp)), if_true]
      · have hsl : slice (bl ++ k ++ (c!":" :: ([] ++ (c :: v)))) bl.length (bl ++ k).length = k := slice_at rfl
        have hcol : isKeyChar c!":" = false := by decide
        rw [step]
        simp only [hcol, hsl, cstr_of_nulFree _ (validKey_nulFree k h2), reserved_eq, if_neg h3, if_true]
        rfl

/-- Every malformed source is rejected, for its reason, with the place of the error. -/
theorem rejected (r : Reason) (n : Nat) (h : Malformed src r n) :
    parse cp src m = .ok (.error (errorOf r, n)) := by
  cases h with
  | short h => exact short_rejected r h
  | @bad s p r n hl hb =>
    obtain ⟨hs, hok, rfl⟩ := lines_raw hl
    obtain ⟨st, h1⟩ := loop_lines (cp := cp) (m := m) (src := rawText hs ++ p) hs [] [] p St.init hok (by simp) rfl rfl rfl
    rw [parse]
    simp only [List.nil_append, List.length_nil] at h1
    rw [h1]
    exact bad_rejected _ p r n _ rfl hb rfl

theorem finishContent_error {T : Trie Str} {text : Str} {e : Err}
    (h : finishContent cp m T text = .ok (.error e)) :
    ∃ v, e = .invalidMaxdepth v ∧ T.lookup b!"TOCTREE_MAXDEPTH" = some v ∧ v ≠ [] ∧ (strtol v).2 ≠ [] := by
  unfold finishContent at h
  cases hr : cp text (decide ((T.insert b!"RAW_CONTENT" text).1.lookup b!"TOCTREE" = none)) with
  | ub => simp [hr] at h
  | out => simp [hr] at h
  | ok r =>
    simp only [hr, Run.bind_ok, addResults] at h
    have hl : (insertNew (insertNew (T.insert b!"RAW_CONTENT" text).1 b!"FIRST_HEADER" r.firstHeader)
        b!"DESCRIPTION" r.description).lookup b!"TOCTREE_MAXDEPTH" = T.lookup b!"TOCTREE_MAXDEPTH" := by
      rw [insertNew_lookup _ _ _ _ (by decide) (by decide), if_neg (by decide),
        insertNew_lookup _ _ _ _ (by decide) (by decide), if_neg (by decide),
        Trie.lookup_insert _ _ _ _ (by decide) (by decide), if_neg (by decide)]
    have toc : ∀ (t : Trie Str) (x : Res (Option Str)) (e : Err), insertToc t x ≠ .ok (.error e) := by
      intro t x e hx
      unfold insertToc at hx
      split at hx <;> cases hx
    unfold tableOfContents at h
    rw [hl] at h
    split at h
    · cases h
    · rename_i e' he
      cases h
      split at he
      · cases he
      · split at he
        · rename_i v hv
          split at he
          · rename_i hc
            cases he
            exact ⟨v, rfl, hv, hc.1, hc.2⟩
          · exact absurd he (toc _ _ _)
        · exact absurd he (toc _ _ _)
    · cases h
    · cases h

theorem not_bool {b : Bool} (h : ¬ b = true) : b = false := by simpa using h

/-- A step that fails has met a malformed text. -/
theorem step_bad {hs : List Raw} {p pre r : Str} {st : St} {c : Byte} {e : Err}
    (hp : Part pre.length st p) (hsrc : src = pre ++ c :: r) (hpre : pre = rawText hs ++ p)
    (hlast : st.state = .content → r ≠ [])
    (h : step cp m src pre.length st c = .ok (.error e)) :
    ∃ why n, Bad (p ++ c :: r) why n ∧ e = errorOf why ∧ p.length = n := by
  rw [step] at h
  cases hp with
  | start hb hs' =>
    simp only [hs'] at h
    split at h
    · cases h
    split at h
    · cases h
    split at h
    · cases h
    rename_i h1 h2 h3
    cases h
    exact ⟨.noKeyOrSeparator, _, .junk hb (fun x => h1 ((blank_iff c).2 x)) (fun x => h2 ((isUpper_iff c).2 x)) h3,
      rfl, rfl⟩
  | @key bl k hb hk hs' hn =>
    simp only [hs'] at h
    split at h
    · cases h
    rename_i h1
    split at h
    · rename_i hc
      have hk' : cstr (slice src st.start pre.length) = k := by
        have e1 : st.start = (rawText hs ++ bl).length := by
          rw [hpre] at hn; simp at hn ⊢; omega
        have e2 : pre.length = (rawText hs ++ bl ++ k).length := by rw [hpre]; simp
        rw [e1, e2, slice_at (post := c :: r) (by rw [hsrc, hpre]; simp),
          cstr_of_nulFree _ (validKey_nulFree k hk)]
      rw [hk'] at h
      split at h
      · rename_i ha
        cases h
        subst hc
        exact ⟨.reservedKey k, _, .reserved hb ha, rfl, rfl⟩
      · cases h
    · rename_i h2
      cases h
      exact ⟨.invalidKey, _, .key hb hk (fun x => h1 ((isKeyChar_iff c).2 x)) h2, rfl, rfl⟩
  | @valueStart bl k hb hk ha hs' hkey =>
    simp only [hs'] at h
    split at h
    · cases h
    · simp only [St.insert, hkey] at h
      cases h
  | @value bl k v hb hk ha hv hs' hkey hn =>
    simp only [hs'] at h
    split at h
    · simp only [St.insert, hkey] at h
      cases h
    · cases h
  | @separator bl d hb hs' =>
    simp only [hs'] at h
    split at h
    · cases h
    rename_i h1
    split at h
    · cases h
    rename_i h2
    cases h
    refine ⟨.invalidSeparator, _, .separator hb h1 ((isNl_false c).1 (not_bool h2)), rfl, by simp⟩
  | @contentStart bl d nls hb hn hne hs' =>
    simp only [hs'] at h
    split at h <;> cases h
  | @content bl d nls a w hb hn hne ha hs' hn' =>
    have hr := hlast hs'
    simp only [hs'] at h
    rw [if_neg] at h
    · cases h
    · rw [hsrc]
      cases r with
      | nil => exact absurd rfl hr
      | cons x r => simp

/-- What is wrong with a rejected source: it is malformed, or its content is complete and the depth
asked for is not a number. -/
def Wrong (src : Str) (e : Err) (n : Nat) : Prop :=
  (∃ why, Malformed src why n ∧ e = errorOf why) ∨
  (∃ (hs : List Raw) (p w v : Str), (∀ h ∈ hs, h.Ok) ∧ src = rawText hs ++ p ∧ Finished p w ∧
    lastValue (rawPairs hs) b!"TOCTREE_MAXDEPTH" = some v ∧ v ≠ [] ∧ (strtol v).2 ≠ [] ∧
    e = .invalidMaxdepth v ∧ n + 1 = src.length)

theorem rawPairs_ckeys {hs : List Raw} (hok : ∀ h ∈ hs, h.Ok) : CKeys (rawPairs hs) := by
  intro kv hkv
  simp only [rawPairs, List.mem_map] at hkv
  obtain ⟨h, hh, rfl⟩ := hkv
  exact validKey_nulFree _ (hok h hh).key

theorem size_inserts {hs : List Raw} (hok : ∀ h ∈ hs, h.Ok) (h : (Trie.inserts (rawPairs hs)).1.size = 0) :
    hs = [] := by
  rcases List.eq_nil_or_concat hs with rfl | ⟨l, x, rfl⟩
  · rfl
  · rw [List.concat_eq_append, rawPairs_snoc, inserts_snoc] at h
    exact absurd h (size_pos _ _ _ (validKey_nulFree _ (hok x (by simp)).key))

theorem step_value {cur : Nat} {st st' : St} {c : Byte} (h : step cp m src cur st c = .ok (.ok st'))
    (hst : st'.state = .value) (hv : st.state = .value → st.start < cur) : st'.start < cur + 1 := by
  rw [step] at h
  have ins : ∀ v, st.insert v = .ok st' → False := by
    intro v hi
    unfold St.insert at hi
    split at hi
    · cases hi
    · cases hi; cases hst
  cases hs : st.state with
  | start =>
    simp only [hs] at h
    split at h
    · cases h; rw [hs] at hst; cases hst
    split at h
    · cases h; cases hst
    split at h
    · cases h; cases hst
    · cases h
  | key =>
    simp only [hs] at h
    split at h
    · cases h; rw [hs] at hst; cases hst
    split at h
    · split at h
      · cases h
      · cases h; cases hst
    · cases h
  | valueStart =>
    simp only [hs] at h
    split at h
    · cases h; exact Nat.lt_succ_self _
    · cases hi : st.insert [] with
      | ub => simp [hi] at h
      | out => simp [hi] at h
      | ok x =>
        simp only [hi, Run.bind_ok] at h
        cases h
        exact (ins _ hi).elim
  | value =>
    simp only [hs] at h
    split at h
    · cases hi : st.insert (strip (cstr (slice src st.start cur))) with
      | ub => simp [hi] at h
      | out => simp [hi] at h
      | ok x =>
        simp only [hi, Run.bind_ok] at h
        cases h
        exact (ins _ hi).elim
    · cases h
      exact Nat.lt_succ_of_lt (hv hs)
  | separator =>
    simp only [hs] at h
    split at h
    · cases h; rw [hs] at hst; cases hst
    split at h
    · cases h; cases hst
    · cases h
  | contentStart =>
    simp only [hs] at h
    split at h
    · cases h; rw [hs] at hst; cases hst
    · cases h; cases hst
  | content =>
    simp only [hs] at h
    split at h
    · split at h
      · cases h
      · cases h; cases hst
      · cases h
      · cases h
    · cases h; rw [hs] at hst; cases hst

theorem loop_wrong (rest pre : Str) (hs : List Raw) (p : Str) (st : St) (e : Err) (n : Nat)
    (hok : ∀ h ∈ hs, h.Ok) (hp : Part pre.length st p) (hsrc : src = pre ++ rest)
    (hpre : pre = rawText hs ++ p) (hrv : st.rv = (Trie.inserts (rawPairs hs)).1)
    (hval : st.state = .value → st.start < pre.length)
    (h : loop cp m src rest pre.length st = .ok (.error (e, n))) : Wrong src e n := by
  induction rest generalizing pre hs p st with
  | nil =>
    rw [loop, finish] at h
    split at h
    · rename_i h0
      rw [hrv] at h0
      have := size_inserts hok h0
      subst this
      have hp' : src = p := by rw [hsrc, hpre]; simp [rawText]
      have hl : pre.length = src.length := by rw [hsrc]; simp
      rw [hl] at h
      left
      cases hp with
      | start hb hs' =>
        simp only [hs'] at h
        cases h
        exact ⟨.nothing, .short (hp' ▸ .nothing hb), rfl⟩
      | key hb hk hs' hn =>
        simp only [hs'] at h
        cases h
        exact ⟨.noColon, .short (hp' ▸ .key hb hk), rfl⟩
      | @valueStart bl k hb hk ha hs' hkey =>
        simp only [hs', hkey] at h
        cases h
        exact ⟨.noValue k, .short (hp' ▸ .colon hb hk ha), rfl⟩
      | @value bl k v hb hk ha hv hs' hkey hn =>
        have hvn : v ≠ [] := by
          rintro rfl
          have := hval hs'
          simp at hn
          omega
        simp only [hs', hkey] at h
        cases h
        exact ⟨.noNewline k, .short (hp' ▸ .value hb hk ha hvn hv), rfl⟩
      | separator hb hs' => simp only [hs'] at h; cases h
      | contentStart _ _ _ hs' => simp only [hs'] at h; cases h
      | content _ _ _ _ hs' _ => simp only [hs'] at h; cases h
    · cases h
  | cons c r ih =>
    by_cases hlast : st.state = .content ∧ r = []
    · obtain ⟨hs', rfl⟩ := hlast
      clear ih
      right
      cases hp with
      | start _ h' => rw [hs'] at h'; cases h'
      | key _ _ h' _ => rw [hs'] at h'; cases h'
      | valueStart _ _ _ h' _ => rw [hs'] at h'; cases h'
      | value _ _ _ _ h' _ _ => rw [hs'] at h'; cases h'
      | separator _ h' => rw [hs'] at h'; cases h'
      | contentStart _ _ _ h' => rw [hs'] at h'; cases h'
      | @content bl d nls a w hb hn hne ha _ hn' =>
        have hdrop : src.drop st.start = a :: w ++ [c] := by
          have e2 : st.start = (rawText hs ++ bl ++ List.replicate (d + 1) 0x2d ++ nls).length := by
            rw [hpre] at hn'; simp at hn' ⊢; omega
          have e3 : src = (rawText hs ++ bl ++ List.replicate (d + 1) 0x2d ++ nls) ++ (a :: w ++ [c]) := by
            rw [hsrc, hpre]; simp
          rw [e2, e3]; exact List.drop_left
        rw [loop, step] at h
        simp only [hs', hdrop] at h
        rw [if_pos (by rw [hsrc]; simp), hrv] at h
        cases hf : finishContent cp m (Trie.inserts (rawPairs hs)).1 (cstr (a :: w ++ [c])) with
        | ub => rw [hf] at h; cases h
        | out => rw [hf] at h; cases h
        | ok x =>
          rw [hf] at h
          cases x with
          | error e' =>
            cases h
            obtain ⟨v, h1, h2, h3, h4⟩ := finishContent_error hf
            rw [C07.lookup_inserts _ (rawPairs_ckeys hok) _ (by decide)] at h2
            exact ⟨hs, bl ++ List.replicate (d + 1) 0x2d ++ nls ++ (a :: w ++ [c]), _, v, hok,
              by rw [hsrc, hpre]; simp, .mk hb hn hne ha, h2, h3, h4, h1, by rw [hsrc]; simp⟩
          | ok t' =>
            have := finishContent_size hf
            simp only [loop, finish, if_neg this] at h
            cases h
    · have hlast' : st.state = .content → r ≠ [] := fun h1 h2 => hlast ⟨h1, h2⟩
      rw [loop] at h
      cases hstep : step cp m src pre.length st c with
      | ub => simp only [hstep] at h; cases h
      | out => simp only [hstep] at h; cases h
      | ok x =>
        cases x with
        | error e' =>
          simp only [hstep] at h
          cases h
          obtain ⟨why, k, hb, he, hk⟩ := step_bad hp hsrc hpre hlast' hstep
          left
          refine ⟨why, ?_, he⟩
          have := Malformed.bad (raw_lines hs hok) hb
          rw [hsrc, hpre, List.append_assoc, List.length_append, hk]
          exact this
        | ok st' =>
          simp only [hstep] at h
          have hnext := step_next hp hsrc hpre hrv hlast' hstep
          have hl : pre.length + 1 = (pre ++ [c]).length := by simp
          have hval' : st'.state = .value → st'.start < (pre ++ [c]).length := fun hst => by
            rw [← hl]; exact step_value hstep hst hval
          rw [hl] at h
          rcases hnext with ⟨hrv', hp'⟩ | ⟨x, hx, hxt, hst, hrv'⟩
          · rw [hl] at hp'
            exact ih (pre ++ [c]) hs (p ++ [c]) st' hok hp' (by simp [hsrc]) (by simp [hpre]) hrv' hval' h
          · refine ih (pre ++ [c]) (hs ++ [x]) [] st' ?_ (.start (by simp) hst) (by simp [hsrc]) ?_ hrv' hval' h
            · intro y hy
              rcases List.mem_append.1 hy with hy | hy
              · exact hok y hy
              · rw [List.mem_singleton.1 hy]; exact hx
            · simp [rawText, hpre, hxt]

/-- A source is rejected for nothing else. -/
theorem only (e : Err) (n : Nat) (h : parse cp src m = .ok (.error (e, n))) : Wrong src e n :=
  loop_wrong src [] [] [] St.init e n (by simp) (.start (by simp) rfl) rfl rfl rfl (fun h => nomatch h) h

/-- A source is malformed in at most one way. -/
theorem malformed_unique (r r' : Reason) (n n' : Nat) (h : Malformed src r n) (h' : Malformed src r' n') :
    r = r' ∧ n = n' := by
  have e1 := rejected (cp := Content.parse 0) (m := 0) r n h
  rw [rejected r' n' h'] at e1
  simp only [Run.ok.injEq, Except.error.injEq, Prod.mk.injEq] at e1
  refine ⟨?_, e1.2.symm⟩
  have := e1.1
  cases r <;> cases r' <;> simp [errorOf] at this ⊢ <;> exact this.symm

/-- A key with a space after a complete line. -/
example : Malformed b!"TITLE: a\nA B: c\n" .invalidKey 10 :=
  .bad (s := b!"TITLE: a\n") (p := b!"A B: c\n") (n := 1)
    (.cons (bl := []) (k := b!"TITLE") (v := b!" a") (nl := 0x0a) (s := []) (by simp)
      ⟨_, _, rfl, by decide, by decide⟩ (by decide) (by simp [Newline]) (.inl rfl) .nil)
    (.key (bl := []) (k := b!"A") (c := 0x20) (s := b!"B: c\n") (by simp) ⟨_, _, rfl, by decide, by decide⟩
      (by unfold KeyChar; decide) (by decide))
example : Malformed b!"\nTITLE: a" (.noNewline b!"TITLE") 9 :=
  .short (.value (bl := b!"\n") (k := b!"TITLE") (v := b!" a") (by simp [Blank, Newline])
    ⟨_, _, rfl, by decide, by decide⟩ (by decide) (by decide) (by simp [Newline]))
example : parse (Content.parse 0) b!"TITLE: a\nA B: c\n" 0 = .ok (.error (.invalidKey, 10)) := rfl

end Blogc.C78
