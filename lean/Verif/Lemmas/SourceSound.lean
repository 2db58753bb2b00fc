import Verif.Lemmas.Source

/-!
# The texts the source parser accepts
-/

namespace Blogc.Source

open Blogc Blogc.Spec Blogc.Spec.Source
open Blogc.Config (slice_at cstr_of_nulFree)

variable {cp : Str → Bool → Run Content.BSt} {m : Int} {src : Str}

/-- What has been read since the last complete header line; `n` characters have been read. -/
inductive Part : (n : Nat) → St → Str → Prop
  | start {n st p} (hb : ∀ c ∈ p, Blank c) (hs : st.state = .start) : Part n st p
  | key {n st bl k} (hb : ∀ c ∈ bl, Blank c) (hk : ValidKey k) (hs : st.state = .key)
      (hn : st.start + k.length = n) : Part n st (bl ++ k)
  | valueStart {n st bl k} (hb : ∀ c ∈ bl, Blank c) (hk : ValidKey k) (ha : k ∉ reserved)
      (hs : st.state = .valueStart) (hkey : st.key = some k) : Part n st (bl ++ k ++ b!":")
  | value {n st bl k v} (hb : ∀ c ∈ bl, Blank c) (hk : ValidKey k) (ha : k ∉ reserved)
      (hv : ∀ c ∈ v, ¬ Newline c)
      (hs : st.state = .value) (hkey : st.key = some k) (hn : st.start + v.length = n) :
      Part n st (bl ++ k ++ b!":" ++ v)
  | separator {n st bl d} (hb : ∀ c ∈ bl, Blank c) (hs : st.state = .separator) :
      Part n st (bl ++ List.replicate (d + 1) 0x2d)
  | contentStart {n st bl d nls} (hb : ∀ c ∈ bl, Blank c) (hn : ∀ c ∈ nls, Newline c)
      (hne : nls ≠ []) (hs : st.state = .contentStart) :
      Part n st (bl ++ List.replicate (d + 1) 0x2d ++ nls)
  | content {n st bl d nls a w} (hb : ∀ c ∈ bl, Blank c) (hn : ∀ c ∈ nls, Newline c)
      (hne : nls ≠ []) (ha : ¬ Newline a) (hs : st.state = .content)
      (hn : st.start + (w.length + 1) = n) :
      Part n st (bl ++ List.replicate (d + 1) 0x2d ++ nls ++ a :: w)

/-- What may follow the last header line of a file without content: nothing, an
unfinished header line, or a separator with at most one byte of content. -/
inductive Unfinished : Str → Prop
  | blanks {bl} (hb : ∀ c ∈ bl, Blank c) : Unfinished bl
  | key {bl k} (hb : ∀ c ∈ bl, Blank c) (hk : ValidKey k) : Unfinished (bl ++ k)
  | value {bl k v} (hb : ∀ c ∈ bl, Blank c) (hk : ValidKey k) (ha : k ∉ reserved)
      (hv : ∀ c ∈ v, ¬ Newline c) : Unfinished (bl ++ k ++ b!":" ++ v)
  | separator {bl d nls} (hb : ∀ c ∈ bl, Blank c) (hn : ∀ c ∈ nls, Newline c) :
      Unfinished (bl ++ List.replicate (d + 1) 0x2d ++ nls)
  | byte {bl d nls a} (hb : ∀ c ∈ bl, Blank c) (hn : ∀ c ∈ nls, Newline c) (hne : nls ≠ [])
      (ha : ¬ Newline a) : Unfinished (bl ++ List.replicate (d + 1) 0x2d ++ nls ++ [a])

/-- A complete ending: separator and content of at least two bytes. -/
inductive Finished : Str → Str → Prop
  | mk {bl d nls a w b} (hb : ∀ c ∈ bl, Blank c) (hn : ∀ c ∈ nls, Newline c) (hne : nls ≠ [])
      (ha : ¬ Newline a) :
      Finished (bl ++ List.replicate (d + 1) 0x2d ++ nls ++ (a :: w ++ [b])) (a :: w ++ [b])

/-- The result of a step, with one character more read. -/
def Next (hs : List Raw) (p : Str) (n : Nat) (c : Byte) (st : St) : Prop :=
  (st.rv = (Trie.inserts (rawPairs hs)).1 ∧ Part (n + 1) st (p ++ [c])) ∨
  (∃ h : Raw, h.Ok ∧ h.text = p ++ [c] ∧ st.state = .start ∧
    st.rv = (Trie.inserts (rawPairs (hs ++ [h]))).1)

theorem validKey_snoc {k : Str} {c : Byte} (hk : ValidKey k) (hc : isKeyChar c = true) :
    ValidKey (k ++ [c]) := by
  obtain ⟨a, r, rfl, ha, hr⟩ := hk
  refine ⟨a, r ++ [c], rfl, ha, ?_⟩
  intro d hd
  rcases List.mem_append.1 hd with hd | hd
  · exact hr d hd
  · rw [List.mem_singleton.1 hd]; exact (isKeyChar_iff c).1 hc

theorem forall_snoc {P : Byte → Prop} {s : Str} {c : Byte} (h : ∀ d ∈ s, P d) (hc : P c) :
    ∀ d ∈ s ++ [c], P d := by
  intro d hd
  rcases List.mem_append.1 hd with hd | hd
  · exact h d hd
  · rw [List.mem_singleton.1 hd]; exact hc

theorem rawPairs_snoc (hs : List Raw) (h : Raw) :
    rawPairs (hs ++ [h]) = rawPairs hs ++ [(h.key, strip (cstr h.raw))] := by
  simp [rawPairs]

theorem step_next {hs : List Raw} {p pre r : Str} {st st' : St} {c : Byte}
    (hp : Part pre.length st p) (hsrc : src = pre ++ c :: r) (hpre : pre = rawText hs ++ p)
    (hrv : st.rv = (Trie.inserts (rawPairs hs)).1) (hlast : st.state = .content → r ≠ [])
    (h : step cp m src pre.length st c = .ok (.ok st')) : Next hs p pre.length c st' := by
  rw [step] at h
  cases hp with
  | start hb hs' =>
    simp only [hs'] at h
    split at h
    · rename_i hc
      cases h
      exact .inl ⟨hrv, .start (forall_snoc hb ((blank_iff c).1 hc)) hs'⟩
    · split at h
      · rename_i hc
        cases h
        refine .inl ⟨hrv, .key hb ⟨c, [], rfl, (isUpper_iff c).1 hc, by simp⟩ rfl rfl⟩
      · split at h
        · rename_i hc
          cases h
          subst hc
          exact .inl ⟨hrv, .separator (d := 0) hb rfl⟩
        · cases h
  | @key bl k hb hk hs' hn =>
    simp only [hs'] at h
    split at h
    · rename_i hc
      cases h
      refine .inl ⟨hrv, ?_⟩
      rw [List.append_assoc]
      exact .key hb (validKey_snoc hk hc) hs' (by simp; omega)
    · split at h
      · rename_i hc
        have hk' : cstr (slice src st.start pre.length) = k := by
          have e1 : st.start = (rawText hs ++ bl).length := by
            rw [hpre] at hn; simp at hn ⊢; omega
          have e2 : pre.length = (rawText hs ++ bl ++ k).length := by rw [hpre]; simp
          rw [e1, e2, slice_at (post := c :: r) (by rw [hsrc, hpre]; simp),
            cstr_of_nulFree _ (validKey_nulFree k hk)]
        rw [hk'] at h
        split at h
        · cases h
        · rename_i ha
          cases h
          subst hc
          exact .inl ⟨hrv, .valueStart hb hk ha rfl rfl⟩
      · cases h
  | @valueStart bl k hb hk ha hs' hkey =>
    simp only [hs'] at h
    split at h
    · rename_i hc
      cases h
      exact .inl ⟨hrv, .value (v := [c]) hb hk ha (by simpa using (isNl_false c).1 hc) rfl hkey rfl⟩
    · rename_i hc
      simp only [St.insert, hkey] at h
      cases h
      refine .inr ⟨⟨bl, k, [], c⟩, ⟨hb, hk, ha, by simp, ?_⟩, by simp [Raw.text], rfl, ?_⟩
      · exact (isNl_iff c).1 (by simpa using hc)
      · rw [rawPairs_snoc, inserts_snoc, ← hrv]; rfl
  | @value bl k v hb hk ha hv hs' hkey hn =>
    simp only [hs'] at h
    split at h
    · rename_i hc
      have hv' : slice src st.start pre.length = v := by
        have e1 : st.start = (rawText hs ++ bl ++ k ++ b!":").length := by
          rw [hpre] at hn; simp at hn ⊢; omega
        have e2 : pre.length = (rawText hs ++ bl ++ k ++ b!":" ++ v).length := by
          rw [hpre]; simp
        rw [e1, e2, slice_at (post := c :: r) (by rw [hsrc, hpre]; simp)]
      simp only [St.insert, hkey, hv'] at h
      cases h
      refine .inr ⟨⟨bl, k, v, c⟩, ⟨hb, hk, ha, hv, (isNl_iff c).1 hc⟩, by simp [Raw.text], rfl, ?_⟩
      rw [rawPairs_snoc, inserts_snoc, ← hrv]
    · rename_i hc
      cases h
      refine .inl ⟨hrv, ?_⟩
      rw [List.append_assoc]
      exact .value hb hk ha (forall_snoc hv ((isNl_false c).1 (by simpa using hc))) hs' hkey
        (by simp; omega)
  | @separator bl d hb hs' =>
    simp only [hs'] at h
    split at h
    · rename_i hc
      cases h
      subst hc
      refine .inl ⟨hrv, ?_⟩
      rw [List.append_assoc, ← List.replicate_succ']
      exact .separator hb hs'
    · split at h
      · rename_i hc
        cases h
        exact .inl ⟨hrv, .contentStart hb (by simpa using (isNl_iff c).1 hc) (by simp) rfl⟩
      · cases h
  | @contentStart bl d nls hb hn hne hs' =>
    simp only [hs'] at h
    split at h
    · rename_i hc
      cases h
      refine .inl ⟨hrv, ?_⟩
      rw [List.append_assoc]
      exact .contentStart hb (forall_snoc hn ((isNl_iff c).1 hc)) (by simp) hs'
    · rename_i hc
      cases h
      exact .inl ⟨hrv, .content hb hn hne ((isNl_false c).1 (by simpa using hc)) rfl rfl⟩
  | @content bl d nls a w hb hn hne ha hs' hn' =>
    have hr := hlast hs'
    simp only [hs'] at h
    rw [if_neg] at h
    · cases h
      refine .inl ⟨hrv, ?_⟩
      rw [List.append_assoc, List.cons_append]
      exact .content hb hn hne ha hs' (by simp; omega)
    · rw [hsrc]
      cases r with
      | nil => exact absurd rfl hr
      | cons x r => simp

theorem part_unfinished {n : Nat} {st : St} {p : Str} (hp : Part n st p)
    (h : st.state ≠ .content) : Unfinished p := by
  cases hp with
  | start hb _ => exact .blanks hb
  | key hb hk _ _ => exact .key hb hk
  | valueStart hb hk ha _ _ =>
    have := Unfinished.value (v := []) hb hk ha (by simp)
    rwa [List.append_nil] at this
  | value hb hk ha hv _ _ _ => exact .value hb hk ha hv
  | @separator bl d hb _ =>
    have := Unfinished.separator (d := d) (nls := []) hb (by simp)
    rwa [List.append_nil] at this
  | contentStart hb hn _ _ => exact .separator hb hn
  | content _ _ _ _ hs _ => exact absurd hs h

/-- Every accepted text is header lines followed by a complete ending, or by one that
leaves no trace. -/
theorem loop_sound (rest pre : Str) (hs : List Raw) (p : Str) (st : St) (t : Trie Str)
    (hok : ∀ h ∈ hs, h.Ok) (hp : Part pre.length st p) (hsrc : src = pre ++ rest)
    (hpre : pre = rawText hs ++ p) (hrv : st.rv = (Trie.inserts (rawPairs hs)).1)
    (hone : rest = [] → st.state = .content → ∃ bl d nls a, p = bl ++ List.replicate (d + 1) 0x2d ++ nls ++ [a] ∧
      (∀ c ∈ bl, Blank c) ∧ (∀ c ∈ nls, Newline c) ∧ nls ≠ [] ∧ ¬ Newline a)
    (h : loop cp m src rest pre.length st = .ok (.ok t)) :
    ∃ (hs : List Raw) (p : Str), (∀ h ∈ hs, h.Ok) ∧ src = rawText hs ++ p ∧
      ((Unfinished p ∧ t = (Trie.inserts (rawPairs hs)).1) ∨
       (∃ w, Finished p w ∧
        finishContent cp m (Trie.inserts (rawPairs hs)).1 (cstr w) = .ok (.ok t))) := by
  induction rest generalizing pre hs p st with
  | nil =>
    refine ⟨hs, p, hok, by rw [hsrc, hpre]; simp, .inl ⟨?_, ?_⟩⟩
    · by_cases hc : st.state = .content
      · obtain ⟨bl, d, nls, a, rfl, h1, h2, h3, h4⟩ := hone rfl hc
        exact .byte h1 h2 h3 h4
      · exact part_unfinished hp hc
    · rw [loop, finish] at h
      rw [← hrv]
      split at h
      · split at h <;> cases h
        rfl
      · cases h; rfl
  | cons c r ih =>
    by_cases hlast : st.state = .content ∧ r = []
    · obtain ⟨hs', rfl⟩ := hlast
      clear ih
      cases hp with
      | start _ h' => rw [hs'] at h'; cases h'
      | key _ _ h' _ => rw [hs'] at h'; cases h'
      | valueStart _ _ _ h' _ => rw [hs'] at h'; cases h'
      | value _ _ _ _ h' _ _ => rw [hs'] at h'; cases h'
      | separator _ h' => rw [hs'] at h'; cases h'
      | contentStart _ _ _ h' => rw [hs'] at h'; cases h'
      | @content bl d nls a w hb hn hne ha _ hn' =>
        refine ⟨hs, bl ++ List.replicate (d + 1) 0x2d ++ nls ++ (a :: w ++ [c]), hok, ?_,
          .inr ⟨_, .mk hb hn hne ha, ?_⟩⟩
        · rw [hsrc, hpre]; simp
        · have hdrop : src.drop st.start = a :: w ++ [c] := by
            have e2 : st.start = (rawText hs ++ bl ++ List.replicate (d + 1) 0x2d ++ nls).length := by
              rw [hpre] at hn'; simp at hn' ⊢; omega
            have e3 : src = (rawText hs ++ bl ++ List.replicate (d + 1) 0x2d ++ nls) ++ (a :: w ++ [c]) := by
              rw [hsrc, hpre]; simp
            rw [e2, e3]; exact List.drop_left
          rw [loop, step] at h
          simp only [hs', hdrop] at h
          rw [if_pos (by rw [hsrc]; simp), hrv] at h
          cases hf : finishContent cp m (Trie.inserts (rawPairs hs)).1 (cstr (a :: w ++ [c])) with
          | ub => rw [hf] at h; cases h
          | out => rw [hf] at h; cases h
          | ok x =>
            rw [hf] at h
            cases x with
            | error e => cases h
            | ok t' =>
              have := finishContent_size hf
              simp only [loop, finish, if_neg this] at h
              cases h; rfl
    · have hlast' : st.state = .content → r ≠ [] := fun h1 h2 => hlast ⟨h1, h2⟩
      rw [loop] at h
      cases hstep : step cp m src pre.length st c with
      | ub => simp only [hstep] at h; cases h
      | out => simp only [hstep] at h; cases h
      | ok x =>
        cases x with
        | error e => simp only [hstep] at h; cases h
        | ok st' =>
          simp only [hstep] at h
          have hnext := step_next hp hsrc hpre hrv hlast' hstep
          have hl : pre.length + 1 = (pre ++ [c]).length := by simp
          rw [hl] at h
          rcases hnext with ⟨hrv', hp'⟩ | ⟨x, hx, hxt, hst, hrv'⟩
          · rw [hl] at hp'
            refine ih (pre ++ [c]) hs (p ++ [c]) st' hok hp' (by simp [hsrc]) (by simp [hpre]) hrv' ?_ h
            intro hr hst'
            have hne : st.state ≠ .content := fun hh => hlast' hh hr
            -- the state before was `contentStart`
            rw [step] at hstep
            cases hp with
            | @contentStart bl d nls hb hn hne' hs'' =>
              simp only [hs''] at hstep
              split at hstep
              · cases hstep; rw [hs''] at hst'; cases hst'
              · rename_i hc
                exact ⟨bl, d, nls, c, rfl, hb, hn, hne', (isNl_false c).1 (by simpa using hc)⟩
            | content _ _ _ _ h' _ => exact absurd h' hne
            | start _ h' =>
              simp only [h'] at hstep
              split at hstep
              · cases hstep; rw [h'] at hst'; cases hst'
              · split at hstep
                · cases hstep; cases hst'
                · split at hstep <;> cases hstep
                  cases hst'
            | key _ _ h' _ =>
              simp only [h'] at hstep
              split at hstep
              · cases hstep; rw [h'] at hst'; cases hst'
              · split at hstep
                · split at hstep <;> cases hstep
                  cases hst'
                · cases hstep
            | valueStart _ _ _ h' hkey =>
              simp only [h'] at hstep
              split at hstep
              · cases hstep; cases hst'
              · simp only [St.insert, hkey] at hstep; cases hstep; cases hst'
            | value _ _ _ _ h' hkey _ =>
              simp only [h'] at hstep
              split at hstep
              · simp only [St.insert, hkey] at hstep; cases hstep; cases hst'
              · cases hstep; rw [h'] at hst'; cases hst'
            | separator _ h' =>
              simp only [h'] at hstep
              split at hstep
              · cases hstep; rw [h'] at hst'; cases hst'
              · split at hstep <;> cases hstep
                cases hst'
          · refine ih (pre ++ [c]) (hs ++ [x]) [] st' ?_ (.start (by simp) hst) (by simp [hsrc]) ?_ hrv' ?_ h
            · intro y hy
              rcases List.mem_append.1 hy with hy | hy
              · exact hok y hy
              · rw [List.mem_singleton.1 hy]; exact hx
            · simp [hpre, rawText, hxt]
            · intro _ h'; rw [hst] at h'; cases h'

theorem parse_sound {t : Trie Str} (h : parse cp src m = .ok (.ok t)) :
    ∃ (hs : List Raw) (p : Str), (∀ h ∈ hs, h.Ok) ∧ src = rawText hs ++ p ∧
      ((Unfinished p ∧ t = (Trie.inserts (rawPairs hs)).1) ∨
       (∃ w, Finished p w ∧
        finishContent cp m (Trie.inserts (rawPairs hs)).1 (cstr w) = .ok (.ok t))) := by
  refine loop_sound src [] [] [] St.init t (by simp) (.start (by simp) rfl) rfl rfl rfl ?_ h
  intro _ h; cases h

end Blogc.Source
