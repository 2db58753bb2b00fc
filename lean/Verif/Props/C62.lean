import Verif.Model.MakeSettings
import Verif.Spec.MakeSettings
import Verif.Props.C92

/-!
# C62: make settings honour defaults and requirements
-/

namespace Blogc.C62

open Blogc.Spec Blogc.Spec.MakeSettings Blogc.MakeSettings
open Blogc.Config (Config)
open Blogc.Spec.Config (Doc Section)

theorem isUpper_iff (c : Byte) : isUpper c = true ↔ c!"A" ≤ c ∧ c ≤ c!"Z" := by
  simp [isUpper]

theorem isKeyByte_iff (c : Byte) : isKeyByte c = true ↔
    (c!"A" ≤ c ∧ c ≤ c!"Z") ∨ (c!"0" ≤ c ∧ c ≤ c!"9") ∨ c = c!"_" := by
  simp [isKeyByte, isUpper, or_assoc]

theorem checkKey_iff (sec k : Str) : checkKey sec k = none ↔ k = [] ∨ ValidKey k := by
  cases k with
  | nil => simp [checkKey]
  | cons c rest =>
    simp only [checkKey, reduceCtorEq, false_or, ValidKey]
    constructor
    · intro h
      refine ⟨c, rest, rfl, ?_⟩
      split at h
      · cases h
      · split at h
        · cases h
        · rename_i h1 h2
          simp only [Bool.not_eq_true', Bool.not_eq_false] at h1 h2
          refine ⟨(isUpper_iff c).1 h1, fun x hx => (isKeyByte_iff x).1 ?_⟩
          exact List.all_eq_true.1 h2 x hx
    · rintro ⟨c', rest', e, h1, h2⟩
      injection e with e1 e2
      subst e1 e2
      have a := (isUpper_iff c).2 h1
      have b : rest.all isKeyByte = true := List.all_eq_true.2 fun x hx => (isKeyByte_iff x).2 (h2 x hx)
      simp [a, b]

theorem valid_nulFree {k : Str} (h : k = [] ∨ ValidKey k) : NulFree k := by
  rcases h with rfl | ⟨c, rest, rfl, h1, h2⟩
  · intro x hx; cases hx
  · intro x hx h0
    subst h0
    rcases List.mem_cons.1 hx with h | h
    · subst h; exact absurd h1.1 (by decide)
    · rcases h2 _ h with h | h | h
      · exact absurd h.1 (by decide)
      · exact absurd h.1 (by decide)
      · exact absurd h (by decide)

/-- What the loop over the global keys stores. -/
def stored (cfg : Config) (sec : Str) (ks : List Str) : List (Str × Str) :=
  ks.filterMap fun k => (cfg.get sec k).map fun v => (k, v)

theorem inserts_snoc {α : Type} (h : List (Str × α)) (k : Str) (v : α) :
    (Trie.inserts (h ++ [(k, v)])).1 = ((Trie.inserts h).1.insert k v).1 := by
  simp [Trie.inserts, List.foldl_append]

theorem globalLoop_ok (cfg : Config) (sec : Str) (ks : List Str) (h : List (Str × Str)) (t : Trie Str) :
    globalLoop cfg sec ks (Trie.inserts h).1 = .ok t ↔
      (∀ k ∈ ks, checkKey sec k = none) ∧ t = (Trie.inserts (h ++ stored cfg sec ks)).1 := by
  induction ks generalizing h with
  | nil => simp [globalLoop, stored, eq_comm]
  | cons k ks ih =>
    simp only [globalLoop]
    cases hc : checkKey sec k with
    | some e => simp [hc]
    | none =>
      cases hg : cfg.get sec k with
      | none =>
        have e : stored cfg sec (k :: ks) = stored cfg sec ks := by simp [stored, hg]
        simp only [e, ih, List.mem_cons, forall_eq_or_imp, hc, true_and]
      | some v =>
        have e : stored cfg sec (k :: ks) = (k, v) :: stored cfg sec ks := by simp [stored, hg]
        simp only [← inserts_snoc, e, ih, List.mem_cons, forall_eq_or_imp, hc, true_and,
          List.append_assoc, List.singleton_append]

theorem requiredLoop_none (sec : Str) (t : Trie Str) (ks : List Str) :
    requiredLoop sec t ks = none ↔ ∀ k ∈ ks, ∃ v, t.lookup k = some v ∧ v ≠ [] := by
  induction ks with
  | nil => simp [requiredLoop]
  | cons k ks ih =>
    simp only [requiredLoop, List.mem_cons, forall_eq_or_imp]
    cases hl : t.lookup k with
    | none => simp
    | some v =>
      cases v with
      | nil => simp
      | cons c r => simp [ih]

/-- What the loop over the settings stores. -/
def chosen (cfg : Config) (l : List (Str × Option Str)) : List (Str × Str) :=
  l.filterMap fun p => ((cfg.get b!"settings" p.1).or p.2).map fun v => (p.1, v)

theorem settingsLoop_eq (cfg : Config) (l : List (Str × Option Str)) (h : List (Str × Str)) :
    settingsLoop cfg l (Trie.inserts h).1 = (Trie.inserts (h ++ chosen cfg l)).1 := by
  induction l generalizing h with
  | nil => simp [settingsLoop, chosen]
  | cons p l ih =>
    obtain ⟨k, d⟩ := p
    simp only [settingsLoop]
    have eo : getOr cfg b!"settings" k d = (cfg.get b!"settings" k).or d := by
      unfold getOr
      cases cfg.get b!"settings" k <;> rfl
    rw [eo]
    cases ho : (cfg.get b!"settings" k).or d with
    | none =>
      have e : chosen cfg ((k, d) :: l) = chosen cfg l := by simp [chosen, ho]
      simp only [e, ih]
    | some v =>
      have e : chosen cfg ((k, d) :: l) = (k, v) :: chosen cfg l := by simp [chosen, ho]
      simp only [← inserts_snoc, e, ih, List.append_assoc, List.singleton_append]

/-- A list without repeated keys, each key `k` mapped to `f k` if that is a
value, has the value `f k` for `k`. -/
theorem lastValue_filterMap {α : Type} (f : α → Option Str) (g : α → Str) (l : List α) (a : α)
    (ha : a ∈ l) (hn : (l.map g).Nodup) :
    lastValue (l.filterMap fun p => (f p).map fun v => (g p, v)) (g a) = f a := by
  induction l using List.reverseRecOn with
  | nil => cases ha
  | append_singleton l b ih =>
    rw [List.map_append, List.nodup_append] at hn
    have key : ∀ (l : List (Str × Str)) (x : Str × Str) (k : Str),
        lastValue (l ++ [x]) k = if x.1 = k then some x.2 else lastValue l k := by
      intro l x k
      simp only [lastValue, List.reverse_append, List.reverse_cons, List.reverse_nil,
        List.nil_append, List.singleton_append, List.find?_cons]
      cases h : x.1 == k <;> simp_all
    rw [List.filterMap_append]
    rcases List.mem_append.1 ha with hl | hb
    · have hne : g b ≠ g a := by
        have := hn.2.2 (g a) (List.mem_map_of_mem hl) (g b) (by simp)
        exact fun e => this e.symm
      cases hf : f b with
      | none => simpa [hf] using ih hl hn.1
      | some v =>
        have : (List.filterMap (fun p => (f p).map fun v => (g p, v)) [b]) = [(g b, v)] := by simp [hf]
        rw [this, key, if_neg hne]
        exact ih hl hn.1
    · have hab : a = b := by simpa using hb
      subst hab
      cases hf : f a with
      | some v =>
        have : (List.filterMap (fun p => (f p).map fun v => (g p, v)) [a]) = [(g a, v)] := by simp [hf]
        rw [this, key, if_pos rfl]
      | none =>
        have : (List.filterMap (fun p => (f p).map fun v => (g p, v)) [a]) = [] := by simp [hf]
        rw [this, List.append_nil]
        cases hv : lastValue (List.filterMap (fun p => (f p).map fun v => (g p, v)) l) (g a) with
        | none => rfl
        | some w =>
          have := (C08.lastValue_isSome _ (g a)).1 (by rw [hv]; rfl)
          simp only [List.mem_map, List.mem_filterMap] at this
          obtain ⟨q, ⟨p, hp, hq⟩, e⟩ := this
          cases hfp : f p with
          | none => simp [hfp] at hq
          | some u =>
            simp only [hfp, Option.map_some, Option.some.injEq] at hq
            subst hq
            exact absurd e.symm (hn.2.2 (g p) (List.mem_map_of_mem hp) (g a) (by simp)).symm

theorem stored_cKeys (cfg : Config) (sec : Str) (ks : List Str) (h : ∀ k ∈ ks, NulFree k) :
    CKeys (stored cfg sec ks) := by
  intro kv hkv
  simp only [stored, List.mem_filterMap] at hkv
  obtain ⟨p, hp, e⟩ := hkv
  cases hg : cfg.get sec p with
  | none => simp [hg] at e
  | some w =>
    simp only [hg, Option.map_some, Option.some.injEq] at e
    subst e
    exact h p hp

theorem defaults_nodup : (defaultSettings.map (·.1)).Nodup := by decide +kernel

theorem chosen_cKeys (cfg : Config) : CKeys (chosen cfg defaultSettings) := by
  intro kv hkv
  simp only [chosen, List.mem_filterMap] at hkv
  obtain ⟨p, hp, e⟩ := hkv
  have hk : ∀ p ∈ defaultSettings, NulFree p.1 := by decide +kernel
  cases ho : (cfg.get b!"settings" p.1).or p.2 with
  | none => simp [ho] at e
  | some v =>
    simp only [ho, Option.map_some, Option.some.injEq] at e
    subst e
    exact hk p hp

theorem documented_subset : ∀ p ∈ documented, p ∈ defaultSettings := by decide +kernel

theorem required_same : ∀ k, k ∈ requiredGlobal ↔ k ∈ required := by
  intro k
  simp only [requiredGlobal, required, List.mem_cons, List.not_mem_nil, or_false]
  grind

/-- The settings are the configured values, or the documented defaults. -/
theorem settings_lookup (cfg : Config) (k : Str) (dflt : Option Str) (h : (k, dflt) ∈ documented) :
    (settingsLoop cfg defaultSettings .nil).lookup k = (cfg.get b!"settings" k).or dflt := by
  have e := settingsLoop_eq cfg defaultSettings []
  have e0 : (Trie.inserts ([] : List (Str × Str))).1 = .nil := rfl
  rw [e0, List.nil_append] at e
  have hk : ∀ p ∈ documented, NulFree p.1 := by decide +kernel
  rw [e, C07.lookup_inserts _ (chosen_cKeys cfg) k (hk _ h)]
  exact lastValue_filterMap (fun p => (cfg.get b!"settings" p.1).or p.2) (·.1) defaultSettings
    (k, dflt) (documented_subset _ h) defaults_nodup

theorem ofConfig_ok (cfg : Config) (st : Settings) (h : ofConfig cfg = .ok st) :
    (∀ k ∈ (globalSection cfg).2.getD [], k = [] ∨ ValidKey k) ∧
    st.global = (Trie.inserts (stored cfg (globalSection cfg).1 ((globalSection cfg).2.getD []))).1 ∧
    (∀ r ∈ required, ∃ v, st.global.lookup r = some v ∧ v ≠ []) ∧
    st.settings = settingsLoop cfg defaultSettings .nil ∧
    st.posts = cfg.getList b!"posts" ∧ st.pages = cfg.getList b!"pages" ∧
    st.tags = cfg.getList b!"tags" ∧
    st.copy = (cfg.getList b!"copy").or (cfg.getList b!"copy_files") := by
  simp only [ofConfig] at h
  have e0 : (Trie.inserts ([] : List (Str × Str))).1 = .nil := rfl
  rw [← e0] at h
  cases hg : globalLoop cfg (globalSection cfg).1 ((globalSection cfg).2.getD [])
      (Trie.inserts ([] : List (Str × Str))).1 with
  | error e => rw [hg] at h; cases h
  | ok t =>
    rw [hg] at h
    obtain ⟨h1, h2⟩ := (globalLoop_ok _ _ _ [] _).1 hg
    simp only at h
    cases hr : requiredLoop (globalSection cfg).1 t requiredGlobal with
    | some e => rw [hr] at h; cases h
    | none =>
      rw [hr] at h
      injection h with h
      subst h
      refine ⟨fun k hk => (checkKey_iff _ k).1 (h1 k hk), by simpa using h2, ?_, rfl, rfl, rfl, rfl, ?_⟩
      · intro r hr'
        exact (requiredLoop_none _ _ _).1 hr r ((required_same r).2 hr')
      · cases cfg.getList b!"copy" <;> rfl

/-- The converse of `ofConfig_ok`: no other reason to refuse. -/
theorem ofConfig_accepts (cfg : Config)
    (h1 : ∀ k ∈ (globalSection cfg).2.getD [], k = [] ∨ ValidKey k)
    (h2 : ∀ r ∈ required, ∃ v,
      (Trie.inserts (stored cfg (globalSection cfg).1 ((globalSection cfg).2.getD []))).1.lookup r
        = some v ∧ v ≠ []) :
    ∃ st, ofConfig cfg = .ok st := by
  simp only [ofConfig]
  have e0 : (Trie.inserts ([] : List (Str × Str))).1 = .nil := rfl
  have hg := (globalLoop_ok cfg (globalSection cfg).1 ((globalSection cfg).2.getD []) [] _).2
    ⟨fun k hk => (checkKey_iff _ k).2 (h1 k hk), rfl⟩
  rw [e0, List.nil_append] at hg
  have hr := (requiredLoop_none (globalSection cfg).1 _ requiredGlobal).2
    fun r hr' => h2 r ((required_same r).1 hr')
  simp only [hg, hr]
  exact ⟨_, rfl⟩

/-- Every text: reading it ends without undefined behaviour. If the settings are
accepted, then the text is a configuration, the required variables are there and
are not empty, every global variable has a valid name or the empty name, and
every setting has its configured value, or its documented default. The statement
of the property does not allow the empty name, see `empty_key_violated`. -/
theorem every_text_partial (src : Str) :
    ∃ r, MakeSettings.parse src = some (.ok r) ∧ ∀ st, r = .ok st →
      ∃ cfg, Config.parse src lists = some (.ok (.ok cfg)) ∧
        (∀ r ∈ required, ∃ v, st.global.lookup r = some v ∧ v ≠ []) ∧
        (∀ k v, NulFree k → st.global.lookup k = some v → k = [] ∨ ValidKey k) ∧
        ∀ k dflt, (k, dflt) ∈ documented →
          st.settings.lookup k = (cfg.get b!"settings" k).or dflt := by
  obtain ⟨r, hp⟩ := C15.parse_total src listSections
  simp only [MakeSettings.parse, hp, Option.map_some]
  cases r with
  | error e => exact ⟨_, rfl, fun st h => by cases h⟩
  | ok cfg =>
    refine ⟨_, rfl, fun st h => ⟨cfg, hp, ?_⟩⟩
    obtain ⟨h1, h2, h3, h4, -⟩ := ofConfig_ok cfg st h
    refine ⟨h3, ?_, fun k d hk => by rw [h4]; exact settings_lookup cfg k d hk⟩
    intro k v hk hl
    have hc := stored_cKeys cfg (globalSection cfg).1 _ fun k hk => valid_nulFree (h1 k hk)
    rw [h2, C07.lookup_inserts _ hc k hk] at hl
    have := (C08.lastValue_isSome _ k).1 (by rw [hl]; rfl)
    simp only [stored, List.mem_map, List.mem_filterMap] at this
    obtain ⟨q, ⟨p, hp, hq⟩, e⟩ := this
    cases hg : cfg.get (globalSection cfg).1 p with
    | none => simp [hg] at hq
    | some w =>
      simp only [hg, Option.map_some, Option.some.injEq] at hq
      subst hq e
      exact h1 p hp

/-- The keys of a section of the configuration of a document. -/
theorem cfgOf_keys (d : Doc) (ls : List Str) (hd : d.Ok ls) (sec : Str) (hsec : NulFree sec)
    (hli : sec ∉ ls) :
    (C14.cfgOf (C14.hist ls d.sections)).keys sec =
      (d.section sec).map fun s => ((Trie.inserts s.pairs).1.foreach []).map (·.1) := by
  have hnames : ∀ x ∈ C14.hist ls d.sections, NulFree x.1 := by
    intro x hx
    simp only [C14.hist, List.mem_map] at hx
    obtain ⟨s, hs, rfl⟩ := hx
    exact (hd.2 s hs).1.2.1
  unfold Config.Config.keys Doc.section
  simp only [C14.cfgOf]
  rw [C07.lookup_inserts _ (C14.cKeys_ids _ hnames) sec hsec]
  have := C14.ids_lookup (C14.hist ls d.sections) sec
  rw [C14.lastValue_hist] at this
  cases hl : lastValue (Config.ids (C14.hist ls d.sections)) sec with
  | none =>
    rw [hl] at this
    cases hf : (d.sections.reverse.find? fun s => s.name == sec) with
    | none => rfl
    | some s => rw [hf] at this; simp at this
  | some i =>
    rw [hl] at this
    simp only [Option.bind_some] at this
    simp only [this]
    cases hf : (d.sections.reverse.find? fun s => s.name == sec) with
    | none => rfl
    | some s =>
      have hn : s.name = sec := by simpa using List.find?_some hf
      simp only [Option.map_some, C14.secOf, hn, hli, if_false]

/-- The names of the global variables of a document are C strings that are not
empty. -/
theorem globals_keys (d : Doc) (hd : d.Ok lists) : ∀ p ∈ globals d, NulFree p.1 ∧ p.1 ≠ [] := by
  have one : ∀ sec s, sec ∉ lists → d.section sec = some s → ∀ p ∈ s.pairs, NulFree p.1 ∧ p.1 ≠ [] := by
    intro sec s hli hs p hp
    have hmem : s ∈ d.sections := List.mem_reverse.1 (List.mem_of_find?_eq_some hs)
    simp only [Section.pairs, List.mem_filterMap] at hp
    obtain ⟨l, hl, e⟩ := hp
    have hok := (hd.2 s hmem).2 l hl
    cases l with
    | pair k v q =>
      simp only [Option.some.injEq] at e
      subst e
      refine ⟨hok.2.1.1, fun h0 => ?_⟩
      exact hok.2.1.2.2.2.2.1 h0
    | _ => simp at e
  intro p hp
  unfold globals at hp
  cases h1 : d.section b!"global" with
  | some s => rw [h1] at hp; exact one _ s (by decide) h1 p hp
  | none =>
    rw [h1] at hp
    cases h2 : d.section b!"environment" with
    | some s => rw [h2] at hp; exact one _ s (by decide) h2 p hp
    | none => rw [h2] at hp; cases hp

/-- The section the global variables are read from, in the configuration of a
document, and what is stored from it. -/
theorem stored_globals (d : Doc) (hd : d.Ok lists) (cfg : Config)
    (hc : cfg = C14.cfgOf (C14.hist lists d.sections)) :
    (∀ k, k ∈ (globalSection cfg).2.getD [] ↔ k ∈ (globals d).map (·.1)) ∧
    ∀ k, lastValue (stored cfg (globalSection cfg).1 ((globalSection cfg).2.getD [])) k
      = lastValue (globals d) k := by
  have ha : C14.Answers cfg d lists := hc ▸ C14.cfgOf_answers d lists hd
  have one : ∀ sec s, NulFree sec → sec ∉ lists → d.section sec = some s →
      (∀ k, k ∈ ((Trie.inserts s.pairs).1.foreach []).map (·.1) ↔ k ∈ s.pairs.map (·.1)) ∧
      ∀ k, lastValue (stored cfg sec (((Trie.inserts s.pairs).1.foreach []).map (·.1))) k
        = lastValue s.pairs k := by
    intro sec s hsec hli hs
    have hmem : s ∈ d.sections := List.mem_reverse.1 (List.mem_of_find?_eq_some hs)
    have hck := C14.pairs_cKeys s _ (hd.2 s hmem).2
    have hk : ∀ k, k ∈ ((Trie.inserts s.pairs).1.foreach []).map (·.1) ↔ k ∈ s.pairs.map (·.1) := by
      intro k
      constructor
      · intro h
        obtain ⟨⟨k', v⟩, hx, rfl⟩ := List.mem_map.1 h
        exact ((C08.mem_foreach_iff _ hck k' v).1 hx).1
      · intro h
        exact List.mem_map.2 ⟨(k, _), (C08.mem_foreach_iff _ hck k _).2 ⟨h, rfl⟩, rfl⟩
    refine ⟨hk, fun k => ?_⟩
    have hget : ∀ k, NulFree k → cfg.get sec k = lastValue s.pairs k := by
      intro k hk
      rw [ha.1 sec k hsec hk]
      simp [Doc.get, hs, hli]
    by_cases hin : k ∈ s.pairs.map (·.1)
    · have hkn : NulFree k := by
        obtain ⟨p, hp, rfl⟩ := List.mem_map.1 hin
        exact hck p hp
      rw [← hget k hkn]
      have := lastValue_filterMap (cfg.get sec) id (((Trie.inserts s.pairs).1.foreach []).map (·.1)) k
        ((hk k).2 hin) (by rw [List.map_id]; exact C08.foreach_keys_nodup _ hck)
      exact this
    · have h1 : lastValue s.pairs k = none := by
        cases hl : lastValue s.pairs k with
        | none => rfl
        | some v => exact absurd ((C08.lastValue_isSome _ k).1 (by rw [hl]; rfl)) hin
      rw [h1]
      cases hl : lastValue (stored cfg sec (((Trie.inserts s.pairs).1.foreach []).map (·.1))) k with
      | none => rfl
      | some v =>
        have := (C08.lastValue_isSome _ k).1 (by rw [hl]; rfl)
        simp only [stored, List.mem_map (f := fun x : Str × Str => x.1), List.mem_filterMap] at this
        obtain ⟨q, ⟨p, hp, hq⟩, e⟩ := this
        cases hg : cfg.get sec p with
        | none => simp [hg] at hq
        | some w =>
          simp only [hg, Option.map_some, Option.some.injEq] at hq
          subst hq e
          exact absurd ((hk p).1 hp) hin
  have k1 := cfgOf_keys d lists hd b!"global" (by decide) (by decide)
  have k2 := cfgOf_keys d lists hd b!"environment" (by decide) (by decide)
  rw [← hc] at k1 k2
  simp only [globalSection, globals]
  cases h1 : d.section b!"global" with
  | some s =>
    rw [h1] at k1
    simp only [k1, Option.map_some, Option.getD_some]
    exact one _ s (by decide) (by decide) h1
  | none =>
    rw [h1] at k1
    simp only [k1, Option.map_none]
    cases h2 : d.section b!"environment" with
    | some s =>
      rw [h2] at k2
      simp only [k2, Option.map_some, Option.getD_some]
      exact one _ s (by decide) (by decide) h2
    | none =>
      rw [h2] at k2
      simp [k2, stored]

/-- Every well-formed document is read, however it is laid out. It is accepted exactly if it is
acceptable: its global variables have valid names and the required ones have
values. Then the global variables and lists are those of the document, and every
setting has the value of the document, or its documented default. -/
theorem documents (d : Doc) (hd : d.Ok lists) (text : Str) (hw : Config.WrittenDoc d text) :
    ∃ r, MakeSettings.parse text = some (.ok r) ∧
      ((∃ st, r = .ok st) ↔ Acceptable d) ∧
      ∀ st, r = .ok st →
        (∀ k, NulFree k → st.global.lookup k = lastValue (globals d) k) ∧
        (∀ k dflt, (k, dflt) ∈ documented →
          st.settings.lookup k = (d.get lists b!"settings" k).or dflt) ∧
        st.posts = d.getList lists b!"posts" ∧
        st.pages = d.getList lists b!"pages" ∧
        st.tags = d.getList lists b!"tags" ∧
        st.copy = (d.getList lists b!"copy").or (d.getList lists b!"copy_files") := by
  have hp := C92.parse_written d lists text hd hw
  obtain ⟨cfg, hc⟩ : ∃ cfg, cfg = C14.cfgOf (C14.hist lists d.sections) := ⟨_, rfl⟩
  rw [← hc] at hp
  have ha : C14.Answers cfg d lists := hc ▸ C14.cfgOf_answers d lists hd
  obtain ⟨hk, hv⟩ := stored_globals d hd cfg hc
  have hkn : ∀ k ∈ (globalSection cfg).2.getD [], NulFree k := by
    intro k hk'
    obtain ⟨p, hp, rfl⟩ := List.mem_map.1 ((hk k).1 hk')
    exact (globals_keys d hd p hp).1
  refine ⟨ofConfig cfg, ?_, ?_, ?_⟩
  · have e : listSections = lists := rfl
    simp only [MakeSettings.parse, e, hp, Option.map_some]
  · have hck := stored_cKeys cfg (globalSection cfg).1 _ hkn
    have hreq : ∀ r ∈ required, NulFree r := by decide +kernel
    constructor
    · rintro ⟨st, h⟩
      obtain ⟨h1, h2, h3, -⟩ := ofConfig_ok cfg st h
      refine ⟨fun p hp => ?_, fun r hr => ?_⟩
      · exact (h1 p.1 ((hk p.1).2 (List.mem_map_of_mem hp))).resolve_left (globals_keys d hd p hp).2
      · have := h3 r hr
        rwa [h2, C07.lookup_inserts _ hck r (hreq r hr), hv r] at this
    · rintro ⟨h1, h2⟩
      refine ofConfig_accepts cfg (fun k hk' => ?_) (fun r hr => ?_)
      · obtain ⟨p, hp, rfl⟩ := List.mem_map.1 ((hk k).1 hk')
        exact .inr (h1 p hp)
      · have := h2 r hr
        rwa [C07.lookup_inserts _ hck r (hreq r hr), hv r]
  · intro st h
    have hck := stored_cKeys cfg (globalSection cfg).1 _ hkn
    obtain ⟨-, h2, -, h4, h5, h6, h7, h8⟩ := ofConfig_ok cfg st h
    have hl := ha.2.1
    refine ⟨fun k hk' => ?_, fun k dflt hkd => ?_, ?_, ?_, ?_, ?_⟩
    · rw [h2, C07.lookup_inserts _ hck k hk', hv k]
    · have hkn : ∀ p ∈ documented, NulFree p.1 := by decide +kernel
      rw [h4, settings_lookup cfg k dflt hkd, ha.1 _ _ (by decide) (hkn _ hkd)]
    · rw [h5, hl _ (by decide)]
    · rw [h6, hl _ (by decide)]
    · rw [h7, hl _ (by decide)]
    · rw [h8, hl _ (by decide), hl _ (by decide)]

/-- The value of the variable with the empty name in accepted settings. -/
def emptyName : Option (Res (Except Err Settings)) → Option Str
  | some (.ok (.ok st)) => st.global.lookup []
  | _ => none

theorem of_emptyName {r : Option (Res (Except Err Settings))} {v : Str} (h : emptyName r = some v) :
    ∃ st, r = some (.ok (.ok st)) ∧ st.global.lookup [] = some v := by
  unfold emptyName at h
  split at h
  · exact ⟨_, rfl, h⟩
  · cases h

/-- A line `= x` in `[global]` makes a variable with the empty name, and the
settings are accepted. -/
theorem empty_key_violated :
    ∃ src st v, MakeSettings.parse src = some (.ok (.ok st)) ∧
      st.global.lookup [] = some v ∧ ¬ ValidKey [] := by
  have h : emptyName (MakeSettings.parse
      b!"[global]\n=x\nAUTHOR_NAME=a\nAUTHOR_EMAIL=b\nSITE_TITLE=c\nSITE_TAGLINE=d\nBASE_DOMAIN=e\n")
      = some b!"x" := by decide +kernel
  obtain ⟨st, h1, h2⟩ := of_emptyName h
  exact ⟨_, st, _, h1, h2, fun ⟨c, rest, h, _⟩ => by cases h⟩

/-! Non-vacuity: an acceptable document, and one that is refused. -/

def sample : Doc :=
  { preamble := []
    sections :=
      [ ⟨b!"global", [.pair b!"AUTHOR_NAME" b!"a" false, .pair b!"AUTHOR_EMAIL" b!"b" false,
          .pair b!"SITE_TITLE" b!"c" false, .pair b!"SITE_TAGLINE" b!"d" false,
          .pair b!"BASE_DOMAIN" b!"e" false, .pair b!"X_1" b!"" true]⟩,
        ⟨b!"settings", [.pair b!"html_ext" b!".html" false]⟩,
        ⟨b!"copy_files", [.item b!"f" false]⟩ ] }

example : Acceptable sample := by
  refine ⟨?_, ?_⟩
  · intro p hp
    have h : ∀ p ∈ globals sample, checkKey [] p.1 = none ∧ p.1 ≠ [] := by decide +kernel
    exact ((checkKey_iff _ _).1 (h p hp).1).resolve_left (h p hp).2
  · intro r hr
    have h : ∀ r ∈ required, lastValue (globals sample) r ≠ none ∧
        lastValue (globals sample) r ≠ some [] := by decide +kernel
    cases hl : lastValue (globals sample) r with
    | none => exact absurd hl (h r hr).1
    | some v => exact ⟨v, rfl, fun e => (h r hr).2 (by rw [hl, e])⟩

instance (s : Str) : Decidable (Spec.Config.NoNl s) := inferInstanceAs (Decidable (_ ∧ _))

theorem trimmed_of {s : Str} (h : (s.head?.all fun c => !isSpace c) = true)
    (h2 : (s.getLast?.all fun c => !isSpace c) = true) : Spec.Config.Trimmed s := by
  refine ⟨fun c hc hw => ?_, fun c hc hw => ?_⟩
  · rw [hc] at h
    simp [(Config.white_isSpace c).2 hw] at h
  · rw [hc] at h2
    simp [(Config.white_isSpace c).2 hw] at h2

example : sample.Ok lists := by
  refine ⟨fun l hl => (by cases hl), ?_⟩
  intro s hs
  simp only [sample, List.mem_cons, List.not_mem_nil, or_false] at hs
  have key : ∀ k : Str, NulFree k → Spec.Config.NoNl k → c!"=" ∉ k →
      (k.head?.all fun c => !isSpace c) = true → (k.getLast?.all fun c => !isSpace c) = true →
      (k ≠ [] ∧ k.head? ≠ some c!"#" ∧ k.head? ≠ some c!";" ∧ k.head? ≠ some c!"[") →
      Spec.Config.KeyOk k := fun k a b c d e f => ⟨a, b, c, trimmed_of d e, f⟩
  have val : ∀ v : Str, NulFree v → Spec.Config.NoNl v → c!"\\" ∉ v →
      (v.head?.all fun c => !isSpace c) = true → (v.getLast?.all fun c => !isSpace c) = true →
      v.head? ≠ some c!"\"" → Spec.Config.PlainOk v :=
    fun v a b c d e f => ⟨a, b, c, trimmed_of d e, f⟩
  rcases hs with rfl | rfl | rfl
  · refine ⟨⟨by decide, by decide, by decide, by decide⟩, ?_⟩
    intro l hl
    simp only [List.mem_cons, List.not_mem_nil, or_false] at hl
    rcases hl with rfl | rfl | rfl | rfl | rfl | rfl
    all_goals refine ⟨by decide, key _ (by decide) (by decide) (by decide) (by decide) (by decide)
      (by decide), ?_⟩
    all_goals first
      | exact val _ (by decide) (by decide) (by decide) (by decide) (by decide) (by decide)
      | exact (by decide : NulFree b!"")
  · refine ⟨⟨by decide, by decide, by decide, by decide⟩, ?_⟩
    intro l hl
    simp only [List.mem_cons, List.not_mem_nil, or_false] at hl
    subst hl
    exact ⟨by decide, key _ (by decide) (by decide) (by decide) (by decide) (by decide) (by decide),
      val _ (by decide) (by decide) (by decide) (by decide) (by decide) (by decide)⟩
  · refine ⟨⟨by decide, by decide, by decide, by decide⟩, ?_⟩
    intro l hl
    simp only [List.mem_cons, List.not_mem_nil, or_false] at hl
    subst hl
    exact ⟨by decide, val _ (by decide) (by decide) (by decide) (by decide) (by decide) (by decide),
      fun _ => by exact ⟨by decide, by decide, by decide, by decide⟩⟩

example : ¬ Acceptable { preamble := [], sections := [⟨b!"global", [.pair b!"AUTHOR_NAME" b!"a" false]⟩] } := by
  intro h
  obtain ⟨v, hv, -⟩ := h.2 b!"BASE_DOMAIN" (by decide)
  have : lastValue [(b!"AUTHOR_NAME", b!"a")] b!"BASE_DOMAIN" = some v := hv
  exact absurd this (by simp [lastValue])

end Blogc.C62
