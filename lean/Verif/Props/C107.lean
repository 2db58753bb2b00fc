import Verif.Lemmas.ConfigWrong
import Verif.Lemmas.ErrorText
import Verif.Model.ParserErrors
import Verif.Props.C62
import Verif.Props.C78

/-!
# C107: mistakes in settings and source files are reported for what they are, where they are
-/

namespace Blogc.C107

open Blogc Blogc.Spec

/-- A message with the place `n` of the file `src`. -/
def located (src : Str) (n : Nat) (msg : Str) : Str :=
  msg ++ b!"\nError occurred near line " ++ decNat (lineNumber src n) ++ b!", position " ++ decNat (column src n) ++
    b!": " ++ slice src (lineStart src n) (lineEnd src n)

theorem onLine_at {src pre post : Str} {c : Byte} (h : src = pre ++ c :: post) (hc : c ≠ c!"\n" ∧ c ≠ c!"\r") :
    OnLine src pre.length ∧ OnLine src (pre.length + 1) := by
  have : src[pre.length]? = some c := by simp [h]
  exact ⟨⟨_, c, .inl rfl, this, hc⟩, ⟨_, c, .inr rfl, this, hc⟩⟩

/-- After a text that does not end with a line break. -/
theorem onLine_after {src pre s post : Str} (h : src = pre ++ s ++ post) (hs : s ≠ [])
    (hb : ∀ c ∈ s, c ≠ c!"\n" ∧ c ≠ c!"\r") : OnLine src (pre ++ s).length := by
  rcases List.eq_nil_or_concat s with rfl | ⟨l, c, rfl⟩
  · exact absurd rfl hs
  · have := (onLine_at (src := src) (pre := pre ++ l) (post := post) (c := c) (by simp [h]) (hb c (by simp))).2
    simpa [Nat.add_assoc] using this

/-! ### The settings file -/

section Settings

open Blogc.Spec.ConfigMistakes Blogc.Spec.MakeSettings

variable {src : Str} {why : Reason} {n : Nat}

theorem notBreak_ne {c : Byte} (h : ¬ Break c) : c ≠ c!"\n" ∧ c ≠ c!"\r" :=
  ⟨fun e => h (.inl e), fun e => h (.inr e)⟩

/-- A file is refused as a configuration if and only if it has a mistake, and the error tells what and where. -/
theorem refused_iff {e : Config.Err} :
    Config.parse src lists = some (.ok (.error (e, n))) ↔ ∃ why, e = Config.errorOf why ∧ Malformed lists src why n :=
  ⟨Config.refused, fun ⟨_, he, hm⟩ => he ▸ Config.wrong_refused hm⟩

/-- A file without mistakes is accepted as a configuration. -/
theorem accepted_iff :
    (∃ cfg, Config.parse src lists = some (.ok (.ok cfg))) ↔ ∀ why n, ¬ Malformed lists src why n := by
  constructor
  · rintro ⟨cfg, h⟩ why n hm
    rw [Config.wrong_refused hm] at h
    cases h
  · intro h
    obtain ⟨r, hr⟩ := C15.parse_total src lists
    cases r with
    | ok cfg => exact ⟨cfg, hr⟩
    | error e =>
      obtain ⟨e, k⟩ := e
      obtain ⟨why, _, hm⟩ := Config.refused hr
      exact absurd hm (h why k)

theorem named_key {k : Str} (hn : NulFree src) (h : Malformed lists src (.noValue k) n) : cstr k = k := by
  obtain ⟨s, t, p, j, rfl, _, hm, rfl⟩ := h
  apply Config.cstr_of_nulFree
  cases hm with
  | noValue => exact fun x hx => hn x (by simp [hx])
  | lastKey => exact fun x hx => hn x (List.mem_append_right _ hx)

/-- There is one mistake that counts. -/
theorem one_mistake {why' : Reason} {n' : Nat} (hn : NulFree src) (h : Malformed lists src why n)
    (h' : Malformed lists src why' n') : why = why' ∧ n = n' := by
  have e := Config.wrong_refused h
  rw [Config.wrong_refused h'] at e
  simp only [Option.some.injEq, Res.ok.injEq, Except.error.injEq, Prod.mk.injEq] at e
  refine ⟨?_, e.2.symm⟩
  have e1 := e.1
  cases why <;> cases why' <;> simp only [Config.errorOf, reduceCtorEq] at e1 <;> try rfl
  rw [Config.Err.keyWithoutValue.injEq, named_key hn h, named_key hn h'] at e1
  rw [e1]

/-- The mistake is on a line, unless the name of a section begins with a line break. -/
theorem mistake_on_line (h : Malformed lists src why n) :
    OnLine src n ∨ why = .brokenName ∧ ∃ c, src[n - 1]? = some c ∧ Break c := by
  obtain ⟨s, t, p, k, rfl, _, hm, rfl⟩ := h
  cases hm with
  | @noSection c r hc =>
    left
    exact (onLine_at (pre := s) rfl (notBreak_ne hc.2.2.1)).1
  | @brokenName _ c e n r hn he =>
    by_cases hb : n = [] ∧ Break c
    · right
      obtain ⟨rfl, hb⟩ := hb
      refine ⟨rfl, c, ?_, hb⟩
      simp
    · left
      rcases List.eq_nil_or_concat n with rfl | ⟨l, d, rfl⟩
      · have hc : ¬ Break c := fun h => hb ⟨rfl, h⟩
        have := (onLine_at (src := s ++ (b!"[" ++ c :: [] ++ e :: r)) (pre := s ++ b!"[") (post := e :: r) (c := c)
          (by simp) (notBreak_ne hc)).2
        simpa [Nat.add_assoc] using this
      · have := (onLine_at (src := s ++ (b!"[" ++ c :: l.concat d ++ e :: r)) (pre := s ++ b!"[" ++ c :: l)
          (post := e :: r) (c := d) (by simp) (notBreak_ne (hn d (by simp)).2)).2
        simpa [Nat.add_assoc, Nat.add_comm, Nat.add_left_comm] using this
  | @noValue key r e hk hb _ =>
    left
    have := onLine_after (src := s ++ (key ++ e :: r)) (pre := s) (s := key) (post := e :: r) (by simp)
      (by obtain ⟨c, r, rfl, _⟩ := hb; simp) (fun c hc => notBreak_ne (hk c hc).2)
    simpa using this
  | @lastKey key c hk hb =>
    left
    have := (onLine_at (src := s ++ (key ++ [c])) (pre := s ++ key) (post := []) (c := c) (by simp)
      (notBreak_ne (hk c (by simp)).2)).1
    simpa using this
  | @afterValue key v t g r c d _ _ _ _ _ _ hb =>
    left
    have := (onLine_at (src := s ++ (key ++ b!"=" ++ v ++ b!"\"" ++ t ++ b!"\"" ++ g ++ c :: d :: r))
      (pre := s ++ (key ++ b!"=" ++ v ++ b!"\"" ++ t ++ b!"\"" ++ g)) (post := d :: r) (c := c) (by simp)
      (notBreak_ne hb)).1
    rwa [List.length_append] at this
  | @afterItem v t g r c d _ _ _ _ _ hb =>
    left
    have := (onLine_at (src := s ++ (v ++ b!"\"" ++ t ++ b!"\"" ++ g ++ c :: d :: r))
      (pre := s ++ (v ++ b!"\"" ++ t ++ b!"\"" ++ g)) (post := d :: r) (c := c) (by simp)
      (notBreak_ne hb)).1
    rwa [List.length_append] at this

theorem mistake_inside (h : Malformed lists src why n) : n < src.length := by
  obtain ⟨s, t, p, k, rfl, _, hm, rfl⟩ := h
  cases hm <;> simp <;> omega

theorem message_wording (hn : NulFree src) (h : Malformed lists src why n) :
    Config.message (Config.errorOf why) = wording why := by
  cases why with
  | noValue k => rw [Config.errorOf, named_key hn h]; rfl
  | _ => rfl

/-- blogc-make reads a settings file with a mistake: it prints what is wrong, and where. -/
theorem settings_reported (hs : src.length < 2 ^ 31 - 1) (hn : NulFree src) (h : Malformed lists src why n) :
    ∃ e, MakeSettings.parse src = some (.ok (.error e)) ∧
      (OnLine src n → settingsComplaint src e =
        .ok (b!"blogc-make: error: config-parser: " ++ located src n (wording why) ++ b!"\n")) ∧
      (settingsComplaint src e = .ok (b!"blogc-make: error: config-parser: " ++ wording why ++ b!"\n") ∨
        ∃ line, settingsComplaint src e =
          .ok (b!"blogc-make: error: config-parser: " ++ wording why ++ b!"\nError occurred near line " ++
            decNat (lineNumber src n) ++ b!", position " ++ decNat (column src n) ++ b!": " ++ line ++ b!"\n")) := by
  refine ⟨.syntax (Config.errorOf why, n), ?_, ?_, ?_⟩
  · have := Config.wrong_refused h
    rw [MakeSettings.parse, show MakeSettings.listSections = lists from rfl, this]
    rfl
  · intro ho
    rw [settingsComplaint, message_wording hn h, errText_on hs hn ho]
    simp [Res.map, errPrint, errWords, located]
  · have hl := mistake_inside h
    rw [settingsComplaint, message_wording hn h]
    rcases errText_numbered (msg := wording why) hs (Nat.le_of_lt hl) with e | ⟨line, e⟩
    · left; rw [e]; simp [Res.map, errPrint, errWords]
    · right; exact ⟨line, by rw [e]; simp [Res.map, errPrint, errWords]⟩

/-- The name of the section the global variables are read from. -/
def globalName (d : Spec.Config.Doc) : Str :=
  match d.section b!"global", d.section b!"environment" with
  | none, some _ => b!"environment"
  | _, _ => b!"global"

/-- A name that begins with an uppercase letter. -/
def Capital (k : Str) : Prop := ∃ c ∈ k.head?, c!"A" ≤ c ∧ c ≤ c!"Z"

instance (k : Str) : Decidable (Capital k) := inferInstanceAs (Decidable (∃ c ∈ k.head?, c!"A" ≤ c ∧ c ≤ c!"Z"))

theorem checkKey_some {sec k : Str} {e : MakeSettings.Err} (h : MakeSettings.checkKey sec k = some e) :
    ¬ ValidKey k ∧ e = if Capital k then .otherChar sec k else .firstChar sec k := by
  refine ⟨fun hv => ?_, ?_⟩
  · rw [(C62.checkKey_iff sec k).2 (.inr hv)] at h; cases h
  · cases k with
    | nil => cases h
    | cons c r =>
      simp only [MakeSettings.checkKey] at h
      by_cases hu : MakeSettings.isUpper c
      · rw [if_neg (by simp [hu])] at h
        rw [if_pos ⟨c, rfl, (C62.isUpper_iff c).1 hu⟩]
        split at h
        · injection h with h; exact h.symm
        · cases h
      · rw [if_pos (by simp [hu])] at h
        rw [if_neg]
        · injection h with h; exact h.symm
        · rintro ⟨c', e, hu'⟩
          injection e with e1
          subst e1
          exact hu ((C62.isUpper_iff c).2 hu')

theorem globalLoop_error {cfg : Config.Config} {sec : Str} {e : MakeSettings.Err} :
    ∀ {ks : List Str} {t : Trie Str}, MakeSettings.globalLoop cfg sec ks t = .error e →
      ∃ k ∈ ks, MakeSettings.checkKey sec k = some e
  | [], _, h => nomatch h
  | k :: ks, t, h => by
    rw [MakeSettings.globalLoop] at h
    cases hc : MakeSettings.checkKey sec k with
    | some e' =>
      rw [hc] at h
      injection h with h
      exact ⟨k, List.mem_cons_self .., h ▸ hc⟩
    | none =>
      rw [hc] at h
      simp only at h
      split at h
      all_goals
        obtain ⟨k', h1, h2⟩ := globalLoop_error h
        exact ⟨k', List.mem_cons_of_mem _ h1, h2⟩

theorem requiredLoop_some {sec : Str} {t : Trie Str} {e : MakeSettings.Err} :
    ∀ {ks : List Str}, MakeSettings.requiredLoop sec t ks = some e →
      ∃ k ∈ ks, e = .required sec k ∧ (t.lookup k = none ∨ t.lookup k = some [])
  | [], h => nomatch h
  | k :: ks, h => by
    rw [MakeSettings.requiredLoop] at h
    split at h
    · rename_i hl
      injection h with h
      exact ⟨k, List.mem_cons_self .., h.symm, .inl hl⟩
    · rename_i hl
      injection h with h
      exact ⟨k, List.mem_cons_self .., h.symm, .inr hl⟩
    · obtain ⟨k', h1, h2⟩ := requiredLoop_some h
      exact ⟨k', List.mem_cons_of_mem _ h1, h2⟩

theorem globalSection_name (d : Spec.Config.Doc) (hd : d.Ok lists) :
    (MakeSettings.globalSection (C14.cfgOf (C14.hist lists d.sections))).1 = globalName d := by
  have k1 := C62.cfgOf_keys d lists hd b!"global" (by decide) (by decide)
  have k2 := C62.cfgOf_keys d lists hd b!"environment" (by decide) (by decide)
  rw [MakeSettings.globalSection, globalName, k1, k2]
  cases d.section b!"global" <;> cases d.section b!"environment" <;> rfl

/-- blogc-make reads a settings file without mistakes of form, but with a wrong name of a global variable, or without a
required one: what is printed names such a variable, and the section. -/
theorem content_reported (d : Spec.Config.Doc) (hd : d.Ok lists) (text : Str) (hw : Spec.Config.WrittenDoc d text)
    (h : ¬ Acceptable d) :
    ∃ e, MakeSettings.parse text = some (.ok (.error e)) ∧
      ((∃ p ∈ globals d, ¬ ValidKey p.1 ∧ settingsComplaint text e =
        .ok (b!"blogc-make: error: settings: Invalid [" ++ globalName d ++
          (if Capital p.1
            then b!"] key (must be uppercase with '_' and digits after first character): "
            else b!"] key (first character must be uppercase): ") ++ p.1 ++ b!"\n")) ∨
      (∀ p ∈ globals d, ValidKey p.1) ∧ ∃ k ∈ required,
        (lastValue (globals d) k = none ∨ lastValue (globals d) k = some []) ∧ settingsComplaint text e =
          .ok (b!"blogc-make: error: settings: [" ++ globalName d ++ b!"] key required but not found or empty: " ++ k ++
            b!"\n")) := by
  have hp := C92.parse_written d lists text hd hw
  obtain ⟨hk, hv⟩ := C62.stored_globals d hd _ rfl
  have hname := globalSection_name d hd
  generalize C14.cfgOf (C14.hist lists d.sections) = cfg at hp hk hv hname
  have hkn : ∀ k ∈ (MakeSettings.globalSection cfg).2.getD [], NulFree k := by
    intro k hk'
    obtain ⟨p, hp, rfl⟩ := List.mem_map.1 ((hk k).1 hk')
    exact (C62.globals_keys d hd p hp).1
  obtain ⟨r, hr, hiff, _⟩ := C62.documents d hd text hw
  have hr' : r = MakeSettings.ofConfig cfg := by
    simp only [MakeSettings.parse, show MakeSettings.listSections = lists from rfl, hp, Option.map_some] at hr
    injection hr with hr
    injection hr with hr
    exact hr.symm
  cases r with
  | ok st => exact absurd (hiff.1 ⟨st, rfl⟩) h
  | error e =>
    refine ⟨e, hr, ?_⟩
    rw [MakeSettings.ofConfig] at hr'
    cases hg : MakeSettings.globalLoop cfg (MakeSettings.globalSection cfg).1
        ((MakeSettings.globalSection cfg).2.getD []) .nil with
    | error e' =>
      left
      rw [hg] at hr'
      injection hr' with hr'
      obtain ⟨k, h1, h2⟩ := globalLoop_error hg
      obtain ⟨p, hp, rfl⟩ := List.mem_map.1 ((hk k).1 h1)
      obtain ⟨h3, h4⟩ := checkKey_some h2
      refine ⟨p, hp, h3, ?_⟩
      rw [hr', h4, hname]
      split <;> simp [settingsComplaint, errPrint, errWords]
    | ok t =>
      right
      rw [hg] at hr'
      simp only at hr'
      obtain ⟨g1, g2⟩ := (C62.globalLoop_ok cfg _ _ [] t).1 hg
      rw [List.nil_append] at g2
      refine ⟨fun p hp => ?_, ?_⟩
      · have := (C62.checkKey_iff _ p.1).1 (g1 p.1 ((hk p.1).2 (List.mem_map_of_mem hp)))
        exact this.resolve_left (C62.globals_keys d hd p hp).2
      · cases hq : MakeSettings.requiredLoop (MakeSettings.globalSection cfg).1 t MakeSettings.requiredGlobal with
        | none => rw [hq] at hr'; cases hr'
        | some e' =>
          rw [hq] at hr'
          injection hr' with hr'
          obtain ⟨k, h1, h2, h3⟩ := requiredLoop_some hq
          have hck := C62.stored_cKeys cfg (MakeSettings.globalSection cfg).1 _ hkn
          have hreq : ∀ r ∈ required, NulFree r := by decide +kernel
          have h1' := (C62.required_same k).1 h1
          rw [g2, C07.lookup_inserts _ hck k (hreq k h1'), hv k] at h3
          refine ⟨k, h1', h3, ?_⟩
          rw [hr', h2, hname]
          simp [settingsComplaint, errPrint, errWords]

end Settings

/-! ### Source files -/

section Sources

open Blogc.Spec.Source Blogc.Source

variable {cp : Str → Bool → Run Content.BSt} {m : Int} {src : Str} {why : Reason} {n : Nat}

theorem notNewline_ne {c : Byte} (h : ¬ Newline c) : c ≠ c!"\n" ∧ c ≠ c!"\r" :=
  ⟨fun e => h (.inl e), fun e => h (.inr e)⟩

theorem key_bytes {k : Str} (h : ValidKey k) : k ≠ [] ∧ ∀ c ∈ k, c ≠ c!"\n" ∧ c ≠ c!"\r" := by
  obtain ⟨c, r, rfl, h1, h2⟩ := h
  refine ⟨by simp, fun x hx => ?_⟩
  rcases List.mem_cons.1 hx with rfl | hx
  · exact ⟨fun e => by subst e; revert h1; decide, fun e => by subst e; revert h1; decide⟩
  · have := h2 x hx
    exact ⟨fun e => by subst e; revert this; decide, fun e => by subst e; revert this; decide⟩

/-- What is wrong with a source is on a line, unless there is nothing in it. -/
theorem source_on_line (h : Malformed src why n) : OnLine src n ∨ why = .nothing ∧ ∀ c ∈ src, Blank c := by
  cases h with
  | @bad s p r n hl hb =>
    left
    cases hb with
    | @junk bl t c _ hc _ _ =>
      have := (onLine_at (src := s ++ (bl ++ c :: t)) (pre := s ++ bl) (post := t) (c := c) (by simp)
        (notNewline_ne fun h => hc (.inr (.inr h)))).1
      simpa using this
    | @key bl k t c _ hk _ _ =>
      obtain ⟨h1, h2⟩ := key_bytes hk
      have := onLine_after (src := s ++ (bl ++ k ++ c :: t)) (pre := s ++ bl) (s := k) (post := c :: t) (by simp) h1 h2
      simpa [Nat.add_assoc] using this
    | @reserved bl k t _ hk =>
      have := (onLine_at (src := s ++ (bl ++ k ++ c!":" :: t)) (pre := s ++ (bl ++ k)) (post := t) (c := c!":")
        (by simp) (by decide)).1
      rwa [List.length_append] at this
    | @separator bl t d c _ _ hc =>
      have := (onLine_at (src := s ++ (bl ++ List.replicate (d + 1) c!"-" ++ c :: t))
        (pre := s ++ (bl ++ List.replicate (d + 1) c!"-")) (post := t) (c := c) (by simp) (notNewline_ne hc)).1
      simpa [Nat.add_assoc] using this
  | short h =>
    cases h with
    | nothing hb => exact .inr ⟨rfl, hb⟩
    | @key bl k _ hk =>
      obtain ⟨h1, h2⟩ := key_bytes hk
      exact .inl (onLine_after (pre := bl) (s := k) (post := []) (by simp) h1 h2)
    | @colon bl k _ hk _ =>
      exact .inl (onLine_after (pre := bl ++ k) (s := b!":") (post := []) (by simp) (by decide) (by decide))
    | @value bl k v _ _ _ hv hn =>
      exact .inl (onLine_after (pre := bl ++ k ++ b!":") (s := v) (post := []) (by simp) hv
        fun c hc => notNewline_ne (hn c hc))

theorem source_inside (h : Malformed src why n) : n ≤ src.length := by
  cases h with
  | bad hl hb => cases hb <;> simp <;> omega
  | short h => exact Nat.le_refl _

/-- The text of the error: the words, with the place unless the name of a variable is the matter. -/
theorem source_text (hs : src.length < 2 ^ 31 - 1) (hn : NulFree src) (h : Malformed src why n) :
    (∀ k, why = .reservedKey k → sourceText src (C78.errorOf why, n) = .ok (wording why)) ∧
    ((∀ k, why ≠ .reservedKey k) → why ≠ .nothing →
      sourceText src (C78.errorOf why, n) = .ok (located src n (wording why))) ∧
    (why = .nothing → ∃ more, sourceText src (C78.errorOf why, n) = .ok (wording why ++ more)) := by
  refine ⟨?_, ?_, ?_⟩
  · rintro k rfl; rfl
  · intro h1 h2
    have ho : OnLine src n := (source_on_line h).resolve_right fun h => h2 h.1
    have : ∀ msg, errText src n msg = .ok (located src n msg) := fun msg => errText_on hs hn ho
    cases why with
    | reservedKey k => exact absurd rfl (h1 k)
    | _ => exact this _
  · rintro rfl
    have : sourceText src (C78.errorOf .nothing, n) = errText src n (wording .nothing) := rfl
    rw [this]
    rcases errText_numbered (msg := wording .nothing) hs (source_inside h) with e | ⟨line, e⟩
    · exact ⟨[], by rw [e, List.append_nil]⟩
    · exact ⟨_, by rw [e, List.append_assoc, List.append_assoc, List.append_assoc, List.append_assoc, List.append_assoc]⟩

/-- blogc reads a malformed source: the file is refused, and what is printed names the file, what is wrong, and where. -/
theorem source_reported (path : Str) (hs : src.length < 2 ^ 31 - 1) (hn : NulFree src) (h : Malformed src why n)
    (hr : ∀ k, why ≠ .reservedKey k) (hw : why ≠ .nothing) :
    ∃ e, parse cp src m = .ok (.error e) ∧
      sourceComplaint path src e = .ok (b!"blogc: error: loader: An error occurred while parsing source file: " ++ path ++
        b!"\n\n" ++ located src n (wording why) ++ b!"\n") ∧
      entryComplaint src e = .ok (b!"blogc: error: source: " ++ located src n (wording why) ++ b!"\n") := by
  refine ⟨_, C78.rejected why n h, ?_, ?_⟩
  · rw [sourceComplaint, (source_text hs hn h).2.1 hr hw]
    simp [Res.map, errPrint, errWords]
  · rw [entryComplaint, (source_text hs hn h).2.1 hr hw]
    simp [Res.map, errPrint, errWords]

/-- A variable that cannot be set is named, without a place. -/
theorem reserved_reported (path k : Str) (h : Malformed src (.reservedKey k) n) :
    ∃ e, parse cp src m = .ok (.error e) ∧
      sourceComplaint path src e = .ok (b!"blogc: error: loader: An error occurred while parsing source file: " ++ path ++
        b!"\n\n'" ++ k ++ b!"' variable is forbidden in source files. It will be set for you by the compiler.\n") := by
  refine ⟨_, C78.rejected _ n h, ?_⟩
  simp [sourceComplaint, sourceText, message, C78.errorOf, Res.map, errPrint, errWords]

/-- A source with nothing in it. -/
theorem nothing_reported (path : Str) (hs : src.length < 2 ^ 31 - 1) (hn : NulFree src) (h : ∀ c ∈ src, Blank c) :
    ∃ e more, parse cp src m = .ok (.error e) ∧
      sourceComplaint path src e = .ok (b!"blogc: error: loader: An error occurred while parsing source file: " ++ path ++
        b!"\n\nYour source file is empty." ++ more ++ b!"\n") := by
  have hm : Malformed src .nothing src.length := .short (.nothing h)
  obtain ⟨more, hmore⟩ := (source_text hs hn hm).2.2 rfl
  refine ⟨_, more, C78.rejected _ _ hm, ?_⟩
  rw [sourceComplaint, hmore]
  simp [Res.map, errPrint, errWords, wording]

/-- A refused source is malformed, with what is printed as above, or its content is complete and the depth of its table of
contents is not a number, which is what is printed. -/
theorem source_refused (path : Str) (e : Err × Nat) (h : parse cp src m = .ok (.error e)) :
    (∃ why, Malformed src why e.2 ∧ e.1 = C78.errorOf why) ∨
    ∃ v more, e.1 = .invalidMaxdepth v ∧ v ≠ [] ∧ (strtol v).2 ≠ [] ∧ (src.length < 2 ^ 31 - 1 →
      sourceComplaint path src e = .ok (b!"blogc: error: loader: An error occurred while parsing source file: " ++ path ++
        b!"\n\nInvalid value for 'TOCTREE_MAXDEPTH' variable: " ++ v ++ b!"." ++ more ++ b!"\n")) := by
  obtain ⟨e, n⟩ := e
  rcases C78.only e n h with ⟨why, hm, rfl⟩ | ⟨hs, p, w, v, _, _, _, _, hv, hv', rfl, hn⟩
  · exact .inl ⟨why, hm, rfl⟩
  · right
    by_cases hlen : src.length < 2 ^ 31 - 1
    · rcases errText_numbered (src := src) (k := n)
        (msg := b!"Invalid value for 'TOCTREE_MAXDEPTH' variable: " ++ v ++ b!".") hlen (by omega) with e | ⟨line, e⟩
      · refine ⟨v, [], rfl, hv, hv', fun _ => ?_⟩
        simp only [sourceComplaint, sourceText, message, Res.bind]
        rw [e]
        simp [Res.map, errPrint, errWords]
      · refine ⟨v, b!"\nError occurred near line " ++ decNat (lineNumber src n) ++ b!", position " ++
            decNat (column src n) ++ b!": " ++ line, rfl, hv, hv', fun _ => ?_⟩
        simp only [sourceComplaint, sourceText, message, Res.bind]
        rw [e]
        simp [Res.map, errPrint, errWords]
    · exact ⟨v, [], rfl, hv, hv', fun h => absurd h hlen⟩

end Sources

/-! ### Files with mistakes -/

section Samples

open Blogc.Spec.Config (Doc WrittenDoc)
open Blogc.Spec.ConfigMistakes Blogc.Spec.MakeSettings

/-- A key without a value in the second line of a section. -/
theorem sample_lines : Lines lists .outside b!"[global]\n" .keys := by
  refine .snoc (s := b!"[global]") (t := b!"\n") (.snoc (s := []) (t := b!"[global]") .nil ?_) (.blank (by unfold Break; decide))
  exact .head (c := c!"g") (n := b!"lobal") (by unfold Name Break; decide)

theorem sample_malformed : Malformed lists b!"[global]\nAUTHOR_NAME\nX = 1\n" (.noValue b!"AUTHOR_NAME") 20 :=
  ⟨b!"[global]\n", b!"AUTHOR_NAME\nX = 1\n", .keys, 11, rfl, sample_lines,
    .noValue (k := b!"AUTHOR_NAME") (s := b!"X = 1\n") (e := c!"\n") (by unfold Key Break; decide)
      ⟨c!"A", _, rfl, by unfold First Break; decide⟩ (.inl rfl), rfl⟩

example : ∃ e, MakeSettings.parse b!"[global]\nAUTHOR_NAME\nX = 1\n" = some (.ok (.error e)) ∧
    settingsComplaint b!"[global]\nAUTHOR_NAME\nX = 1\n" e =
      .ok b!"blogc-make: error: config-parser: Key without value: AUTHOR_NAME.\nError occurred near line 2, position 12: AUTHOR_NAME\n" := by
  obtain ⟨e, h1, h2, _⟩ := settings_reported (by decide) (by decide) sample_malformed
  exact ⟨e, h1, h2 ((mistake_on_line sample_malformed).resolve_right (by rintro ⟨h, _⟩; cases h))⟩

/-- A document with a variable that does not begin with an uppercase letter. -/
def lower : Doc := { preamble := [], sections := [⟨b!"global", [.pair b!"author" b!"b" false]⟩] }

theorem lower_ok : lower.Ok lists := by
  refine ⟨fun l hl => (by cases hl), ?_⟩
  intro s hs
  simp only [lower, List.mem_cons, List.not_mem_nil, or_false] at hs
  subst hs
  refine ⟨⟨by decide, by decide, by decide, by decide⟩, ?_⟩
  intro l hl
  simp only [List.mem_cons, List.not_mem_nil, or_false] at hl
  subst hl
  exact ⟨by decide, ⟨by decide, by decide, by decide, C62.trimmed_of (by decide) (by decide),
    by exact ⟨by decide, by decide, by decide, by decide⟩⟩, ⟨by decide, by decide, by decide, C62.trimmed_of (by decide) (by decide), by decide⟩⟩

theorem lower_written : WrittenDoc lower b!"[global]\nauthor=b\n" := by
  refine ⟨[], b!"[global]\nauthor=b\n", .nil, ?_, rfl⟩
  refine .cons (n := b!"global") (i := []) (t := []) (e := b!"\n") (a := b!"author=b\n") (b := [])
    (l := .blank []) (by simp [Spec.Config.Indent]) (by simp [Spec.Config.Line.OkPre])
    (.blank (by simp [Spec.Config.Indent])) (.inl rfl) ?_ .nil
  refine .cons (t := b!"author=b") (e := b!"\n") (s := []) ?_ (.inl rfl) .nil
  exact .pair (k := b!"author") (v := b!"b") (q := false) (i := []) (g1 := []) (g2 := []) (g3 := [])
    (by simp [Spec.Config.Gap]) (by simp [Spec.Config.Gap]) (by simp [Spec.Config.Gap]) (by simp [Spec.Config.Gap])

example : ¬ Acceptable lower := by
  intro h
  obtain ⟨c, r, e, h1, _⟩ := h.1 (b!"author", b!"b") (by decide)
  injection e with e
  subst e
  exact absurd h1 (by decide)

example : ∃ e, MakeSettings.parse b!"[global]\nauthor=b\n" = some (.ok (.error e)) ∧
    settingsComplaint b!"[global]\nauthor=b\n" e =
      .ok b!"blogc-make: error: settings: Invalid [global] key (first character must be uppercase): author\n" :=
  ⟨_, rfl, by decide +kernel⟩

/-- A source with a wrong key, as in C78. -/
example : ∃ e, Source.parse (Content.parse 0) b!"TITLE: a\nA B: c\n" 0 = .ok (.error e) ∧
    sourceComplaint b!"a.txt" b!"TITLE: a\nA B: c\n" e =
      .ok b!"blogc: error: loader: An error occurred while parsing source file: a.txt\n\nInvalid configuration key.\nError occurred near line 2, position 2: A B: c\n" :=
  ⟨_, rfl, by decide +kernel⟩

end Samples

/-! ### What is not noticed, or not placed -/

/-- A single byte after the quotes at the end of the file is not noticed. -/
theorem after_quotes_violated : ∃ cfg, Config.parse b!"[a]\nb = \"c\"d" [] = some (.ok (.ok cfg)) ∧
    cfg.get b!"a" b!"b" = some b!"c" := ⟨_, rfl, rfl⟩

/-- The name of a section that is not closed, and a value whose quote is not closed, are dropped without a word. -/
theorem unfinished_violated :
    (∃ cfg, Config.parse b!"[global" [] = some (.ok (.ok cfg)) ∧ cfg.keys b!"global" = none) ∧
    ∃ cfg, Config.parse b!"[a]\nb = \"c\n[d]\ne = f\n" [] = some (.ok (.ok cfg)) ∧ cfg.get b!"a" b!"b" = none ∧
      cfg.keys b!"d" = none := ⟨⟨_, rfl, rfl⟩, _, rfl, rfl, rfl⟩

/-- The place of a variable that must not be set is not given. -/
theorem reserved_place_violated :
    ∃ e, Source.parse (Content.parse 0) b!"TITLE: a\nCONTENT: b\n" 0 = .ok (.error e) ∧
      sourceText b!"TITLE: a\nCONTENT: b\n" e =
        .ok b!"'CONTENT' variable is forbidden in source files. It will be set for you by the compiler." :=
  ⟨_, rfl, rfl⟩

/-- The last line of the header is dropped without a word if it is not finished, but only if there was one before. -/
theorem last_header_violated :
    (∃ t, Source.parse (Content.parse 0) b!"TITLE: a\nTAGS: b" 0 = .ok (.ok t) ∧ t.lookup b!"TAGS" = none) ∧
    ∃ e, Source.parse (Content.parse 0) b!"TAGS: b" 0 = .ok (.error e) := ⟨⟨_, rfl, rfl⟩, _, rfl⟩

/-- A wrong depth of the table of contents is placed at the end of the file, not where it is set. -/
theorem maxdepth_place_violated :
    ∃ e, Source.parse (Content.parse 100) b!"TOCTREE_MAXDEPTH: x\n---\n# a\n" 0 = .ok (.error e) ∧
      sourceText b!"TOCTREE_MAXDEPTH: x\n---\n# a\n" e =
        .ok b!"Invalid value for 'TOCTREE_MAXDEPTH' variable: x.\nError occurred near line 3, position 4: # a" :=
  ⟨(.invalidMaxdepth b!"x", 27), rfl, by decide +kernel⟩

end Blogc.C107
