import Verif.Spec.MakeRun
import Verif.Lemmas.MakeSite
import Verif.Props.C08
import Verif.Props.C57
import Verif.Props.C85
import Verif.Props.C86

/-!
# C87: a run asked for by blogc-make reaches blogc as meant
-/

namespace Blogc.C87

open Blogc Blogc.Make
open Blogc.Spec Blogc.Spec.MakeJobs Blogc.Spec.MakeRun
open Blogc.Spec.CommandLine
open Blogc.Spec.MakeSettings (ValidKey)

/-! ## The last definition of a variable -/

theorem lastValue_append {α : Type} (a b : List (Str × α)) (k : Str) :
    lastValue (a ++ b) k = (lastValue b k <|> lastValue a k) := by
  unfold lastValue
  rw [List.reverse_append, List.find?_append]
  cases List.find? (fun kv => kv.1 == k) b.reverse <;> rfl

theorem lastValue_eq {α : Type} {h : List (Str × α)} (hn : (h.map (·.1)).Nodup) (k : Str) (v : α) :
    lastValue h k = some v ↔ (k, v) ∈ h := by
  unfold lastValue
  constructor
  · intro e
    cases hf : h.reverse.find? (fun kv => kv.1 == k) with
    | none => rw [hf] at e; cases e
    | some kv =>
      rw [hf] at e
      have h1 := List.find?_some hf
      have h2 := List.mem_of_find?_eq_some hf
      simp only [Option.map_some, Option.some.injEq, beq_iff_eq] at e h1
      subst e h1
      exact List.mem_reverse.1 h2
  · intro hm
    cases hf : h.reverse.find? (fun kv => kv.1 == k) with
    | none =>
      have := List.find?_eq_none.1 hf (k, v) (List.mem_reverse.2 hm)
      simp at this
    | some kv =>
      have h1 := List.find?_some hf
      have h2 := List.mem_reverse.1 (List.mem_of_find?_eq_some hf)
      simp only [beq_iff_eq] at h1
      have : kv = (k, v) := List.inj_on_of_nodup_map hn h2 hm h1
      rw [this]
      rfl

/-- The definitions made for a table. -/
def defs (t : Trie Str) : List (Str × Str) := (t.foreach []).map fun kv => (kv.1, kv.2.getD [])

theorem mem_defs {t : Trie Str} (ht : Filled t) (k v : Str) :
    (k, v) ∈ defs t ↔ NulFree k ∧ t.lookup k = some v := by
  obtain ⟨h, hc, rfl⟩ := ht
  have hm := fun v => Trie.mem_foreach _ (C08.inserts_wf h hc) k v
  unfold defs
  constructor
  · intro hx
    obtain ⟨⟨k', v'⟩, h1, h2⟩ := List.mem_map.1 hx
    simp only [Prod.mk.injEq] at h2
    obtain ⟨rfl, rfl⟩ := h2
    obtain ⟨a, b, c⟩ := (hm _).1 h1
    refine ⟨a, ?_⟩
    rw [c]
    cases v' with
    | none => cases b
    | some v => rfl
  · rintro ⟨h1, h2⟩
    exact List.mem_map.2 ⟨(k, some v), (hm _).2 ⟨h1, rfl, h2⟩, rfl⟩

theorem lastValue_defs {t : Trie Str} (ht : Filled t) (k : Str) (hk : NulFree k) :
    lastValue (defs t) k = t.lookup k := by
  have hn : ((defs t).map (·.1)).Nodup := by
    obtain ⟨h, hc, rfl⟩ := ht
    unfold defs
    rw [List.map_map]
    exact C08.foreach_keys_nodup h hc
  apply Option.ext
  intro v
  rw [lastValue_eq hn, mem_defs ht]
  exact ⟨fun h => h.2, fun h => ⟨hk, h⟩⟩

/-! ## The arguments -/

def defineAll (l : List (Str × Str)) : List Opt := l.map fun kv => .define kv.1 kv.2 true

theorem defineAll_args (t : Trie Str) : (defineAll (defs t)).flatMap Opt.args = C57.defines (some t) := by
  unfold defineAll defs C57.defines
  rw [List.map_map, List.flatMap_map]
  rfl

/-- The options of a run. -/
def options (s : Site) (vars : Trie Str) (locals : Option (Trie Str)) (print : Option Str) (listing : Bool)
    (entry template output : Option Str) (stdin : Bool) : List Opt :=
  defineAll (s.cfg.tags.toList.map fun tags => (b!"MAKE_TAGS", join b!" " tags)) ++
  defineAll (defs s.cfg.global) ++ defineAll (defs vars) ++
  locals.toList.flatMap (fun t => defineAll (defs t)) ++
  defineAll (if s.dev then [(b!"MAKE_ENV_DEV", b!"1"), (b!"MAKE_ENV", b!"dev")] else []) ++
  print.toList.map (.print · true) ++
  (if listing then .listing :: entry.toList.map (.entry · true) else []) ++
  template.toList.map (.template · true) ++ output.toList.map (.output · true) ++
  (if stdin then [.stdin] else [])

theorem meant_eq (exe : Str) (s : Site) (vars : Trie Str) (locals : Option (Trie Str)) (print : Option Str)
    (listing : Bool) (entry template output : Option Str) (stdin : Bool) :
    C57.meant exe (some s.cmd) (some vars) locals print listing entry template output s.dev stdin =
      (s.get b!"locale").toList.map (b!"LC_ALL=" ++ ·) ++ exe ::
      (options s vars locals print listing entry template output stdin).flatMap Opt.args := by
  unfold C57.meant options
  simp only [List.flatMap_append, Option.bind_some, Option.map_some, defineAll_args, Site.cmd]
  have e2 : C57.defines locals = (locals.toList.flatMap fun t => defineAll (defs t)).flatMap Opt.args := by
    cases locals with
    | none => rfl
    | some t => simp [defineAll_args]
  have e3 : (if s.dev then [b!"-D", b!"MAKE_ENV_DEV=1", b!"-D", b!"MAKE_ENV=dev"] else []) =
      (defineAll (if s.dev then [(b!"MAKE_ENV_DEV", b!"1"), (b!"MAKE_ENV", b!"dev")] else [])).flatMap
        Opt.args := by
    cases s.dev <;> rfl
  have e4 : C57.flag b!"-p" print = (print.toList.map (Opt.print · true)).flatMap Opt.args := by
    cases print <;> rfl
  have e5 : (if listing then b!"-l" :: C57.flag b!"-e" entry else []) =
      (if listing then Opt.listing :: entry.toList.map (.entry · true) else []).flatMap Opt.args := by
    cases listing <;> cases entry <;> rfl
  have e6 : C57.flag b!"-t" template = (template.toList.map (Opt.template · true)).flatMap Opt.args := by
    cases template <;> rfl
  have e7 : C57.flag b!"-o" output = (output.toList.map (Opt.output · true)).flatMap Opt.args := by
    cases output <;> rfl
  have e8 : (if stdin then [b!"-i"] else []) = (if stdin then [Opt.stdin] else []).flatMap Opt.args := by
    cases stdin <;> rfl
  rw [e2, e3, e4, e5, e6, e7, e8]
  have e9 : ∀ tags : List Str, (defineAll [(b!"MAKE_TAGS", join b!" " tags)]).flatMap Opt.args =
      [b!"-D", b!"MAKE_TAGS=" ++ join b!" " tags] := fun _ => rfl
  cases s.get b!"locale" <;> cases s.cfg.tags <;>
    simp only [List.append_assoc, List.cons_append, List.nil_append, Option.toList_none, Option.toList_some,
      List.map_nil, List.map_cons, defineAll, List.flatMap_nil] <;> rfl

/-! ## Reading the options -/

theorem defineAll_defs (l : List (Str × Str)) : (defineAll l).filterMap definitionOf = l := by
  unfold defineAll
  rw [List.filterMap_map]
  exact List.filterMap_some

theorem defineAll_none {f : Opt → Option Str} (hf : ∀ k v b, f (.define k v b) = none) (l : List (Str × Str)) :
    (defineAll l).filterMap f = [] := by
  unfold defineAll
  rw [List.filterMap_map]
  simp [Function.comp_def, hf]

theorem mem_defineAll {x : Opt} {l : List (Str × Str)} (h : x ∈ defineAll l) :
    ∃ kv ∈ l, x = .define kv.1 kv.2 true := by
  obtain ⟨kv, h1, h2⟩ := List.mem_map.1 h
  exact ⟨kv, h1, h2.symm⟩

theorem lastValue_reverse {α : Type} (l : List (Str × α)) (k : Str) : lastValue l k = l.reverse.lookup k := by
  unfold lastValue
  generalize l.reverse = l
  induction l with
  | nil => rfl
  | cons kv l ih =>
    rw [List.find?_cons, List.lookup_cons]
    by_cases e : kv.1 = k
    · subst e
      simp
    · rw [show (kv.1 == k) = false from by simpa using e,
        show (k == kv.1) = false from by simpa using fun h => e h.symm]
      exact ih

/-! ## The list of sources -/

theorem lines_append (f rest : Str) (hf : ∀ c ∈ f, c ≠ 0x0a ∧ c ≠ 0x0d) :
    FileList.lines (f ++ b!"\n" ++ rest) = f :: FileList.lines rest := by
  induction f with
  | nil => rfl
  | cons c f ih =>
    have hc := hf c (by simp)
    rw [List.append_assoc, List.cons_append, ← List.append_assoc, FileList.lines,
      if_neg (by simp [hc.1, hc.2]), ih fun d hd => hf d (by simp [hd])]

theorem lines_input (l : List Str) (hl : ∀ f ∈ l, LineOk f) :
    FileList.lines (l.flatMap (· ++ b!"\n")) = l ++ [[]] := by
  induction l with
  | nil => rfl
  | cons f l ih =>
    rw [List.flatMap_cons, lines_append f _ (hl f (by simp)).oneLine, ih fun g hg => hl g (by simp [hg])]
    rfl

theorem not_odd {f : Str} (h : LineOk f) : ¬ C34.OddStart f := by
  rintro ⟨c, h1, h2⟩
  have hf : strip f = f := by
    have he := h.entry
    unfold FileList.entry at he
    split at he
    · cases he
    · rename_i c l e
      rw [e]
      split at he
      · cases he
      · exact Option.some.inj he
  cases f with
  | nil => cases h1
  | cons d f =>
    have hd : isSpace d = false := by
      have := C04.head_dropWhile (((d :: f).reverse.dropWhile isSpace).reverse) d (by
        rw [← C04.strip_eq, hf]; rfl)
      exact this
    have hsp : C34.sp d = false := by
      simp only [isSpace, Bool.or_eq_false_iff] at hd
      simp only [C34.sp, Bool.or_eq_false_iff]
      exact ⟨hd.1.1.1.1.1, hd.1.2⟩
    rw [List.dropWhile_cons, hsp] at h1
    simp only [Bool.false_eq_true, if_false, List.head?_cons, Option.some.injEq] at h1
    subst h1
    rcases h2 with rfl | rfl <;> exact absurd hd (by decide)

theorem utf8_append {a b : Str} (ha : WellFormedUtf8 a) (hb : WellFormedUtf8 b) : WellFormedUtf8 (a ++ b) := by
  obtain ⟨x, hx, rfl⟩ := ha
  obtain ⟨y, hy, rfl⟩ := hb
  refine ⟨x ++ y, ?_, by rw [List.flatMap_append]⟩
  intro c hc
  rcases List.mem_append.1 hc with h | h
  · exact hx c h
  · exact hy c h

theorem utf8_join (l : List Str) (hl : ∀ t ∈ l, WellFormedUtf8 t) : WellFormedUtf8 (join b!" " l) := by
  induction l with
  | nil => exact ⟨[], by simp, rfl⟩
  | cons t l ih =>
    cases l with
    | nil => exact hl t (by simp)
    | cons u l =>
      exact utf8_append (utf8_append (hl t (by simp)) ⟨[0x20], by simp [IsScalar], by decide⟩)
        (ih fun x hx => hl x (by simp [hx]))

/-! ## The run -/

/-- A table of valid variables. -/
structure Table (t : Trie Str) : Prop where
  filled : Filled t
  valid : ∀ k v, NulFree k → t.lookup k = some v → ValidKey k ∧ TextOk v

theorem table_of {t : Trie Str} {l : List (Str × Str)} (h : Describes t l)
    (hl : ∀ kv ∈ l, ValidKey kv.1 ∧ TextOk kv.2) : Table t := by
  refine ⟨h.filled, fun k v hk e => ?_⟩
  rw [h.lookup k hk] at e
  obtain ⟨l1, l2, rfl, _⟩ := List.lookup_eq_some_iff.1 e
  exact hl (k, v) (by simp)

theorem valid_plain {k : Str} (h : ValidKey k) : C57.Plain k := by
  obtain ⟨c, rest, rfl, h1, h2⟩ := h
  apply C57.key_plain
  intro x hx
  rcases List.mem_cons.1 hx with e | e
  · subst e; exact .inl h1
  · exact h2 x e

theorem valid_utf8 {k v : Str} (h : ValidKey k) (hv : WellFormedUtf8 v) : WellFormedUtf8 (k ++ b!"=" ++ v) := by
  refine utf8_append (utf8_append ?_ ⟨[0x3d], by simp [IsScalar], by decide⟩) hv
  have key : ∀ n : Fin 256, ((c!"A" ≤ UInt8.ofFin n ∧ UInt8.ofFin n ≤ c!"Z") ∨
      (c!"0" ≤ UInt8.ofFin n ∧ UInt8.ofFin n ≤ c!"9") ∨ UInt8.ofFin n = c!"_") →
      n.val < 128 := by decide +kernel
  have hk : ∀ x ∈ k, x.toNat < 128 := by
    obtain ⟨c, rest, rfl, h1, h2⟩ := h
    intro x hx
    rcases List.mem_cons.1 hx with e | e
    · subst e; exact key x.toFin (.inl h1)
    · exact key x.toFin (h2 x e)
  clear h
  induction k with
  | nil => exact ⟨[], by simp, rfl⟩
  | cons c k ih =>
    have hc := hk c (by simp)
    refine utf8_append (a := [c]) ⟨[c.toNat], ?_, ?_⟩ (ih fun x hx => hk x (by simp [hx]))
    · intro x hx
      rw [List.mem_singleton] at hx
      subst hx
      unfold IsScalar
      omega
    · simp [encode, hc]

theorem vars_ok {t : Trie Str} (h : Table t) : C57.VarsOk (some t) := by
  intro t' e kv hkv
  cases e
  have hm : (kv.1, kv.2.getD []) ∈ defs t := List.mem_map.2 ⟨kv, hkv, rfl⟩
  obtain ⟨h1, h2⟩ := (mem_defs h.filled _ _).1 hm
  have := h.valid _ _ h1 h2
  exact ⟨valid_plain this.1, this.2.1⟩

theorem table_ok {t : Trie Str} (h : Table t) : ∀ x ∈ defineAll (defs t), x.Ok := by
  intro x hx
  obtain ⟨⟨k, v⟩, h1, rfl⟩ := mem_defineAll hx
  obtain ⟨h2, h3⟩ := (mem_defs h.filled _ _).1 h1
  have := h.valid _ _ h2 h3
  exact ⟨this.1, valid_utf8 this.1 this.2.2⟩

theorem options_ok (s : Site) (hs : Clean s) {vars : Trie Str} {locals : Option (Trie Str)} (hv : Table vars)
    (hl : ∀ t, locals = some t → Table t) (print : Option Str) (listing : Bool)
    (entry template output : Option Str) (stdin : Bool) :
    ∀ x ∈ options s vars locals print listing entry template output stdin, x.Ok := by
  intro x hx
  unfold options at hx
  simp only [List.mem_append] at hx
  rcases hx with ((((((((h | h) | h) | h) | h) | h) | h) | h) | h) | h
  · obtain ⟨kv, h1, rfl⟩ := mem_defineAll h
    cases ht : s.cfg.tags with
    | none => rw [ht] at h1; cases h1
    | some tags =>
      rw [ht] at h1
      simp only [Option.toList_some, List.map_cons, List.map_nil, List.mem_singleton] at h1
      subst h1
      have hk : ValidKey b!"MAKE_TAGS" := ⟨_, _, rfl, by decide, by decide⟩
      refine ⟨hk, valid_utf8 hk (utf8_join _ fun t hm => ?_)⟩
      exact (hs.tags t (by rw [ht]; exact hm)).1.2
  · exact table_ok ⟨hs.filled, hs.global⟩ x h
  · exact table_ok hv x h
  · cases locals with
    | none => cases h
    | some t => exact table_ok (hl t rfl) x (by simpa using h)
  · obtain ⟨kv, h1, rfl⟩ := mem_defineAll h
    cases hd : s.dev with
    | false => rw [hd] at h1; cases h1
    | true =>
      rw [hd] at h1
      simp only [if_true, List.mem_cons, List.not_mem_nil, or_false] at h1
      rcases h1 with rfl | rfl
      · have hk : ValidKey b!"MAKE_ENV_DEV" := ⟨_, _, rfl, by decide, by decide⟩
        exact ⟨hk, valid_utf8 hk ⟨[0x31], by simp [IsScalar], by decide⟩⟩
      · have hk : ValidKey b!"MAKE_ENV" := ⟨_, _, rfl, by decide, by decide⟩
        exact ⟨hk, valid_utf8 hk ⟨[0x64, 0x65, 0x76], by simp [IsScalar], by decide⟩⟩
  · obtain ⟨v, _, rfl⟩ := List.mem_map.1 h
    exact fun e => by cases e
  · cases listing with
    | false => cases h
    | true =>
      rcases List.mem_cons.1 h with e | e
      · subst e; trivial
      · obtain ⟨v, _, rfl⟩ := List.mem_map.1 e
        exact fun e => by cases e
  · obtain ⟨v, _, rfl⟩ := List.mem_map.1 h
    exact fun e => by cases e
  · obtain ⟨v, _, rfl⟩ := List.mem_map.1 h
    exact fun e => by cases e
  · cases stdin with
    | false => cases h
    | true =>
      rw [List.mem_singleton.1 h]
      trivial

/-- The definitions among the options. -/
def definitions (s : Site) (vars : Trie Str) (locals : Option (Trie Str)) : List (Str × Str) :=
  (s.cfg.tags.toList.map fun tags => (b!"MAKE_TAGS", join b!" " tags)) ++ defs s.cfg.global ++ defs vars ++
  locals.toList.flatMap defs ++
  (if s.dev then [(b!"MAKE_ENV_DEV", b!"1"), (b!"MAKE_ENV", b!"dev")] else [])

theorem options_shape (s : Site) (vars : Trie Str) (locals : Option (Trie Str)) (print : Option Str)
    (listing : Bool) (entry template output : Option Str) (stdin : Bool) :
    options s vars locals print listing entry template output stdin =
      defineAll (definitions s vars locals) ++ (print.toList.map (.print · true) ++
  ((if listing then .listing :: entry.toList.map (.entry · true) else []) ++
  (template.toList.map (.template · true) ++ (output.toList.map (.output · true) ++
  (if stdin then [.stdin] else []))))) := by
  unfold options definitions
  have : (locals.toList.flatMap fun t => defineAll (defs t)) = defineAll (locals.toList.flatMap defs) := by
    cases locals <;> simp [defineAll]
  rw [this]
  simp only [defineAll, List.map_append, List.append_assoc]

/-- The variables of a run have the values meant. -/
theorem config_value (s : Site) (hs : Clean s) (version : Str) {vars : Trie Str} {locals : Option (Trie Str)}
    {lv ll : List (Str × Str)} (hv : Describes vars lv)
    (hl : match locals with | none => ll = [] | some t => Describes t ll) (k : Str) (hk : NulFree k) :
    lastValue ((b!"BLOGC_VERSION", version) :: definitions s vars locals) k = value s version (ll ++ lv) k := by
  unfold definitions value
  rw [← List.singleton_append, lastValue_append, lastValue_append, lastValue_append, lastValue_append,
    lastValue_append, lastValue_defs hv.filled k hk, lastValue_defs hs.filled k hk, hv.lookup k hk]
  have hll : lastValue (locals.toList.flatMap defs) k = ll.lookup k := by
    cases locals with
    | none => simp only at hl; subst hl; rfl
    | some t =>
      simp only [Option.toList_some, List.flatMap_cons, List.flatMap_nil, List.append_nil]
      rw [lastValue_defs hl.filled k hk, hl.lookup k hk]
  have happ : ∀ a b : List (Str × Str), (a ++ b).lookup k = (a.lookup k <|> b.lookup k) := by
    intro a b
    rw [List.lookup_append]
    cases a.lookup k <;> rfl
  have hdev : lastValue (if s.dev then [(b!"MAKE_ENV_DEV", b!"1"), (b!"MAKE_ENV", b!"dev")] else []) k =
      (if s.dev then [(b!"MAKE_ENV", b!"dev"), (b!"MAKE_ENV_DEV", b!"1")] else []).lookup k := by
    rw [lastValue_reverse]
    cases s.dev <;> rfl
  have htag : lastValue (s.cfg.tags.toList.map fun tags => (b!"MAKE_TAGS", join b!" " tags)) k =
      (s.cfg.tags.toList.map fun tags => (b!"MAKE_TAGS", join b!" " tags)).lookup k := by
    rw [lastValue_reverse]
    cases s.cfg.tags <;> rfl
  have hver : lastValue [(b!"BLOGC_VERSION", version)] k = [(b!"BLOGC_VERSION", version)].lookup k := by
    rw [lastValue_reverse]
    rfl
  rw [hll, hdev, htag, hver, happ, happ, happ]
  generalize List.lookup k (if s.dev then [(b!"MAKE_ENV", b!"dev"), (b!"MAKE_ENV_DEV", b!"1")] else []) = a
  generalize ll.lookup k = b
  generalize lv.lookup k = c
  generalize s.cfg.global.lookup k = d
  cases a <;> cases b <;> cases c <;> cases d <;> rfl

/-- A command built by blogc-make starts blogc with the options that are meant. -/
theorem runs (s : Site) (hs : Clean s) (env : Main.Env) {vars : Trie Str} {locals : Option (Trie Str)}
    {lv ll : List (Str × Str)} (hv : Describes vars lv)
    (hl : match locals with | none => ll = [] | some t => Describes t ll)
    (hval : ∀ kv ∈ ll ++ lv, ValidKey kv.1 ∧ TextOk kv.2)
    (print : Option Str) (hp : ∀ p, print = some p → C57.Plain p ∧ p ≠ []) (listing : Bool)
    (entry template output : Option Str) (he : C57.OptOk entry) (ht : C57.OptOk template)
    (ho : C57.OptOk output) (sources : List Str) (hsrc : ∀ f ∈ sources, LineOk f) :
    let input := sources.flatMap (· ++ b!"\n")
    ∃ o, started env (buildBlogcCmd s.blogc (some s.cmd) (some vars) locals print listing entry template
        output s.dev (input.length > 0)) input = some (Main.body { env with stdin := input } o) ∧
      Asked s { env with stdin := input } o (ll ++ lv) listing print entry template output sources := by
  intro input
  obtain ⟨exe, hexe, hloc⟩ := hs.exe
  have tv : Table vars := table_of hv fun kv h => hval kv (by simp [h])
  have tl : ∀ t, locals = some t → Table t := by
    intro t e
    subst e
    exact table_of hl fun kv h => hval kv (by simp [h])
  have hcmd := C57.command_partial s.blogc exe (some s.cmd) (some vars) locals print listing entry template
    output s.dev (input.length > 0) hexe (vars_ok ⟨hs.filled, hs.global⟩) (fun l h => hs.locale l h)
    (fun tags h t hm => by
      have := hs.tags t (by
        show t ∈ s.cfg.tags.getD []
        rw [show s.cfg.tags = some tags from h]; exact hm)
      exact ⟨this.1.1, this.2⟩)
    (vars_ok tv) (by
      cases locals with
      | none => intro t e; cases e
      | some t => exact vars_ok (tl t rfl)) hp he ht ho
  have hok := options_ok s hs tv tl print listing entry template output (decide (input.length > 0))
  obtain ⟨o, hread, hm⟩ := C70.reads env.make env.version _ hok
  refine ⟨o, ?_, ?_⟩
  · unfold started
    rw [hcmd, meant_eq, Option.map_some]
    have hdrop : ((((s.get b!"locale").toList.map (b!"LC_ALL=" ++ ·) ++ exe ::
        (options s vars locals print listing entry template output (decide (input.length > 0))).flatMap
          Opt.args).dropWhile fun w => startsWith w b!"LC_ALL=").drop 1) =
        (options s vars locals print listing entry template output (decide (input.length > 0))).flatMap
          Opt.args := by
      have hexe' : ∀ l : List Str, ((exe :: l).dropWhile fun w => startsWith w b!"LC_ALL=") = exe :: l := by
        intro l
        rw [List.dropWhile_cons, hloc]
        rfl
      cases s.get b!"locale" with
      | none =>
        simp only [Option.toList_none, List.map_nil, List.nil_append]
        rw [hexe']
        rfl
      | some l =>
        have : startsWith (b!"LC_ALL=" ++ l) b!"LC_ALL=" = true := by
          unfold startsWith
          rw [if_neg (by simp)]
          simp
        have e : ∀ rest : List Str, ((((some l).toList.map (b!"LC_ALL=" ++ ·) ++ exe :: rest).dropWhile
            fun w => startsWith w b!"LC_ALL=").drop 1) = rest := by
          intro rest
          show ((((b!"LC_ALL=" ++ l) :: exe :: rest).dropWhile fun w => startsWith w b!"LC_ALL=").drop 1) = rest
          rw [List.dropWhile_cons, if_pos this, hexe']
          rfl
        exact e _
    rw [hdrop]
    unfold Main.main
    rw [hread]
  · have hin : Opt.stdin ∈ options s vars locals print listing entry template output
        (decide (input.length > 0)) ↔ input ≠ [] := by
      rw [options_shape]
      have : Opt.stdin ∉ defineAll (definitions s vars locals) := by
        intro h
        obtain ⟨kv, _, e⟩ := mem_defineAll h
        cases e
      cases listing <;> simp [this, List.length_pos_iff]
    have hsources : Main.allSources { env with stdin := input } o = sources := by
      have hlines := lines_input sources hsrc
      rw [C85.sources_partial { env with stdin := input } _ o hm ?_ ?_]
      · unfold C85.sourcesOf
        have h0 : (options s vars locals print listing entry template output
            (decide (input.length > 0))).filterMap sourceOf = [] := by
          rw [options_shape, List.filterMap_append, defineAll_none (fun _ _ _ => rfl)]
          cases print <;> cases listing <;> cases entry <;> cases template <;> cases output <;>
            cases decide (input.length > 0) <;> rfl
        rw [h0, List.nil_append]
        by_cases hi : input = []
        · rw [if_neg (by rw [hin]; simpa using hi)]
          cases sources with
          | nil => rfl
          | cons f l => simp [input] at hi
        · rw [if_pos (hin.2 hi)]
          show (FileList.lines input).filterMap FileList.entry = sources
          rw [hlines, List.filterMap_append]
          have : sources.filterMap FileList.entry = sources := by
            rw [List.filterMap_congr (g := some) fun f hf => (hsrc f hf).entry, List.filterMap_some]
          rw [this]
          exact List.append_nil _
      · intro c hc
        obtain ⟨f, hf, hc⟩ := List.mem_flatMap.1 hc
        rcases List.mem_append.1 hc with h | h
        · exact (hsrc f hf).nul c h
        · rw [List.mem_singleton.1 h]; decide
      · intro l hm
        rw [show FileList.lines input = _ from hlines] at hm
        rcases List.mem_append.1 hm with h | h
        · exact not_odd (hsrc l h)
        · rw [List.mem_singleton.1 h]
          rintro ⟨c, h, _⟩
          cases h
    have hno : ∀ x, (∀ k v b, x ≠ Opt.define k v b) → x ∉ defineAll (definitions s vars locals) := by
      intro x hx h
      obtain ⟨kv, _, e⟩ := mem_defineAll h
      exact hx _ _ _ e
    refine ⟨?_, ?_, ?_, ?_, ?_, ?_, hsources, ?_⟩
    · cases hd : o.debug with
      | false => rfl
      | true =>
        have := hm.debug.1 hd
        rw [options_shape] at this
        have hn := hno .debug (by intros; simp)
        cases listing <;> simp [hn] at this
    · have := hm.listing
      rw [options_shape] at this
      have hn := hno .listing (by intros; simp)
      cases listing with
      | true => exact this.2 (by simp)
      | false =>
        cases hd : o.listing with
        | false => rfl
        | true => simpa [hn] using this.1 hd
    · rw [hm.print, options_shape, List.filterMap_append, defineAll_none (fun _ _ _ => rfl)]
      cases print <;> cases listing <;> cases entry <;> cases template <;> cases output <;>
        cases decide (input.length > 0) <;> rfl
    · rw [hm.entries, options_shape, List.filterMap_append, defineAll_none (fun _ _ _ => rfl)]
      cases print <;> cases listing <;> cases entry <;> cases template <;> cases output <;>
        cases decide (input.length > 0) <;> rfl
    · rw [hm.template, options_shape, List.filterMap_append, defineAll_none (fun _ _ _ => rfl)]
      cases print <;> cases listing <;> cases entry <;> cases template <;> cases output <;>
        cases decide (input.length > 0) <;> rfl
    · rw [hm.output, options_shape, List.filterMap_append, defineAll_none (fun _ _ _ => rfl)]
      cases print <;> cases listing <;> cases entry <;> cases template <;> cases output <;>
        cases decide (input.length > 0) <;> rfl
    · intro k hk
      rw [hm.config k hk, ← config_value s hs env.version hv hl k hk, options_shape, List.filterMap_append,
        defineAll_defs]
      have : (print.toList.map (Opt.print · true) ++
          ((if listing then Opt.listing :: entry.toList.map (Opt.entry · true) else []) ++
          (template.toList.map (Opt.template · true) ++ (output.toList.map (Opt.output · true) ++
          (if decide (input.length > 0) then [Opt.stdin] else []))))).filterMap definitionOf = [] := by
        cases print <;> cases listing <;> cases entry <;> cases template <;> cases output <;>
          cases decide (input.length > 0) <;> rfl
      rw [this, List.append_nil]

/-- Every run of blogc wanted by a rule reaches blogc as meant: the shell starts it
with options for exactly the output, the template, the entry, the variables and the
sources of the run. The command is made by blogc-make (`Job.command`), split by the
shell and read by blogc. -/
theorem job_runs_partial (s : Site) (hs : Clean s) (env : Main.Env) (w : Wanted) (hw : CleanRun w) (j : Job)
    (hj : Fits w j) :
    ∃ cmd input o, j.command s = .ok cmd ∧ j.input = .ok input ∧
      started env cmd input = some (Main.body { env with stdin := input } o) ∧
      Asked s { env with stdin := input } o (ownVars w) w.listing none w.entry (some w.template)
        (some w.output) w.sources := by
  obtain ⟨t, ht, htp⟩ : ∃ t, j.template = some t ∧ t.path = w.template := by
    have := hj.template
    cases h : j.template with
    | none => rw [h] at this; cases this
    | some t => rw [h] at this; exact ⟨t, rfl, Option.some.inj this⟩
  have hl : match j.locals with
      | none => (match w.slug with | none => [] | some g => [(b!"MAKE_SLUG", g)]) = []
      | some t => Describes t (match w.slug with | none => [] | some g => [(b!"MAKE_SLUG", g)]) := by
    have := hj.locals
    cases hsl : w.slug with
    | none => rw [hsl] at this; simp only at this; rw [this]
    | some g =>
      rw [hsl] at this
      obtain ⟨t, e, hd⟩ := this
      rw [e]
      exact hd
  obtain ⟨o, h1, h2⟩ := runs s hs env hj.vars hl hw.vars none (by intro p e; cases e) w.listing w.entry
    (some w.template) (some w.output) (fun e h => hw.entry e h)
    (fun e h => by cases h; exact hw.template) (fun e h => by cases h; exact hw.output) w.sources hw.sources
  refine ⟨_, _, o, ?_, hj.input, h1, h2⟩
  unfold Job.command
  rw [hj.input, ht]
  show Res.ok _ = _
  rw [hj.listing, hj.entry, hj.output, htp]

/-- The same for the run that asks for a variable of a listing, such as LAST_PAGE:
it prints the variable and has the page size, and for the pages of a tag the tag. -/
theorem variable_runs_partial (s : Site) (hs : Clean s) (h : MakeJobs.Ok s) (env : Main.Env) (tag : Option Str)
    (htag : ∀ t, tag = some t → TextOk t) (hper : TextOk (s.getStr b!"posts_per_page"))
    (hsrc : ∀ f ∈ postSources s, LineOk f) (name : Str) (hname : C57.Plain name ∧ name ≠ []) :
    ∃ cmd input o, variableCommand s (postsPagination s.cfg.settings b!"posts_per_page" .nil)
        (tag.map (set .nil b!"FILTER_TAG")) name true s.posts false = .ok (cmd, input) ∧
      started env cmd input = some (Main.body { env with stdin := input } o) ∧
      Asked s { env with stdin := input } o
        (tag.toList.map (fun t => (b!"FILTER_TAG", t)) ++ firstPage s b!"posts_per_page") true (some name)
        none none none (postSources s) := by
  have hv := describes_page s b!"posts_per_page" h.perPage describes_nil
  rw [List.append_nil] at hv
  have hl : match tag.map (set .nil b!"FILTER_TAG") with
      | none => (tag.toList.map fun t => (b!"FILTER_TAG", t)) = []
      | some t => Describes t (tag.toList.map fun t => (b!"FILTER_TAG", t)) := by
    cases tag with
    | none => rfl
    | some t => exact describes_set describes_nil _ _ (by decide)
  have hval : ∀ kv ∈ tag.toList.map (fun t => (b!"FILTER_TAG", t)) ++ firstPage s b!"posts_per_page",
      ValidKey kv.1 ∧ TextOk kv.2 := by
    intro kv hkv
    rcases List.mem_append.1 hkv with hm | hm
    · obtain ⟨t, ht, rfl⟩ := List.mem_map.1 hm
      exact ⟨⟨_, _, rfl, by decide, by decide⟩, htag t (by simpa using ht)⟩
    · unfold firstPage at hm
      split at hm
      · cases hm
      · rcases List.mem_cons.1 hm with rfl | hm
        · exact ⟨⟨_, _, rfl, by decide, by decide⟩, hper⟩
        · rw [List.mem_singleton.1 hm]
          exact ⟨⟨_, _, rfl, by decide, by decide⟩, by unfold NulFree; decide, [0x31], by simp [IsScalar], by decide⟩
  obtain ⟨o, h1, h2⟩ := runs s hs env hv hl hval (some name) (by intro p e; cases e; exact hname) true none
    none none (by intro v e; cases e) (by intro v e; cases e) (by intro v e; cases e) (postSources s) hsrc
  refine ⟨_, _, o, ?_, h1, h2⟩
  have hin := C86.posts_input h
  unfold variableCommand
  cases hp : sourcePaths false s.posts with
  | ub => rw [hp] at hin; cases hin
  | ok ps =>
    rw [hp] at hin
    have : sourceInput false ps = (postSources s).flatMap (· ++ b!"\n") := by
      injection hin
    show Res.ok _ = _
    rw [this]

/-! Non-vacuity: the site of C86. -/

theorem utf8_of {v : Str} (h : utf8Validate v = .ok true) (hn : NulFree v) : TextOk v := ⟨hn, C64.utf8_of h⟩

theorem site_clean : Clean (C86.site b!"_build") where
  exe := ⟨b!"blogc", rfl, by decide⟩
  locale := by
    intro l h
    have : (C86.site b!"_build").get b!"locale" = none := rfl
    rw [this] at h
    cases h
  tags := by
    intro t ht
    have : t = b!"x" ∨ t = b!"y" := by simpa [C86.site] using ht
    rcases this with rfl | rfl
    · exact ⟨utf8_of rfl (by unfold NulFree; decide), by decide⟩
    · exact ⟨utf8_of rfl (by unfold NulFree; decide), by decide⟩
  filled := ⟨[], by simp [CKeys], rfl⟩
  global := by intro k v _ h; cases h

theorem site_sources : ∀ f ∈ postSources (C86.site b!"_build"), LineOk f := by
  have : postSources (C86.site b!"_build") =
      [b!"/site/content/post/one.txt", b!"/site/content/post/two.txt", b!"/site/content/post/three.txt"] := by
    decide +kernel
  rw [this]
  intro f hf
  simp only [List.mem_cons, List.not_mem_nil, or_false] at hf
  rcases hf with rfl | rfl | rfl <;> exact ⟨by unfold NulFree; decide, by decide, by decide⟩

/-- The listing of all posts is a run that the theorem is about. -/
example : ∀ w ∈ index (C86.site b!"_build"), CleanRun w := by
  intro w hw
  have e : (index (C86.site b!"_build")).map (fun w => (ownVars w, w.output, w.template, w.entry)) =
      [([(b!"MAKE_TYPE", b!"post"), (b!"MAKE_RULE", b!"index"), (b!"DATE_FORMAT", b!"%b %d, %Y, %I:%M %p GMT"),
        (b!"FILTER_REVERSE", b!"1"), (b!"FILTER_PER_PAGE", b!"2"), (b!"FILTER_PAGE", b!"1")],
        b!"/site/_build/index.html", b!"/site/templates/main.tmpl", none)] := by decide +kernel
  have hsrc : ∀ w ∈ index (C86.site b!"_build"), w.sources = postSources (C86.site b!"_build") := by
    intro w hw
    unfold index at hw
    split at hw
    · cases hw
    · rw [List.mem_singleton.1 hw]; rfl
  have hm := List.mem_map_of_mem (f := fun w => (ownVars w, w.output, w.template, w.entry)) hw
  rw [e, List.mem_singleton, Prod.mk.injEq, Prod.mk.injEq, Prod.mk.injEq] at hm
  obtain ⟨h1, h2, h3, h4⟩ := hm
  refine ⟨?_, ?_, ?_, ?_, ?_⟩
  · rw [h1]
    intro kv hkv
    simp only [List.mem_cons, List.not_mem_nil, or_false] at hkv
    rcases hkv with rfl | rfl | rfl | rfl | rfl | rfl <;>
      exact ⟨⟨_, _, rfl, by decide, by decide⟩, utf8_of rfl (by unfold NulFree; decide)⟩
  · rw [h2]; unfold NulFree; decide
  · rw [h3]; unfold NulFree; decide
  · rw [h4]; intro e h; cases h
  · rw [hsrc w hw]; exact site_sources

end Blogc.C87
