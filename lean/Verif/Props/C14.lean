import Verif.Lemmas.Config
import Verif.Props.C07
import Verif.Props.C08

/-!
# C14: configuration files round-trip
-/

namespace Blogc.C14

open Blogc Blogc.Spec Blogc.Spec.Config Blogc.Config

/-- What the parser stores for a section of a document. -/
def secOf (lists : List Str) (s : Section) : Sec :=
  if s.name ∈ lists then .list s.items else .map (Trie.inserts s.pairs).1

def hist (lists : List Str) (ss : List Section) : Hist := ss.map fun s => (s.name, secOf lists s)

/-- What the parser holds while it is in the middle of the lines of a section. -/
def secLines (n : Str) (lists : List Str) (ls : List Line) : Sec := secOf lists ⟨n, ls⟩

theorem pairs_append (n : Str) (ls : List Line) (l : Line) :
    (Section.mk n (ls ++ [l])).pairs = (Section.mk n ls).pairs ++ (Section.mk n [l]).pairs := by
  simp [Section.pairs]

theorem items_append (n : Str) (ls : List Line) (l : Line) :
    (Section.mk n (ls ++ [l])).items = (Section.mk n ls).items ++ (Section.mk n [l]).items := by
  simp [Section.items]

variable {src : Str} {lists : List Str}

/-- One line of a section. -/
theorem run_line (H : Hist) (n : Str) (ls : List Line) (l : Line) (start : Nat) (pre post : Str)
    (hsrc : src = pre ++ (l.render ++ b!"\n") ++ post) (hl : l.Ok (decide (n ∈ lists))) :
    ∃ start', Reach (step src lists)
      (mid (H ++ [(n, secLines n lists ls)]) pre.length start .start none none)
      (mid (H ++ [(n, secLines n lists (ls ++ [l]))]) (pre ++ (l.render ++ b!"\n")).length start'
        .start none none) := by
  cases l with
  | blank ws =>
    have e : secLines n lists (ls ++ [.blank ws]) = secLines n lists ls := by
      simp [secLines, secOf, pairs_append, items_append]
      simp [Section.pairs, Section.items]
    rw [e]
    exact ⟨start, run_blank ws pre post hsrc hl⟩
  | comment m t =>
    have e : secLines n lists (ls ++ [.comment m t]) = secLines n lists ls := by
      simp [secLines, secOf, pairs_append, items_append]
      simp [Section.pairs, Section.items]
    rw [e]
    exact ⟨start, run_comment m t pre post hsrc hl.1 hl.2⟩
  | pair k v q =>
    obtain ⟨h0, h1, h2⟩ := hl
    have hn : n ∉ lists := by simpa using h0
    have e1 : secLines n lists ls = .map (Trie.inserts (Section.mk n ls).pairs).1 := by
      simp [secLines, secOf, hn]
    have e2 : secLines n lists (ls ++ [.pair k v q]) =
        .map ((Trie.inserts (Section.mk n ls).pairs).1.insert k v).1 := by
      simp only [secLines, secOf, hn, if_false, pairs_append]
      rw [show (Section.mk n [Line.pair k v q]).pairs = [(k, v)] from rfl, Trie.inserts_append]
    rw [e1, e2]
    exact ⟨_, run_pair k v q pre post hsrc h1 h2⟩
  | item v q =>
    obtain ⟨h0, h1, h2⟩ := hl
    have hn : n ∈ lists := by simpa using h0
    have e1 : secLines n lists ls = .list (Section.mk n ls).items := by
      simp [secLines, secOf, hn]
    have e2 : secLines n lists (ls ++ [.item v q]) = .list ((Section.mk n ls).items ++ [v]) := by
      simp only [secLines, secOf, hn, if_true, items_append]
      rfl
    rw [e1, e2]
    exact ⟨_, run_item v q pre post hsrc h1 h2⟩

theorem run_lines (H : Hist) (n : Str) (done ls : List Line) (start : Nat) (pre post : Str)
    (hsrc : src = pre ++ renderLines ls ++ post) (hl : ∀ l ∈ ls, l.Ok (decide (n ∈ lists))) :
    ∃ start', Reach (step src lists)
      (mid (H ++ [(n, secLines n lists done)]) pre.length start .start none none)
      (mid (H ++ [(n, secLines n lists (done ++ ls))]) (pre ++ renderLines ls).length start'
        .start none none) := by
  induction ls generalizing done start pre with
  | nil => exact ⟨start, by simpa [renderLines] using Reach.refl _⟩
  | cons l ls ih =>
    have hc : renderLines (l :: ls) = (l.render ++ b!"\n") ++ renderLines ls := by
      simp [renderLines]
    rw [hc] at hsrc ⊢
    obtain ⟨s1, h1⟩ := run_line (src := src) H n done l start pre (renderLines ls ++ post)
      (by simp [hsrc])
      (hl l (by simp))
    obtain ⟨s2, h2⟩ := ih (done ++ [l]) s1 (pre ++ (l.render ++ b!"\n")) (by simp [hsrc])
      (fun x hx => hl x (by simp [hx]))
    refine ⟨s2, h1.trans ?_⟩
    simpa using h2

theorem run_pre (H : Hist) (ls : List Line) (start : Nat) (pre post : Str)
    (hsrc : src = pre ++ renderLines ls ++ post) (hl : ∀ l ∈ ls, l.OkPre) :
    Reach (step src lists) (mid H pre.length start .start none none)
      (mid H (pre ++ renderLines ls).length start .start none none) := by
  induction ls generalizing pre with
  | nil => simpa [renderLines] using Reach.refl _
  | cons l ls ih =>
    have hc : renderLines (l :: ls) = (l.render ++ b!"\n") ++ renderLines ls := by
      simp [renderLines]
    rw [hc] at hsrc ⊢
    have h1 : Reach (step src lists) (mid H pre.length start .start none none)
        (mid H (pre ++ (l.render ++ b!"\n")).length start .start none none) := by
      have hok := hl l (by simp)
      cases l with
      | blank ws => exact run_blank ws pre (renderLines ls ++ post) (by simpa [Line.render] using hsrc) hok
      | comment m t =>
        exact run_comment m t pre (renderLines ls ++ post) (by simpa [Line.render] using hsrc) hok.1 hok.2
      | pair => exact absurd hok id
      | item => exact absurd hok id
    refine h1.trans ?_
    have h2 := ih (pre ++ (l.render ++ b!"\n")) (by simp [hsrc]) (fun x hx => hl x (by simp [hx]))
    simpa using h2

theorem run_sections (H : Hist) (ss : List Section) (start : Nat) (pre post : Str)
    (hsrc : src = pre ++ ss.flatMap Section.render ++ post)
    (hs : ∀ s ∈ ss, NameOk s.name ∧ ∀ l ∈ s.lines, l.Ok (decide (s.name ∈ lists))) :
    ∃ start', Reach (step src lists) (mid H pre.length start .start none none)
      (mid (H ++ hist lists ss) (pre ++ ss.flatMap Section.render).length start' .start none none) := by
  induction ss generalizing H start pre with
  | nil => exact ⟨start, by simpa [hist] using Reach.refl _⟩
  | cons s ss ih =>
    obtain ⟨hn, hl⟩ := hs s (by simp)
    simp only [List.flatMap_cons] at hsrc ⊢
    have h1 := run_section (src := src) (lists := lists) (H := H) (start := start) s.name pre
      (renderLines s.lines ++ ss.flatMap Section.render ++ post)
      (by simp [hsrc, Section.render]) hn
    have e0 : (if s.name ∈ lists then Sec.list [] else Sec.map Trie.nil) =
        secLines s.name lists [] := rfl
    rw [e0] at h1
    obtain ⟨s2, h2⟩ := run_lines (src := src) (lists := lists) H s.name [] s.lines (pre.length + 1)
      (pre ++ (b!"[" ++ s.name ++ b!"]\n")) (ss.flatMap Section.render ++ post)
      (by simp [hsrc, Section.render]) hl
    obtain ⟨s3, h3⟩ := ih (H ++ [(s.name, secLines s.name lists ([] ++ s.lines))]) s2
      (pre ++ s.render) (by simp [hsrc]) (fun x hx => hs x (by simp [hx]))
    refine ⟨s3, h1.trans (h2.trans ?_)⟩
    have e1 : (pre ++ (b!"[" ++ s.name ++ b!"]\n") ++ renderLines s.lines) = pre ++ s.render := by
      simp [Section.render]
    rw [e1]
    have e2 : H ++ hist lists (s :: ss) =
        H ++ [(s.name, secLines s.name lists ([] ++ s.lines))] ++ hist lists ss := by
      simp [hist, secLines]
    rw [e2, ← List.append_assoc]
    exact h3

theorem run_doc (d : Doc) (hd : d.Ok lists) (post : Str) (hsrc : src = d.render ++ post) :
    ∃ start', Reach (step src lists) St.init
      (mid (hist lists d.sections) d.render.length start' .start none none) := by
  have h1 := run_pre (src := src) (lists := lists) [] d.preamble 0 []
    (d.sections.flatMap Section.render ++ post) (by simp [hsrc, Doc.render]) hd.1
  obtain ⟨s2, h2⟩ := run_sections (src := src) (lists := lists) [] d.sections 0
    (renderLines d.preamble) post (by simp [hsrc, Doc.render]) hd.2
  exact ⟨s2, h1.trans h2⟩

/-- The configuration the parser builds for a document. -/
def cfgOf (H : Hist) : Config := { heap := H.map (·.2), root := (Trie.inserts (ids H)).1 }

theorem ids_lookup (H : Hist) (k : Str) :
    (lastValue (ids H) k).bind (fun i => (H.map (·.2))[i]?) = lastValue H k := by
  induction H using List.reverseRecOn with
  | nil => rfl
  | append_singleton H x ih =>
    obtain ⟨n, s⟩ := x
    rw [ids_append]
    have key : ∀ {α : Type} (l : List (Str × α)) (x : Str × α),
        lastValue (l ++ [x]) k = if x.1 = k then some x.2 else lastValue l k := by
      intro α l x
      simp only [lastValue, List.reverse_append, List.reverse_cons, List.reverse_nil,
        List.nil_append, List.singleton_append, List.find?_cons]
      cases h : x.1 == k <;> simp_all
    rw [key, key]
    by_cases h : n = k
    · simp [h]
    · simp only [h, if_false]
      rw [← ih]
      cases hl : lastValue (ids H) k with
      | none => rfl
      | some i =>
        have hi : i < H.length := by
          unfold lastValue at hl
          obtain ⟨p, hp, rfl⟩ := Option.map_eq_some_iff.1 hl
          have := List.mem_of_find?_eq_some hp
          exact ids_snd_lt H _ (List.mem_map_of_mem (List.mem_reverse.1 this))
        simp [List.getElem?_append, hi]

theorem lastValue_hist (ss : List Section) (k : Str) :
    lastValue (hist lists ss) k =
      (ss.reverse.find? fun s => s.name == k).map (secOf lists) := by
  simp [lastValue, hist, ← List.map_reverse, List.find?_map, Function.comp_def]

theorem cKeys_ids (H : Hist) (h : ∀ x ∈ H, NulFree x.1) : CKeys (ids H) := by
  intro kv hkv
  have : kv.1 ∈ (ids H).map (·.1) := List.mem_map_of_mem hkv
  have e : (ids H).map (·.1) = H.map (·.1) := by simp [ids]
  rw [e] at this
  obtain ⟨x, hx, hx'⟩ := List.mem_map.1 this
  rw [← hx']
  exact h x hx

theorem pairs_cKeys (s : Section) (il : Bool) (hl : ∀ l ∈ s.lines, l.Ok il) : CKeys s.pairs := by
  intro kv hkv
  simp only [Section.pairs, List.mem_filterMap] at hkv
  obtain ⟨l, hl', he⟩ := hkv
  have := hl l hl'
  cases l with
  | pair k v q =>
    simp only [Option.some.injEq] at he
    subst he
    exact this.2.1.1
  | _ => simp at he

/-- A configuration answers every query as a document does. -/
def Answers (cfg : Config) (d : Doc) (lists : List Str) : Prop :=
  (∀ sec key, NulFree sec → NulFree key → cfg.get sec key = d.get lists sec key) ∧
  (∀ sec, NulFree sec → cfg.getList sec = d.getList lists sec) ∧
  (∀ sec, sec ∈ cfg.sections ↔ ∃ s ∈ d.sections, s.name = sec) ∧ cfg.sections.Nodup

theorem cfgOf_answers (d : Doc) (lists : List Str) (hd : d.Ok lists) :
    Answers (cfgOf (hist lists d.sections)) d lists := by
  have hnames : ∀ x ∈ hist lists d.sections, NulFree x.1 := by
    intro x hx
    simp only [hist, List.mem_map] at hx
    obtain ⟨s, hs, rfl⟩ := hx
    exact (hd.2 s hs).1.2.1
  refine ⟨?_, ?_, ?_, ?_⟩
  · intro sec key hsec hkey
    unfold Config.get Doc.get Doc.section
    simp only [cfgOf]
    rw [C07.lookup_inserts _ (cKeys_ids _ hnames) sec hsec]
    have := ids_lookup (hist lists d.sections) sec
    rw [lastValue_hist] at this
    cases hl : lastValue (ids (hist lists d.sections)) sec with
    | none =>
      rw [hl] at this
      cases hf : (d.sections.reverse.find? fun s => s.name == sec) with
      | none => rfl
      | some s => rw [hf] at this; simp at this
    | some i =>
      rw [hl] at this
      simp only [Option.bind_some] at this
      simp only [this]
      cases hf : (d.sections.reverse.find? fun s => s.name == sec) with
      | none => rfl
      | some s =>
        have hn : s.name = sec := by simpa using List.find?_some hf
        have hmem : s ∈ d.sections := List.mem_reverse.1 (List.mem_of_find?_eq_some hf)
        simp only [Option.map_some, secOf, hn]
        by_cases hli : sec ∈ lists
        · simp [hli]
        · simp only [hli, if_false]
          exact C07.lookup_inserts _ (pairs_cKeys s _ (hd.2 s hmem).2) key hkey
  · intro sec hsec
    unfold Config.getList Doc.getList Doc.section
    simp only [cfgOf]
    rw [C07.lookup_inserts _ (cKeys_ids _ hnames) sec hsec]
    have := ids_lookup (hist lists d.sections) sec
    rw [lastValue_hist] at this
    cases hl : lastValue (ids (hist lists d.sections)) sec with
    | none =>
      rw [hl] at this
      cases hf : (d.sections.reverse.find? fun s => s.name == sec) with
      | none => rfl
      | some s => rw [hf] at this; simp at this
    | some i =>
      rw [hl] at this
      simp only [Option.bind_some] at this
      simp only [this]
      cases hf : (d.sections.reverse.find? fun s => s.name == sec) with
      | none => rfl
      | some s =>
        have hn : s.name = sec := by simpa using List.find?_some hf
        simp only [Option.map_some, secOf, hn]
        by_cases hli : sec ∈ lists <;> simp [hli]
  · intro sec
    have e : (ids (hist lists d.sections)).map (·.1) = d.sections.map (·.name) := by
      simp [ids, hist]
    have hm : sec ∈ (cfgOf (hist lists d.sections)).sections ↔
        sec ∈ (ids (hist lists d.sections)).map (·.1) := by
      simp only [Config.sections, cfgOf, List.mem_map (f := fun x : Str × Option Nat => x.1)]
      constructor
      · rintro ⟨⟨k, v⟩, hx, rfl⟩
        exact ((C08.mem_foreach_iff _ (cKeys_ids _ hnames) k v).1 hx).1
      · intro hx
        exact ⟨(sec, _), (C08.mem_foreach_iff _ (cKeys_ids _ hnames) sec _).2 ⟨hx, rfl⟩, rfl⟩
    rw [hm, e]
    simp
  · exact C08.foreach_keys_nodup _ (cKeys_ids _ hnames)

/-- Parsing the text of a well-formed document succeeds, and the resulting
configuration answers every query as the document does. -/
theorem round_trip (d : Doc) (lists : List Str) (hd : d.Ok lists) :
    ∃ cfg, parse d.render lists = some (.ok (.ok cfg)) ∧ Answers cfg d lists := by
  obtain ⟨s, hr⟩ := run_doc (src := d.render) d hd [] (by simp)
  refine ⟨cfgOf (hist lists d.sections), ?_, cfgOf_answers d lists hd⟩
  obtain ⟨r, hp⟩ := C15.parse_total d.render lists
  have := runM_of_reach hr (r := .ok (cfgOf (hist lists d.sections)))
    (by simp [step, mid, cfgOf]) hp
  rw [hp, this]

/-! Non-vacuity. -/

def sample : Doc :=
  { preamble := [.comment c!"#" b!" my site", .blank b!"  "]
    sections :=
      [ ⟨b!"global", [.pair b!"TITLE" b!"a \"b\" \\ c\n" true, .pair b!"X" b!"y z" false,
          .comment c!";" b!"[no]", .pair b!"X" b!"" false]⟩,
        ⟨b!"posts", [.item b!"foo" false, .item b!" bar#" true]⟩ ] }

example : sample.render = b!"# my site\n  \n[global]\nTITLE = \"a \\\"b\\\" \\\\ c\n\"\nX = y z\n;[no]\nX = \n[posts]\nfoo\n\" bar#\"\n" := by
  decide

example : sample.Ok [b!"posts"] := by
  refine ⟨?_, ?_⟩
  · intro l hl
    simp only [sample, List.mem_cons, List.not_mem_nil, or_false] at hl
    rcases hl with rfl | rfl
    · exact ⟨Or.inl rfl, by decide, by decide⟩
    · intro c hc
      simp at hc
      exact Or.inl hc
  · intro s hs
    simp only [sample, List.mem_cons, List.not_mem_nil, or_false] at hs
    rcases hs with rfl | rfl
    · refine ⟨⟨by decide, by decide, ⟨by decide, by decide⟩, by decide⟩, ?_⟩
      intro l hl
      simp only [List.mem_cons, List.not_mem_nil, or_false] at hl
      rcases hl with rfl | rfl | rfl | rfl
      · refine ⟨by decide, ⟨by decide, ⟨by decide, by decide⟩, by decide, ⟨?_, ?_⟩, ?_⟩, ?_⟩
        · simp [White]
        · simp [White]
        · simp [FirstOk]
        · show NulFree _
          decide
      · refine ⟨by decide, ⟨by decide, ⟨by decide, by decide⟩, by decide, ⟨?_, ?_⟩, ?_⟩,
          ⟨by decide, ⟨by decide, by decide⟩, by decide, ⟨?_, ?_⟩, by decide⟩⟩
        · simp [White]
        · simp [White]
        · simp [FirstOk]
        · simp [White]
        · simp [White]
      · exact ⟨Or.inr rfl, by decide, by decide⟩
      · refine ⟨by decide, ⟨by decide, ⟨by decide, by decide⟩, by decide, ⟨?_, ?_⟩, ?_⟩,
          ⟨by decide, ⟨by decide, by decide⟩, by decide, ⟨?_, ?_⟩, by decide⟩⟩
        · simp [White]
        · simp [White]
        · simp [FirstOk]
        · simp
        · simp
    · refine ⟨⟨by decide, by decide, ⟨by decide, by decide⟩, by decide⟩, ?_⟩
      intro l hl
      simp only [List.mem_cons, List.not_mem_nil, or_false] at hl
      rcases hl with rfl | rfl
      · refine ⟨by decide, ⟨by decide, ⟨by decide, by decide⟩, by decide, ⟨?_, ?_⟩, by decide⟩, ?_⟩
        · simp [White]
        · simp [White]
        · simp [FirstOk]
      · refine ⟨by decide, ?_, by simp⟩
        show NulFree _
        decide

example : sample.get [b!"posts"] b!"global" b!"TITLE" = some b!"a \"b\" \\ c\n" ∧
    sample.get [b!"posts"] b!"global" b!"X" = some [] ∧
    sample.getList [b!"posts"] b!"posts" = some [b!"foo", b!" bar#"] := by decide

end Blogc.C14
