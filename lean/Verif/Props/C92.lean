import Verif.Lemmas.ConfigLayout
import Verif.Props.C14

/-!
# C92: the layout of a configuration file does not matter

`Spec.Config.WrittenDoc d s` (Spec/ConfigLayout.lean): the text `s` is a way to write the document
`d`, with blanks and line endings as the user likes. `C14.Answers cfg d lists`: the configuration
answers every query as the document says.
-/

namespace Blogc.C92

open Blogc Blogc.Spec Blogc.Spec.Config Blogc.Config

variable {src : Str} {lists : List Str}

/-- One line of a section. -/
theorem run_line (H : Hist) (n : Str) (ls : List Line) (l : Line) (start : Nat) (t e pre post : Str)
    (hsrc : src = pre ++ (t ++ e) ++ post) (hl : l.Ok (decide (n ∈ lists))) (hw : Written l t)
    (he : Ending e) :
    ∃ start', Reach (step src lists)
      (mid (H ++ [(n, C14.secLines n lists ls)]) pre.length start .start none none)
      (mid (H ++ [(n, C14.secLines n lists (ls ++ [l]))]) (pre ++ (t ++ e)).length start'
        .start none none) := by
  have void : l.OkPre → C14.secLines n lists (ls ++ [l]) = C14.secLines n lists ls := by
    intro h
    simp only [C14.secLines, C14.secOf, C14.pairs_append, C14.items_append]
    cases l with
    | blank => simp [Section.pairs, Section.items]
    | comment => simp [Section.pairs, Section.items]
    | pair => exact absurd h id
    | item => exact absurd h id
  cases hw with
  | @blank ws i hi =>
    rw [void hl]
    exact ⟨start, run_void (l := .blank ws) pre post hsrc hl (.blank hi) he⟩
  | @comment m t i hi =>
    rw [void hl]
    exact ⟨start, run_void (l := .comment m t) pre post hsrc hl (.comment hi) he⟩
  | @pair k v q i g1 g2 g3 hi h1 h2 h3 =>
    obtain ⟨h0, hk, hv⟩ := hl
    have hn : n ∉ lists := by simpa using h0
    have e1 : C14.secLines n lists ls = .map (Trie.inserts (Section.mk n ls).pairs).1 := by
      simp [C14.secLines, C14.secOf, hn]
    have e2 : C14.secLines n lists (ls ++ [.pair k v q]) =
        .map ((Trie.inserts (Section.mk n ls).pairs).1.insert k v).1 := by
      simp only [C14.secLines, C14.secOf, hn, if_false, C14.pairs_append]
      rw [show (Section.mk n [Line.pair k v q]).pairs = [(k, v)] from rfl, Trie.inserts_append]
    rw [e1, e2]
    obtain ⟨a, f, rfl, ha, hf, hf'⟩ := gap_split hi
    refine ⟨(pre ++ a).length, (run_skip a pre
      (f ++ k ++ g1 ++ b!"=" ++ g2 ++ renderValue v q ++ g3 ++ e ++ post)
      (by simp [hsrc]) (fun c hc => (ha c hc).imp id .inl)).trans ?_⟩
    have hne : e ≠ [] := by
      obtain ⟨c, e', rfl, -⟩ := ending_cons he
      simp
    refine (run_key_free f k g1 (pre ++ a) (g2 ++ renderValue v q ++ g3 ++ e ++ post)
      (by simp [hsrc]) (by simp [hne]) hk hf hf' h1).trans ?_
    refine (run_gap .valueStart _ _ (by simp) g2 (pre ++ a ++ (f ++ k ++ g1 ++ b!"="))
      (renderValue v q ++ g3 ++ e ++ post) (by simp [hsrc]) h2).trans ?_
    have := run_value (src := src) (lists := lists) (H := H) (n := n)
      (t := (Trie.inserts (Section.mk n ls).pairs).1) (start := (pre ++ a).length) (f ++ k ++ g1) k v q
      g3 e (pre ++ a ++ (f ++ k ++ g1 ++ b!"=") ++ g2) post (by simp [hsrc])
      (strip_pad f k g1 hk.2.2.2.1 (gap_white hf) (gap_white h1)) hv h3 he
    have e3 : pre ++ a ++ (f ++ k ++ g1 ++ b!"=") ++ g2 ++ (renderValue v q ++ g3 ++ e) =
        pre ++ (a ++ f ++ k ++ g1 ++ b!"=" ++ g2 ++ renderValue v q ++ g3 ++ e) := by simp
    rw [e3] at this
    exact this
  | @item v q i g hi hg =>
    obtain ⟨h0, hv, hfirst⟩ := hl
    have hn : n ∈ lists := by simpa using h0
    have e1 : C14.secLines n lists ls = .list (Section.mk n ls).items := by
      simp [C14.secLines, C14.secOf, hn]
    have e2 : C14.secLines n lists (ls ++ [.item v q]) = .list ((Section.mk n ls).items ++ [v]) := by
      simp only [C14.secLines, C14.secOf, hn, if_true, C14.items_append]
      rfl
    rw [e1, e2]
    obtain ⟨a, f, rfl, ha, hf, hf'⟩ := gap_split hi
    refine ⟨(pre ++ a).length, (run_skip a pre (f ++ renderValue v q ++ g ++ e ++ post)
      (by simp [hsrc]) (fun c hc => (ha c hc).imp id .inl)).trans ?_⟩
    have := run_item_free (src := src) (lists := lists) (H := H) (n := n) (l := (Section.mk n ls).items)
      (start := start) f v q g e (pre ++ a) post (by simp [hsrc]) hv hfirst hf hf' hg he
    have e3 : pre ++ a ++ (f ++ renderValue v q ++ g ++ e) =
        pre ++ (a ++ f ++ renderValue v q ++ g ++ e) := by simp
    rw [e3] at this
    exact this

theorem run_lines (H : Hist) (n : Str) {ls : List Line} {t : Str} (hw : WrittenLines ls t) :
    ∀ (done : List Line) (start : Nat) (pre post : Str), src = pre ++ t ++ post →
    (∀ l ∈ ls, l.Ok (decide (n ∈ lists))) →
    ∃ start', Reach (step src lists)
      (mid (H ++ [(n, C14.secLines n lists done)]) pre.length start .start none none)
      (mid (H ++ [(n, C14.secLines n lists (done ++ ls))]) (pre ++ t).length start'
        .start none none) := by
  induction hw with
  | nil => intro done start pre post _ _; exact ⟨start, by simpa using Reach.refl _⟩
  | @cons l ls t e s hl he _ ih =>
    intro done start pre post hsrc hok
    obtain ⟨s1, h1⟩ := run_line (src := src) (lists := lists) H n done l start t e pre (s ++ post)
      (by simp [hsrc]) (hok l (by simp)) hl he
    obtain ⟨s2, h2⟩ := ih (done ++ [l]) s1 (pre ++ (t ++ e)) post (by simp [hsrc])
      (fun x hx => hok x (by simp [hx]))
    refine ⟨s2, h1.trans ?_⟩
    have e1 : done ++ [l] ++ ls = done ++ l :: ls := by simp
    have e2 : pre ++ (t ++ e) ++ s = pre ++ (t ++ e ++ s) := by simp
    rw [e1, e2] at h2
    exact h2

theorem run_pre (H : Hist) {ls : List Line} {t : Str} (hw : WrittenLines ls t) :
    ∀ (start : Nat) (pre post : Str), src = pre ++ t ++ post → (∀ l ∈ ls, l.OkPre) →
    Reach (step src lists) (mid H pre.length start .start none none)
      (mid H (pre ++ t).length start .start none none) := by
  induction hw with
  | nil => intro start pre post _ _; simpa using Reach.refl _
  | @cons l ls t e s hl he _ ih =>
    intro start pre post hsrc hok
    have h1 := run_void (src := src) (lists := lists) (H := H) (start := start) pre (s ++ post)
      (by simp [hsrc]) (hok l (by simp)) hl he
    have h2 := ih start (pre ++ (t ++ e)) post (by simp [hsrc]) (fun x hx => hok x (by simp [hx]))
    refine h1.trans ?_
    have e2 : pre ++ (t ++ e) ++ s = pre ++ (t ++ e ++ s) := by simp
    rw [e2] at h2
    exact h2

theorem run_sections {ss : List Section} {t : Str} (hw : WrittenSections ss t) :
    ∀ (H : Hist) (start : Nat) (pre post : Str), src = pre ++ t ++ post →
    (∀ s ∈ ss, NameOk s.name ∧ ∀ l ∈ s.lines, l.Ok (decide (s.name ∈ lists))) →
    ∃ start', Reach (step src lists) (mid H pre.length start .start none none)
      (mid (H ++ C14.hist lists ss) (pre ++ t).length start' .start none none) := by
  induction hw with
  | nil => intro H start pre post _ _; exact ⟨start, by simpa [C14.hist] using Reach.refl _⟩
  | @cons n i t e a b l ls ss hi hl ht he ha _ ih =>
    intro H start pre post hsrc hok
    obtain ⟨hn, hlines⟩ := hok ⟨n, ls⟩ (by simp)
    obtain ⟨s1, h1⟩ := run_head (src := src) (lists := lists) (H := H) (start := start) n i pre
      (t ++ e ++ a ++ b ++ post) (by simp [hsrc]) hi hn
    have h2 := run_void (src := src) (lists := lists)
      (H := H ++ [(n, if n ∈ lists then .list [] else .map .nil)]) (start := s1)
      (pre ++ (i ++ b!"[" ++ n ++ b!"]")) (a ++ b ++ post) (by simp [hsrc]) hl ht he
    have e0 : (if n ∈ lists then Sec.list [] else Sec.map Trie.nil) = C14.secLines n lists [] := rfl
    rw [e0] at h1 h2
    obtain ⟨s3, h3⟩ := run_lines (src := src) (lists := lists) H n ha [] s1
      (pre ++ (i ++ b!"[" ++ n ++ b!"]") ++ (t ++ e)) (b ++ post) (by simp [hsrc]) hlines
    obtain ⟨s4, h4⟩ := ih (H ++ [(n, C14.secLines n lists ([] ++ ls))]) s3
      (pre ++ (i ++ b!"[" ++ n ++ b!"]") ++ (t ++ e) ++ a) post (by simp [hsrc])
      (fun x hx => hok x (by simp [hx]))
    refine ⟨s4, h1.trans (h2.trans (h3.trans ?_))⟩
    have e1 : pre ++ (i ++ b!"[" ++ n ++ b!"]") ++ (t ++ e) ++ a ++ b =
        pre ++ (i ++ b!"[" ++ n ++ b!"]" ++ t ++ e ++ a ++ b) := by simp
    have e2 : H ++ [(n, C14.secLines n lists ([] ++ ls))] ++ C14.hist lists ss =
        H ++ C14.hist lists (⟨n, ls⟩ :: ss) := by
      simp [C14.hist, C14.secLines]
    rw [e1, e2] at h4
    exact h4

theorem parse_written (d : Doc) (lists : List Str) (s : Str) (hd : d.Ok lists) (hw : WrittenDoc d s) :
    parse s lists = some (.ok (.ok (C14.cfgOf (C14.hist lists d.sections)))) := by
  obtain ⟨a, b, ha, hb, rfl⟩ := hw
  have h1 := run_pre (src := a ++ b) (lists := lists) [] ha 0 [] b (by simp) hd.1
  obtain ⟨s2, h2⟩ := run_sections (src := a ++ b) (lists := lists) hb [] 0 a [] (by simp) hd.2
  obtain ⟨r, hp⟩ := C15.parse_total (a ++ b) lists
  have := runM_of_reach (h1.trans h2) (r := .ok (C14.cfgOf (C14.hist lists d.sections)))
    (by simp [step, mid, C14.cfgOf]) hp
  rw [hp, this]

/-- Whatever way a document is written, the parser accepts it, and the configuration answers every
query as the document says. What is missing: form feeds and vertical tabs on lines of their own or
before a section header (`form_feed_violated`). -/
theorem layout_partial (d : Doc) (lists : List Str) (s : Str) (hd : d.Ok lists) (hw : WrittenDoc d s) :
    ∃ cfg, parse s lists = some (.ok (.ok cfg)) ∧ C14.Answers cfg d lists := by
  exact ⟨_, parse_written d lists s hd hw, C14.cfgOf_answers d lists hd⟩

/-- Two ways to write a document give configurations that answer alike. -/
theorem same_answers (d : Doc) (lists : List Str) (s t : Str) (hd : d.Ok lists) (hs : WrittenDoc d s)
    (ht : WrittenDoc d t) : ∃ c c', parse s lists = some (.ok (.ok c)) ∧
      parse t lists = some (.ok (.ok c')) ∧
      (∀ sec key, NulFree sec → NulFree key → c.get sec key = c'.get sec key) ∧
      (∀ sec, NulFree sec → c.getList sec = c'.getList sec) ∧
      (∀ sec, sec ∈ c.sections ↔ sec ∈ c'.sections) := by
  obtain ⟨c, h1, a1, a2, a3, -⟩ := layout_partial d lists s hd hs
  obtain ⟨c', h2, b1, b2, b3, -⟩ := layout_partial d lists t hd ht
  exact ⟨c, c', h1, h2, fun sec key hs hk => by rw [a1 sec key hs hk, b1 sec key hs hk],
    fun sec hs => by rw [a2 sec hs, b2 sec hs], fun sec => by rw [a3, b3]⟩

/-- The rendering of C14 is one of the ways. -/
theorem render_written (d : Doc) (lists : List Str) (hd : d.Ok lists) : WrittenDoc d d.render := by
  have line : ∀ l : Line, (l.OkPre ∨ ∃ b, l.Ok b) → Written l l.render := by
    intro l hl
    cases l with
    | blank ws =>
      refine .blank ?_
      rcases hl with h | ⟨_, h⟩ <;> exact h
    | comment m t => exact .comment (i := []) (by simp [Indent])
    | pair k v q =>
      have := Written.pair (k := k) (v := v) (q := q) (i := []) (g1 := b!" ") (g2 := b!" ") (g3 := [])
        (by simp [Gap]) (by simp [Gap]) (by simp [Gap]) (by simp [Gap])
      have e : [] ++ k ++ b!" " ++ b!"=" ++ b!" " ++ renderValue v q ++ [] = (Line.pair k v q).render := by
        simp [Line.render]
      rw [e] at this
      exact this
    | item v q =>
      have := Written.item (v := v) (q := q) (i := []) (g := []) (by simp [Gap]) (by simp [Gap])
      have e : [] ++ renderValue v q ++ [] = (Line.item v q).render := by simp [Line.render]
      rw [e] at this
      exact this
  have lines : ∀ ls : List Line, (∀ l ∈ ls, l.OkPre ∨ ∃ b, l.Ok b) → WrittenLines ls (renderLines ls) := by
    intro ls
    induction ls with
    | nil => intro _; exact .nil
    | cons l ls ih =>
      intro h
      exact .cons (line l (h l (by simp))) (.inl rfl) (ih fun x hx => h x (by simp [hx]))
  refine ⟨_, _, lines d.preamble (fun l hl => .inl (hd.1 l hl)), ?_, rfl⟩
  have hs := hd.2
  generalize d.sections = ss at hs
  induction ss with
  | nil => exact .nil
  | cons s ss ih =>
    have h := WrittenSections.cons (n := s.name) (i := []) (l := .blank []) (t := []) (e := b!"\n")
      (by simp [Indent]) (by simp [Line.OkPre]) (.blank (by simp [Indent])) (.inl rfl)
      (lines s.lines fun l hl => .inr ⟨_, (hs s (by simp)).2 l hl⟩) (ih fun x hx => hs x (by simp [hx]))
    have e : [] ++ b!"[" ++ s.name ++ b!"]" ++ [] ++ b!"\n" ++ renderLines s.lines ++
        ss.flatMap Section.render = (s :: ss).flatMap Section.render := by
      simp [Section.render]
    rw [e] at h
    exact h

/-! ### An example -/

def sample : Doc :=
  { preamble := [.blank []]
    sections := [⟨b!"a", [.pair b!"x" b!"1 2" false, .comment c!";" b!" no", .pair b!"y" b!"\"" true]⟩,
      ⟨b!"posts", [.item b!"p" false]⟩] }

theorem sample_ok : sample.Ok [b!"posts"] := by
  have first : ∀ c : Byte, c ∉ b!"#;[ \t\n\r" → c ≠ 11 → c ≠ 12 → FirstOk [c] ∧ Trimmed [c] := by
    intro c h h1 h2
    simp only [List.mem_cons, List.not_mem_nil, or_false, not_or] at h
    refine ⟨⟨by simp, by simpa using h.1, by simpa using h.2.1, by simpa using h.2.2.1⟩, ?_, ?_⟩
    all_goals
      intro x hx
      simp only [List.head?_cons, List.getLast?_singleton, Option.some.injEq] at hx
      subst hx
      unfold White
      grind
  have key : ∀ c : Byte, c ∉ b!"#;[ \t\n\r" → c ≠ 11 → c ≠ 12 → c ≠ 0 → c ≠ c!"=" → KeyOk [c] := by
    intro c h h1 h2 h3 h4
    have := first c h h1 h2
    simp only [List.mem_cons, List.not_mem_nil, or_false, not_or] at h
    refine ⟨by simp [NulFree, h3], ⟨?_, ?_⟩, by simpa using Ne.symm h4, this.2, this.1⟩
    · simpa using Ne.symm h.2.2.2.2.2.1
    · simpa using Ne.symm h.2.2.2.2.2.2
  refine ⟨?_, ?_⟩
  · intro l hl
    simp only [sample, List.mem_singleton] at hl
    subst hl
    simp [Line.OkPre]
  · intro s hs
    simp only [sample, List.mem_cons, List.not_mem_nil, or_false] at hs
    rcases hs with rfl | rfl
    · refine ⟨⟨by decide, by decide, ⟨by decide, by decide⟩, by decide⟩, ?_⟩
      intro l hl
      simp only [List.mem_cons, List.not_mem_nil, or_false] at hl
      rcases hl with rfl | rfl | rfl
      · refine ⟨by decide, key c!"x" (by decide) (by decide) (by decide) (by decide) (by decide), ?_⟩
        refine ⟨by decide, ⟨by decide, by decide⟩, by decide, ⟨?_, ?_⟩, by decide⟩
        all_goals
          intro x hx
          simp at hx
          subst hx
          simp [White]
      · exact ⟨.inr rfl, by decide, by decide⟩
      · exact ⟨by decide, key c!"y" (by decide) (by decide) (by decide) (by decide) (by decide),
          show NulFree b!"\"" by decide⟩
    · refine ⟨⟨by decide, by decide, ⟨by decide, by decide⟩, by decide⟩, ?_⟩
      intro l hl
      simp only [List.mem_singleton] at hl
      subst hl
      have := first c!"p" (by decide) (by decide) (by decide)
      exact ⟨by decide, ⟨by decide, ⟨by decide, by decide⟩, by decide, this.2, by decide⟩, fun _ => this.1⟩

theorem sample_written : WrittenDoc sample
    b!"\r\n\t[a] # b\r\n  x=\x0c1 2\x0b\t\n ; no\r\ny \x0c= \"\\\"\" \r[posts]\n\x0b p\n\r" := by
  refine ⟨b!"\r\n", b!"\t[a] # b\r\n  x=\x0c1 2\x0b\t\n ; no\r\ny \x0c= \"\\\"\" \r[posts]\n\x0b p\n\r", ?_, ?_, rfl⟩
  · exact .cons (t := []) (e := b!"\r\n") (s := []) (.blank (by simp [Indent])) (.inr (.inr (.inl rfl))) .nil
  refine .cons (n := b!"a") (i := b!"\t") (t := b!" # b") (e := b!"\r\n")
    (a := b!"  x=\x0c1 2\x0b\t\n ; no\r\ny \x0c= \"\\\"\" \r") (b := b!"[posts]\n\x0b p\n\r")
    (l := .comment c!"#" b!" b") (by simp [Indent]) ⟨.inl rfl, by decide, by decide⟩
    (.comment (i := b!" ") (by simp [Indent])) (.inr (.inr (.inl rfl))) ?_ ?_
  · refine .cons (t := b!"  x=\x0c1 2\x0b\t") (e := b!"\n") (s := b!" ; no\r\ny \x0c= \"\\\"\" \r") ?_ (.inl rfl) ?_
    · exact .pair (k := b!"x") (v := b!"1 2") (q := false) (i := b!"  ") (g1 := []) (g2 := [12])
        (g3 := [11, c!"\t"]) (by simp [Gap]) (by simp [Gap]) (by simp [Gap]) (by simp [Gap])
    refine .cons (t := b!" ; no") (e := b!"\r\n") (s := b!"y \x0c= \"\\\"\" \r") ?_ (.inr (.inr (.inl rfl))) ?_
    · exact .comment (i := b!" ") (by simp [Indent])
    refine .cons (t := b!"y \x0c= \"\\\"\" ") (e := b!"\r") (s := []) ?_ (.inr (.inl rfl)) .nil
    exact .pair (k := b!"y") (v := b!"\"") (q := true) (i := []) (g1 := [c!" ", 12]) (g2 := b!" ")
      (g3 := b!" ") (by simp [Gap]) (by simp [Gap]) (by simp [Gap]) (by simp [Gap])
  · refine .cons (n := b!"posts") (i := []) (t := []) (e := b!"\n") (a := b!"\x0b p\n\r") (b := [])
      (l := .blank []) (by simp [Indent]) (by simp [Line.OkPre]) (.blank (by simp [Indent])) (.inl rfl) ?_ .nil
    refine .cons (t := b!"\x0b p") (e := b!"\n\r") (s := []) ?_ (.inr (.inr (.inr rfl))) .nil
    exact .item (v := b!"p") (q := false) (i := [11, c!" "]) (g := []) (by simp [Gap]) (by simp [Gap])

example : ∃ cfg, parse b!"\r\n\t[a] # b\r\n  x=\x0c1 2\x0b\t\n ; no\r\ny \x0c= \"\\\"\" \r[posts]\n\x0b p\n\r"
    [b!"posts"] = some (.ok (.ok cfg)) ∧ cfg.get b!"a" b!"x" = some b!"1 2" ∧
      cfg.get b!"a" b!"y" = some b!"\"" ∧ cfg.getList b!"posts" = some [b!"p"] := by
  obtain ⟨cfg, h, h1, h2, -⟩ := layout_partial _ _ _ sample_ok sample_written
  refine ⟨cfg, h, ?_, ?_, ?_⟩
  · rw [h1 _ _ (by decide) (by decide)]; decide
  · rw [h1 _ _ (by decide) (by decide)]; decide
  · rw [h2 _ (by decide)]; decide

/-- A form feed on a line of its own, which is skipped elsewhere, is an error. -/
theorem form_feed_violated :
    ∃ e, parse b!"[a]\n\x0c\nx = 1\n" [] = some (.ok (.error e)) := ⟨_, rfl⟩

end Blogc.C92
