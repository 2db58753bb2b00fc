import Verif.Model.Toctree
import Verif.Spec.Toctree

/-!
# C35: the table of contents is well-formed
-/

namespace Blogc.C35

open Blogc Blogc.Toctree Blogc.Spec.Toctree

/-- The content of the list item of a header: a link to its slug. -/
def link (h : Header) : Str :=
  match h.slug with
  | some s => b!"<a href=\"#" ++ s ++ b!"\">" ++ h.text.getD [] ++ b!"</a>"
  | none => h.text.getD []

/-- A header is kept when it is less than `maxdepth` levels below the top level
`lower`; a negative `maxdepth` keeps all. -/
def Kept (lower : Nat) (maxdepth : Int) (h : Header) : Prop :=
  maxdepth < 0 ∨ (h.level : Int) - lower < maxdepth

instance (lower : Nat) (maxdepth : Int) (h : Header) : Decidable (Kept lower maxdepth h) :=
  inferInstanceAs (Decidable (_ ∨ _))

/-- `lower` is the lowest level of the headers. -/
def Lowest (hs : List Header) (lower : Nat) : Prop :=
  (∀ h ∈ hs, lower ≤ h.level) ∧ ∃ h ∈ hs, h.level = lower

theorem lowerLevel_pos (hs : List Header) (acc : Nat) (hacc : 0 < acc) (hl : ∀ h ∈ hs, 1 ≤ h.level) :
    0 < lowerLevel acc hs ∧ lowerLevel acc hs ≤ acc ∧ (∀ h ∈ hs, lowerLevel acc hs ≤ h.level) ∧
      (lowerLevel acc hs = acc ∨ ∃ h ∈ hs, h.level = lowerLevel acc hs) := by
  induction hs generalizing acc with
  | nil => simp [lowerLevel, hacc]
  | cons h hs ih =>
    have h1 := hl h (by simp)
    simp only [lowerLevel]
    by_cases hc : acc = 0 ∨ acc > h.level
    · rw [if_pos hc]
      obtain ⟨a, b, c, d⟩ := ih h.level h1 (fun x hx => hl x (by simp [hx]))
      refine ⟨a, by omega, ?_, Or.inr ?_⟩
      · intro x hx
        rcases List.mem_cons.1 hx with rfl | hx
        · exact b
        · exact c x hx
      · rcases d with d | ⟨x, hx, d⟩
        · exact ⟨h, by simp, d.symm⟩
        · exact ⟨x, by simp [hx], d⟩
    · rw [if_neg hc]
      obtain ⟨a, b, c, d⟩ := ih acc hacc (fun x hx => hl x (by simp [hx]))
      refine ⟨a, b, ?_, ?_⟩
      · intro x hx
        rcases List.mem_cons.1 hx with rfl | hx
        · omega
        · exact c x hx
      · rcases d with d | ⟨x, hx, d⟩
        · exact Or.inl d
        · exact Or.inr ⟨x, by simp [hx], d⟩

theorem lowerLevel_lowest (hs : List Header) (hne : hs ≠ []) (hl : ∀ h ∈ hs, 1 ≤ h.level) :
    0 < lowerLevel 0 hs ∧ Lowest hs (lowerLevel 0 hs) := by
  cases hs with
  | nil => exact absurd rfl hne
  | cons h hs =>
    have h1 := hl h (by simp)
    simp only [lowerLevel, true_or, if_true]
    obtain ⟨a, b, c, d⟩ := lowerLevel_pos hs h.level h1 (fun x hx => hl x (by simp [hx]))
    refine ⟨a, ?_, ?_⟩
    · intro x hx
      rcases List.mem_cons.1 hx with rfl | hx
      · exact b
      · exact c x hx
    · rcases d with d | ⟨x, hx, d⟩
      · exact ⟨h, by simp, d.symm⟩
      · exact ⟨x, by simp [hx], d⟩

theorem lowest_unique (hs : List Header) (a b : Nat) (ha : Lowest hs a) (hb : Lowest hs b) : a = b := by
  obtain ⟨ha, x, hx, hxa⟩ := ha
  obtain ⟨hb, y, hy, hyb⟩ := hb
  have := ha y hy
  have := hb x hx
  omega

theorem kept_iff (lower : Nat) (maxdepth : Int) (h : Header) (h1 : lower ≤ h.level)
    (h2 : h.level < 2 ^ 63) (hm : -(2 ^ 31) ≤ maxdepth) (hm' : maxdepth < 2 ^ 31) :
    h.level - lower ≥ toSizeT maxdepth ↔ ¬ Kept lower maxdepth h := by
  unfold toSizeT Kept
  omega

/-- The prefix property of `nest`: a run of tags that moves from depth `d` to
`d'` and shows the items `xs`. -/
def Moves (d d' : Nat) (xs : List (Nat × Str)) (ts : List Tok) : Prop :=
  ∀ rest, nest d (ts ++ rest) = (nest d' rest).map (xs ++ ·)

theorem moves_nil (d : Nat) : Moves d d [] [] := by
  intro rest; simp

theorem moves_trans {d d' d'' : Nat} {xs ys : List (Nat × Str)} {ts us : List Tok}
    (h1 : Moves d d' xs ts) (h2 : Moves d' d'' ys us) : Moves d d'' (xs ++ ys) (ts ++ us) := by
  intro rest
  rw [List.append_assoc, h1, h2]
  cases nest d'' rest <;> simp

theorem moves_open (d : Nat) : Moves d (d + 1) [] [.openList] := by
  intro rest
  cases d with
  | zero => simp [nest]
  | succ d => cases d <;> simp [nest]

theorem moves_close (d : Nat) : Moves (d + 2) (d + 1) [] [.closeList] := by
  intro rest
  simp [nest]

theorem moves_item (d : Nat) (c : Str) : Moves (d + 1) (d + 1) [(d + 1, c)] [.item c] := by
  intro rest
  cases d <;> simp [nest] <;> rfl

theorem write_append (endl : Str) (a b : List (Nat × Tok)) :
    write endl (a ++ b) = write endl a ++ write endl b := by
  simp [write]

theorem closeLoop_spec (endl : Str) (lower level : Nat) (hl : lower ≤ level) (hlow : 0 < lower) :
    ∀ (c : Nat) (out : Str), lower ≤ c →
      ∃ ts, closeLoop endl level c (4 * (c - lower) + 4) out =
          .ok (min c level, 4 * (min c level - lower) + 4, out ++ write endl ts) ∧
        Moves (c - lower + 1) (min c level - lower + 1) [] (ts.map (·.2)) := by
  intro c
  induction c with
  | zero => intro out h; omega
  | succ c ih =>
    intro out h
    simp only [closeLoop]
    by_cases hc : c + 1 > level
    · rw [if_pos hc, if_neg (by omega)]
      have e : 4 * (c + 1 - lower) + 4 - 4 = 4 * (c - lower) + 4 := by omega
      rw [e]
      obtain ⟨ts, h1, h2⟩ := ih (out ++ pad (4 * (c - lower) + 4) ++ b!"</ul>" ++ endl) (by omega)
      have e1 : min (c + 1) level = min c level := by omega
      refine ⟨(4 * (c - lower) + 4, .closeList) :: ts, ?_, ?_⟩
      · rw [h1, e1]
        simp [write, Tok.text, pad]
      · rw [e1]
        have e2 : c + 1 - lower + 1 = c - lower + 2 := by omega
        rw [e2]
        have := moves_trans (moves_close (c - lower)) h2
        simpa using this
    · rw [if_neg hc]
      have e1 : min (c + 1) level = c + 1 := by omega
      refine ⟨[], ?_, ?_⟩
      · rw [e1]; simp [write]
      · rw [e1]; exact moves_nil _

theorem openLoop_spec (endl : Str) (d : Nat) : ∀ (k : Nat) (out : Str),
    ∃ ts, openLoop endl d (4 * k + 4) out = (4 * (k + d) + 4, out ++ write endl ts) ∧
      Moves (k + 1) (k + d + 1) [] (ts.map (·.2)) := by
  induction d with
  | zero => intro k out; exact ⟨[], by simp [openLoop, write], moves_nil _⟩
  | succ d ih =>
    intro k out
    simp only [openLoop]
    obtain ⟨ts, h1, h2⟩ := ih (k + 1) (out ++ pad (4 * k + 4) ++ b!"<ul>" ++ endl)
    refine ⟨(4 * k + 4, .openList) :: ts, ?_, ?_⟩
    · have e : 4 * k + 4 + 4 = 4 * (k + 1) + 4 := by omega
      have e2 : k + 1 + d = k + (d + 1) := by omega
      rw [e, h1, e2]
      simp [write, Tok.text, pad]
    · have := moves_trans (moves_open (k + 1)) h2
      have e2 : k + 1 + d + 1 = k + (d + 1) + 1 := by omega
      rw [e2] at this
      simpa using this

theorem item_eq (endl : Str) (h : Header) (n : Nat) :
    item endl h n = pad n ++ (Tok.item (link h)).text ++ endl := by
  cases hs : h.slug <;> simp [item, link, Tok.text, hs]

theorem headerLoop_spec (endl : Str) (lower : Nat) (maxdepth : Int) (hlow : 0 < lower)
    (hm : -(2 ^ 31) ≤ maxdepth) (hm' : maxdepth < 2 ^ 31) (hs : List Header)
    (hle : ∀ h ∈ hs, lower ≤ h.level ∧ h.level < 2 ^ 63) : ∀ (c : Nat) (out : Str), lower ≤ c →
      ∃ ts c', lower ≤ c' ∧ headerLoop endl lower maxdepth hs c (4 * (c - lower) + 4) out =
          .ok (c', 4 * (c' - lower) + 4, out ++ write endl ts) ∧
        Moves (c - lower + 1) (c' - lower + 1)
          ((hs.filter (Kept lower maxdepth ·)).map fun h => (h.level - lower + 1, link h))
          (ts.map (·.2)) := by
  induction hs with
  | nil => intro c out hc; exact ⟨[], c, hc, by simp [headerLoop, write], moves_nil _⟩
  | cons h hs ih =>
    intro c out hc
    have ⟨hl1, hl2⟩ := hle h (by simp)
    have ih := ih (fun x hx => hle x (by simp [hx]))
    simp only [headerLoop]
    have hk := kept_iff lower maxdepth h hl1 hl2 hm hm'
    by_cases hkept : Kept lower maxdepth h
    · rw [if_neg (by rw [hk]; exact fun h => h hkept)]
      obtain ⟨ts1, e1, m1⟩ := closeLoop_spec endl lower h.level hl1 hlow c out hc
      rw [e1]
      simp only [Res.bind_ok]
      obtain ⟨ts2, e2, m2⟩ := openLoop_spec endl (h.level - min c h.level) (min c h.level - lower)
        (out ++ write endl ts1)
      rw [e2]
      have e3 : min c h.level - lower + (h.level - min c h.level) = h.level - lower := by omega
      have e4 : max (min c h.level) h.level = h.level := by omega
      simp only [e4]
      rw [e3] at m2 ⊢
      obtain ⟨ts3, c', hc', e5, m3⟩ := ih h.level
        (out ++ write endl ts1 ++ write endl ts2 ++ item endl h (4 * (h.level - lower) + 4)) hl1
      refine ⟨ts1 ++ ts2 ++ (4 * (h.level - lower) + 4, .item (link h)) :: ts3, c', hc', ?_, ?_⟩
      · rw [e5]
        congr 3
        rw [item_eq]
        simp only [write_append, List.append_assoc]
        simp only [write, Tok.text, pad, List.flatMap_cons, List.append_assoc]
      · have m := moves_trans (moves_trans (moves_trans m1 m2) (moves_item (h.level - lower) (link h))) m3
        rw [List.filter_cons_of_pos (by simpa using hkept)]
        simpa using m
    · rw [if_pos (hk.2 hkept)]
      rw [List.filter_cons_of_neg (by simpa using hkept)]
      exact ih c out hc

theorem finish_spec (endl : Str) (lower : Nat) (hlow : 0 < lower) : ∀ (c : Nat) (out : Str),
    lower ≤ c → ∃ ts, finish endl lower c (4 * (c - lower) + 4) out = .ok (out ++ write endl ts) ∧
      nest (c - lower + 1) (ts.map (·.2)) = some [] := by
  intro c
  induction c with
  | zero => intro out h; omega
  | succ c ih =>
    intro out h
    simp only [finish]
    rw [if_pos h, if_neg (by omega)]
    by_cases hc : lower ≤ c
    · have e : 4 * (c + 1 - lower) + 4 - 4 = 4 * (c - lower) + 4 := by omega
      rw [e]
      obtain ⟨ts, h1, h2⟩ := ih (out ++ pad (4 * (c - lower) + 4) ++ b!"</ul>" ++ endl) hc
      refine ⟨(4 * (c - lower) + 4, .closeList) :: ts, ?_, ?_⟩
      · rw [h1]; simp [write, Tok.text, pad]
      · have e2 : c + 1 - lower + 1 = c - lower + 2 := by omega
        rw [e2]
        simpa [nest] using h2
    · have e : 4 * (c + 1 - lower) + 4 - 4 = 0 := by omega
      rw [e]
      have e2 : c + 1 - lower = 0 := by omega
      rw [e2]
      refine ⟨[(0, .closeList)], ?_, by simp [nest]⟩
      cases c with
      | zero =>
        simp only [finish]
        rw [if_neg (by omega)]
        simp [write, Tok.text, pad]
      | succ c =>
        simp only [finish]
        rw [if_neg (by omega)]
        simp [write, Tok.text, pad]

/-- For every non-empty sequence of headers and every depth limit other than 0,
rendering is safe and the result is a sequence of list tags and items that is
balanced, with exactly one link per kept header, in order, nested according to
the header levels. -/
theorem toctree_correct (hs : List Header) (maxdepth : Int) (endl : Option Str) (lower : Nat)
    (hne : hs ≠ []) (hl : ∀ h ∈ hs, 1 ≤ h.level ∧ h.level < 2 ^ 63) (hlow : Lowest hs lower)
    (hm0 : maxdepth ≠ 0) (hm : -(2 ^ 31) ≤ maxdepth) (hm' : maxdepth < 2 ^ 31) :
    ∃ toks : List (Nat × Tok),
      render hs maxdepth endl = .ok (some (write (endl.getD b!"\n") toks)) ∧
      nest 0 (toks.map (·.2)) =
        some ((hs.filter (Kept lower maxdepth ·)).map fun h => (h.level - lower + 1, link h)) := by
  obtain ⟨hp, hL⟩ := lowerLevel_lowest hs hne (fun h hh => (hl h hh).1)
  have he := lowest_unique hs _ _ hlow hL
  subst he
  unfold render
  rw [if_neg (by simp [hne, hm0])]
  simp only
  rw [if_neg (by omega)]
  generalize hLL : lowerLevel 0 hs = L at *
  generalize endl.getD b!"\n" = e
  obtain ⟨ts, c', hc', e1, m1⟩ := headerLoop_spec e L maxdepth hp hm hm' hs
    (fun h hh => ⟨hL.1 h hh, (hl h hh).2⟩) L (b!"<ul>" ++ e) (Nat.le_refl _)
  rw [Nat.sub_self] at e1 m1
  obtain ⟨ts2, e2, n2⟩ := finish_spec e L hp c' (b!"<ul>" ++ e ++ write e ts) hc'
  rw [e1]
  simp only [Res.bind_ok, e2, Res.pure_eq]
  refine ⟨(0, .openList) :: (ts ++ ts2), ?_, ?_⟩
  · simp [write, Tok.text]
  · simp only [List.map_cons, List.map_append, nest]
    rw [m1, n2]
    simp

/-- No headers, or a depth limit of 0: no table of contents. -/
theorem toctree_none (hs : List Header) (maxdepth : Int) (endl : Option Str)
    (h : hs = [] ∨ maxdepth = 0) : render hs maxdepth endl = .ok none := by
  unfold render
  rw [if_pos h]

/-- Headers appended to a table of contents always have a level of at least 1. -/
theorem append_levels (hs : List Header) (level : Nat) (slug text : Option Str)
    (h : ∀ h ∈ hs, 1 ≤ h.level) : ∀ h ∈ append hs level slug text, 1 ≤ h.level := by
  unfold append
  split
  · exact h
  · intro x hx
    rcases List.mem_append.1 hx with hx | hx
    · exact h x hx
    · simp only [List.mem_singleton] at hx
      subst hx
      simp only
      omega

def sample : List Header := [⟨3, some b!"a", some b!"A"⟩, ⟨2, none, some b!"B"⟩, ⟨4, some b!"c", none⟩]

example : Lowest sample 2 ∧ (∀ h ∈ sample, 1 ≤ h.level ∧ h.level < 2 ^ 63) :=
  ⟨⟨by decide, by decide⟩, by decide⟩
example : render sample 2 none =
    .ok (some b!"<ul>\n    <ul>\n        <li><a href=\"#a\">A</a></li>\n    </ul>\n    <li>B</li>\n</ul>\n") := by
  decide

end Blogc.C35
