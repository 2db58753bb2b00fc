import Verif.Spec.Markup
import Verif.Spec.Reader

/-!
# Blocks with harmless targets are read as well-formed
-/

namespace Blogc.Spec

open Blogc

def NoAngle (s : Str) : Prop := ∀ c ∈ s, c ≠ c!"<" ∧ c ≠ c!">"

theorem read_text {stack : List Str} {r : Str} : ∀ {s : Str}, NoAngle s → read stack none (s ++ r) = read stack none r
  | [], _ => rfl
  | c :: s, h => by
    have hc := h c (by simp)
    rw [List.cons_append, read, if_neg hc.1, if_neg hc.2]
    exact read_text fun d hd => h d (by simp [hd])

theorem read_inside {stack : List Str} {r : Str} : ∀ {s t : Str}, NoAngle s →
    read stack (some t) (s ++ r) = read stack (some (t ++ s)) r
  | [], t, _ => by rw [List.append_nil]; rfl
  | c :: s, t, h => by
    have hc := h c (by simp)
    rw [List.cons_append, read, if_neg hc.2, if_neg hc.1, read_inside fun d hd => h d (by simp [hd]),
      List.append_assoc]
    rfl

theorem read_tag {stack stack' : List Str} {r s : Str} (h : NoAngle s) (ha : act stack (tag s) = some stack') :
    read stack none (c!"<" :: s ++ c!">" :: r) = read stack' none r := by
  rw [List.cons_append, read, if_pos rfl, read_inside h, List.nil_append, read, if_pos rfl, ha]

/-- Reading goes on as if the string were not there. -/
def Passed (s : Str) : Prop := ∀ (stack : List Str) (r : Str), read stack none (s ++ r) = read stack none r

theorem Passed.text {s : Str} (h : NoAngle s) : Passed s := fun _ _ => read_text h

theorem Passed.app {s t : Str} (hs : Passed s) (ht : Passed t) : Passed (s ++ t) := fun stack r => by
  rw [List.append_assoc, hs, ht]

theorem Passed.stand {s : Str} (h : NoAngle s) (ht : tag s = .stands) : Passed (c!"<" :: s ++ b!">") := fun stack r => by
  rw [List.append_assoc]
  exact read_tag h (by rw [ht]; rfl)

theorem Passed.element {o n s : Str} (ho : NoAngle o) (hn : NoAngle n) (hto : tag o = .opens n)
    (htc : tag (c!"/" :: n) = .closes n) (hs : Passed s) :
    Passed (c!"<" :: o ++ b!">" ++ s ++ (c!"<" :: c!"/" :: n ++ b!">")) := fun stack r => by
  have e : c!"<" :: o ++ b!">" ++ s ++ (c!"<" :: c!"/" :: n ++ b!">") ++ r =
      c!"<" :: o ++ c!">" :: (s ++ (c!"<" :: (c!"/" :: n) ++ c!">" :: r)) := by simp [List.append_assoc]
  rw [e, read_tag (stack' := n :: stack) ho (by rw [hto]; rfl), hs, read_tag (stack' := stack)]
  · intro c hc
    rcases List.mem_cons.1 hc with rfl | hc
    · decide
    · exact hn c hc
  · rw [htc]; simp [act]

theorem quoted_plain : ∀ {s : Str}, (∀ c ∈ s, c ≠ c!"\"") → quoted s = [s]
  | [], _ => rfl
  | c :: s, h => by rw [quoted, if_neg (h c (by simp)), quoted_plain fun d hd => h d (by simp [hd])]

theorem quoted_app : ∀ {s r : Str}, (∀ c ∈ s, c ≠ c!"\"") → quoted (s ++ c!"\"" :: r) = s :: quoted r
  | [], r, _ => by rw [List.nil_append, quoted, if_pos rfl]
  | c :: s, r, h => by
    rw [List.cons_append, quoted, if_neg (h c (by simp)), quoted_app fun d hd => h d (by simp [hd])]

theorem Harmless.angle {u : Str} (h : Harmless u) : NoAngle u := fun c hc => ⟨(h c hc).1, (h c hc).2.1⟩
theorem Harmless.quote {u : Str} (h : Harmless u) : ∀ c ∈ u, c ≠ c!"\"" := fun c hc => (h c hc).2.2

theorem tag_link {u : Str} (h : Harmless u) : tag (b!"a href=\"" ++ u ++ b!"\"") = .opens b!"a" := by
  have e : b!"a href=\"" ++ u ++ b!"\"" = b!"a href=" ++ c!"\"" :: (u ++ c!"\"" :: []) := by simp
  unfold tag
  rw [e, quoted_app (by decide), quoted_app h.quote]
  rfl

theorem tag_image {u a : Str} (h : Harmless u) (ha : Harmless a) :
    tag (b!"img src=\"" ++ u ++ b!"\" alt=\"" ++ a ++ b!"\"") = .stands := by
  have e : b!"img src=\"" ++ u ++ b!"\" alt=\"" ++ a ++ b!"\"" =
      b!"img src=" ++ c!"\"" :: (u ++ c!"\"" :: (b!" alt=" ++ c!"\"" :: (a ++ c!"\"" :: []))) := by simp
  unfold tag
  rw [e, quoted_app (by decide), quoted_app h.quote, quoted_app (by decide), quoted_app ha.quote]
  rfl

theorem noAngle_app {s t : Str} (hs : NoAngle s) (ht : NoAngle t) : NoAngle (s ++ t) := by
  intro c hc
  rcases List.mem_append.1 hc with hc | hc
  · exact hs c hc
  · exact ht c hc

theorem Escaped.angle {V : Byte → Prop} {s : Str} (h : Escaped V s) : NoAngle s := by
  induction h with
  | nil => intro c hc; cases hc
  | add _ hp ih =>
    refine noAngle_app ih ?_
    rcases hp with ⟨c, -, hc, rfl⟩ | ⟨r, hr, -, rfl⟩
    · intro d hd
      rw [List.mem_singleton.1 hd]
      constructor <;> rintro rfl <;> exact absurd hc (by decide)
    · have : ∀ r ∈ references, NoAngle (c!"&" :: r.1) := by unfold NoAngle; decide
      exact this r hr

theorem Passed.link {u s : Str} (h : Harmless u) (hs : Passed s) :
    Passed (b!"<a href=\"" ++ u ++ b!"\">" ++ s ++ b!"</a>") := by
  have := Passed.element (o := b!"a href=\"" ++ u ++ b!"\"") (n := b!"a")
    (noAngle_app (noAngle_app (by unfold NoAngle; decide) h.angle) (by unfold NoAngle; decide))
    (by unfold NoAngle; decide) (tag_link h) (by decide) hs
  simpa [List.append_assoc] using this

theorem Phrasing.passed {V : Byte → Prop} {s : Str} (h : Phrasing Harmless V s) : Passed s := by
  induction h with
  | text h => exact .text h.angle
  | dash h =>
    rcases h with rfl | rfl <;> exact .text (by unfold NoAngle; decide)
  | br => exact Passed.stand (s := b!"br /") (by unfold NoAngle; decide) (by decide)
  | em _ ih =>
    exact Passed.element (o := b!"em") (n := b!"em") (by unfold NoAngle; decide) (by unfold NoAngle; decide) (by decide) (by decide) ih
  | strong _ ih =>
    exact Passed.element (o := b!"strong") (n := b!"strong") (by unfold NoAngle; decide) (by unfold NoAngle; decide) (by decide) (by decide) ih
  | code h =>
    exact Passed.element (o := b!"code") (n := b!"code") (by unfold NoAngle; decide) (by unfold NoAngle; decide) (by decide) (by decide)
      (.text h.angle)
  | link h _ ih => exact .link h ih
  | auto h h' => exact .link h (.text h'.angle)
  | @image u a h h' =>
    have := Passed.stand (s := b!"img src=\"" ++ u ++ b!"\" alt=\"" ++ a ++ b!"\"")
      (noAngle_app (noAngle_app (noAngle_app (noAngle_app (by unfold NoAngle; decide) h.angle) (by unfold NoAngle; decide)) h'.angle)
        (by unfold NoAngle; decide)) (tag_image h h')
    simpa [List.append_assoc] using this
  | app _ _ h1 h2 => exact h1.app h2

theorem newline_angle {e : Str} (h : ∀ c ∈ e, newline c = true) : NoAngle e := by
  intro c hc
  have := h c hc
  constructor <;> rintro rfl <;> exact absurd this (by decide)

theorem Items.passed {V : Byte → Prop} {s : Str} (h : Items Harmless V s) : Passed s := by
  induction h with
  | ends h => exact .text (newline_angle h)
  | item h =>
    exact Passed.element (o := b!"li") (n := b!"li") (by unfold NoAngle; decide) (by unfold NoAngle; decide) (by decide) (by decide) h.passed
  | app _ _ h1 h2 => exact h1.app h2

theorem headerName_digits {n : Str} (hn : n ≠ []) (hd : ∀ c ∈ n, c!"0" ≤ c ∧ c ≤ c!"9") : headerName (c!"h" :: n) = true := by
  unfold headerName
  cases n with
  | nil => exact absurd rfl hn
  | cons a n =>
    have : ((a :: n).all fun d => c!"0" ≤ d && d ≤ c!"9") = true := by
      rw [List.all_eq_true]
      intro c hc
      simpa using hd c hc
    simp only [this]; rfl

theorem digit_plain {n : Str} (hd : ∀ c ∈ n, c!"0" ≤ c ∧ c ≤ c!"9") :
    ∀ c ∈ n, c ≠ c!"<" ∧ c ≠ c!">" ∧ c ≠ c!"\"" ∧ c ≠ c!" " ∧ c ≠ c!"/" := by
  intro c hc
  have key : ∀ k : Fin 256, (c!"0" ≤ UInt8.ofFin k ∧ UInt8.ofFin k ≤ c!"9") →
      UInt8.ofFin k ≠ c!"<" ∧ UInt8.ofFin k ≠ c!">" ∧ UInt8.ofFin k ≠ c!"\"" ∧ UInt8.ofFin k ≠ c!" " ∧
      UInt8.ofFin k ≠ c!"/" := by decide +kernel
  exact key c.toFin (hd c hc)

theorem plainId_harmless {i : Str} (h : plainId i) : Harmless i := by
  intro c hc
  have key : ∀ k : Fin 256, ((c!"a" ≤ UInt8.ofFin k ∧ UInt8.ofFin k ≤ c!"z") ∨
      (c!"0" ≤ UInt8.ofFin k ∧ UInt8.ofFin k ≤ c!"9") ∨ UInt8.ofFin k = c!"-") →
      UInt8.ofFin k ≠ c!"<" ∧ UInt8.ofFin k ≠ c!">" ∧ UInt8.ofFin k ≠ c!"\"" := by decide +kernel
  exact key c.toFin (h c hc)

theorem takeWhile_name {n r : Str} (h : ∀ c ∈ n, c ≠ c!" ") :
    (n ++ c!" " :: r).takeWhile (· != c!" ") = n ∧ (n ++ c!" " :: r).dropWhile (· != c!" ") = c!" " :: r := by
  induction n with
  | nil => exact ⟨rfl, rfl⟩
  | cons a n ih =>
    have ha : (a != c!" ") = true := by simpa using h a (by simp)
    have ih := ih fun c hc => h c (by simp [hc])
    constructor
    · rw [List.cons_append, List.takeWhile_cons_of_pos (p := (· != c!" ")) ha, ih.1]
    · rw [List.cons_append, List.dropWhile_cons_of_pos (p := (· != c!" ")) ha, ih.2]

theorem tag_header {n i : Str} (hn : n ≠ []) (hd : ∀ c ∈ n, c!"0" ≤ c ∧ c ≤ c!"9") (hi : Harmless i) :
    tag (b!"h" ++ n ++ b!" id=\"" ++ i ++ b!"\"") = .opens (c!"h" :: n) := by
  have hp := digit_plain hd
  have e : b!"h" ++ n ++ b!" id=\"" ++ i ++ b!"\"" = ((c!"h" :: n) ++ c!" " :: b!"id=") ++ c!"\"" :: (i ++ c!"\"" :: []) := by simp
  have hq : ∀ c ∈ (c!"h" :: n) ++ c!" " :: b!"id=", c ≠ c!"\"" := by
    intro c hc
    rcases List.mem_append.1 hc with hc | hc
    · rcases List.mem_cons.1 hc with rfl | hc
      · decide
      · exact (hp c hc).2.2.1
    · have : ∀ c ∈ c!" " :: b!"id=", c ≠ c!"\"" := by decide
      exact this c hc
  have hw := takeWhile_name (n := c!"h" :: n) (r := b!"id=") (by
    intro c hc
    rcases List.mem_cons.1 hc with rfl | hc
    · decide
    · exact (hp c hc).2.2.2.1)
  unfold tag
  rw [e, quoted_app hq, quoted_app hi.quote]
  show (if _ then _ else _) = _
  rw [if_neg (by intro h; cases h), hw.1, hw.2, if_pos ⟨headerName_digits hn hd, rfl⟩]

theorem tag_header_end {n : Str} (hn : n ≠ []) (hd : ∀ c ∈ n, c!"0" ≤ c ∧ c ≤ c!"9") :
    tag (c!"/" :: c!"h" :: n) = .closes (c!"h" :: n) := by
  have hp := digit_plain hd
  unfold tag
  rw [quoted_plain]
  · show (if _ then _ else _) = _
    rw [if_neg (by intro h; rcases h with h | h <;> cases h)]
    show (if _ then _ else _) = _
    rw [if_pos rfl, if_pos (.inr (headerName_digits hn hd))]
  · intro c hc
    rcases List.mem_cons.1 hc with rfl | hc
    · decide
    rcases List.mem_cons.1 hc with rfl | hc
    · decide
    · exact (hp c hc).2.2.1

theorem Flow.passed {V : Byte → Prop} {s : Str} (h : Flow Harmless V (fun _ => False) s) : Passed s := by
  induction h with
  | ends h => exact .text (newline_angle h)
  | paragraph h =>
    exact Passed.element (o := b!"p") (n := b!"p") (by unfold NoAngle; decide) (by unfold NoAngle; decide) (by decide) (by decide) h.passed
  | @header n i s hn hd hi h =>
    have hp := digit_plain hd
    have hna : NoAngle n := fun c hc => ⟨(hp c hc).1, (hp c hc).2.1⟩
    have hh := plainId_harmless hi
    have := Passed.element (o := b!"h" ++ n ++ b!" id=\"" ++ i ++ b!"\"") (n := c!"h" :: n)
      (noAngle_app (noAngle_app (noAngle_app (noAngle_app (by unfold NoAngle; decide) hna) (by unfold NoAngle; decide)) hh.angle)
        (by unfold NoAngle; decide))
      (noAngle_app (s := b!"h") (by unfold NoAngle; decide) hna) (tag_header hn hd hh) (tag_header_end hn hd) h.passed
    simpa [List.append_assoc] using this
  | rule => exact Passed.stand (s := b!"hr /") (by unfold NoAngle; decide) (by decide)
  | @code s h =>
    have := Passed.element (o := b!"pre") (n := b!"pre") (by unfold NoAngle; decide) (by unfold NoAngle; decide) (by decide) (by decide)
      (Passed.element (o := b!"code") (n := b!"code") (by unfold NoAngle; decide) (by unfold NoAngle; decide) (by decide) (by decide)
      (.text h.angle))
    simpa [List.append_assoc] using this
  | quote _ ih =>
    exact Passed.element (o := b!"blockquote") (n := b!"blockquote") (by unfold NoAngle; decide) (by unfold NoAngle; decide) (by decide) (by decide) ih
  | @list tag s ht h =>
    rcases ht with rfl | rfl
    · have := Passed.element (o := b!"ul") (n := b!"ul") (by unfold NoAngle; decide) (by unfold NoAngle; decide) (by decide) (by decide) h.passed
      simpa [List.append_assoc] using this
    · have := Passed.element (o := b!"ol") (n := b!"ol") (by unfold NoAngle; decide) (by unfold NoAngle; decide) (by decide) (by decide) h.passed
      simpa [List.append_assoc] using this
  | html h => exact h.elim
  | app _ _ h1 h2 => exact h1.app h2

theorem Flow.wellFormed {V : Byte → Prop} {s : Str} (h : Flow Harmless V (fun _ => False) s) : wellFormed s = true := by
  have := h.passed [] []
  rw [List.append_nil] at this
  exact this

/-! ## No NUL bytes -/

theorem nulFree_app {s t : Str} (hs : NulFree s) (ht : NulFree t) : NulFree (s ++ t) := by
  intro c hc
  rcases List.mem_append.1 hc with hc | hc
  · exact hs c hc
  · exact ht c hc

theorem Escaped.nulFree {V : Byte → Prop} (hV : ¬ V 0) {s : Str} (h : Escaped V s) : NulFree s := by
  induction h with
  | nil => decide
  | add _ hp ih =>
    refine nulFree_app ih ?_
    rcases hp with ⟨c, hv, -, rfl⟩ | ⟨r, hr, -, rfl⟩
    · intro d hd
      rw [List.mem_singleton.1 hd]
      rintro rfl; exact hV hv
    · have : ∀ r ∈ references, NulFree (c!"&" :: r.1) := by decide
      exact this r hr

theorem newline_nulFree {e : Str} (h : ∀ c ∈ e, newline c = true) : NulFree e := by
  intro c hc
  have := h c hc
  rintro rfl; exact absurd this (by decide)

section
variable {T : Str → Prop} {V : Byte → Prop} {R : Str → Prop} (hT : ∀ u, T u → NulFree u) (hV : ¬ V 0)
  (hR : ∀ u, R u → NulFree u)
include hT hV

theorem Phrasing.nulFree {s : Str} (h : Phrasing T V s) : NulFree s := by
  induction h with
  | text h => exact h.nulFree hV
  | dash h => rcases h with rfl | rfl <;> decide
  | br => decide
  | em _ ih => exact nulFree_app (nulFree_app (by decide) ih) (by decide)
  | strong _ ih => exact nulFree_app (nulFree_app (by decide) ih) (by decide)
  | code h => exact nulFree_app (nulFree_app (by decide) (h.nulFree hV)) (by decide)
  | link h _ ih =>
    exact nulFree_app (nulFree_app (nulFree_app (nulFree_app (by decide) (hT _ h)) (by decide)) ih) (by decide)
  | auto h h' =>
    exact nulFree_app (nulFree_app (nulFree_app (nulFree_app (by decide) (hT _ h)) (by decide)) (hT _ h')) (by decide)
  | image h h' =>
    exact nulFree_app (nulFree_app (nulFree_app (nulFree_app (by decide) (hT _ h)) (by decide)) (hT _ h')) (by decide)
  | app _ _ h1 h2 => exact nulFree_app h1 h2

theorem Items.nulFree {s : Str} (h : Items T V s) : NulFree s := by
  induction h with
  | ends h => exact newline_nulFree h
  | item h => exact nulFree_app (nulFree_app (by decide) (h.nulFree hT hV)) (by decide)
  | app _ _ h1 h2 => exact nulFree_app h1 h2

include hR

theorem Flow.nulFree {s : Str} (h : Flow T V R s) : NulFree s := by
  induction h with
  | ends h => exact newline_nulFree h
  | paragraph h => exact nulFree_app (nulFree_app (by decide) (h.nulFree hT hV)) (by decide)
  | @header n i s hn hd hi h =>
    have h1 : NulFree n := fun c hc => by
      have := (hd c hc).1
      rintro rfl; exact absurd this (by decide)
    have h2 : NulFree i := fun c hc => by
      have := hi c hc
      rintro rfl; exact absurd this (by decide)
    exact nulFree_app (nulFree_app (nulFree_app (nulFree_app (nulFree_app (nulFree_app (nulFree_app (nulFree_app
      (by decide) h1) (by decide)) h2) (by decide)) (h.nulFree hT hV)) (by decide)) h1) (by decide)
  | rule => decide
  | code h => exact nulFree_app (nulFree_app (by decide) (h.nulFree hV)) (by decide)
  | quote _ ih => exact nulFree_app (nulFree_app (by decide) ih) (by decide)
  | @list tag s ht h =>
    have h1 : NulFree tag := by rcases ht with rfl | rfl <;> decide
    exact nulFree_app (nulFree_app (nulFree_app (nulFree_app (nulFree_app (nulFree_app (by decide) h1) (by decide))
      (h.nulFree hT hV)) (by decide)) h1) (by decide)
  | html h => exact hR _ h
  | app _ _ h1 h2 => exact nulFree_app h1 h2

end

end Blogc.Spec
