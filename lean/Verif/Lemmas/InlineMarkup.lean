import Verif.Lemmas.ContentSafe
import Verif.Spec.Markup
import Verif.Props.C37
import Verif.Props.C36

/-!
# The output of the inline parser is properly nested
-/

namespace Blogc

/-- The value, if there is one, satisfies `P`. -/
def Run.Post {α : Type u} (P : α → Prop) : Run α → Prop
  | .ok a => P a
  | .ub => True
  | .out => True

theorem Run.Post.bind {α β : Type u} {P : α → Prop} {Q : β → Prop} {x : Run α}
    {f : α → Run β} (hx : Post P x) (hf : ∀ a, P a → Post Q (f a)) : Post Q (x >>= f) := by
  cases x with
  | ok a => exact hf a hx
  | ub => trivial
  | out => trivial

theorem Run.Post.any {α : Type u} {x : Run α} : Post (fun _ => True) x := by
  cases x <;> trivial

theorem Run.Post.of_eq {α : Type u} {P : α → Prop} {x : Run α} (h : ∀ a, x = .ok a → P a) : Post P x := by
  cases x with
  | ok a => exact h a rfl
  | ub => trivial
  | out => trivial

theorem runL_post {σ ρ : Type u} {step : σ → Run (σ ⊕ ρ)} {I : σ → Prop} {P : ρ → Prop}
    (hstep : ∀ s, I s → Run.Post (StepSafe I P) (step s)) :
    ∀ (n : Nat) (s : σ), I s → Run.Post P (runL step n s) := by
  intro n
  induction n with
  | zero => intro s _; trivial
  | succ n ih =>
    intro s hI
    have := hstep s hI
    rw [runL]
    cases hs : step s with
    | ub => trivial
    | out => trivial
    | ok x =>
      rw [hs] at this
      cases x with
      | inl s' => exact ih s' this
      | inr r => exact this

namespace Content

open Blogc.Spec

theorem textPiece_entity {V : Byte → Prop} {c : Byte} (hv : V c) : textPiece V (entity c) := by
  rcases C37.entity_spec c with ⟨e, he, h1, h2⟩ | h
  · exact .inr ⟨e, he, by rw [h1]; exact hv, h2⟩
  · refine .inl ⟨c, hv, ?_, ?_⟩
    · have key : ∀ n : Fin 256, entity (UInt8.ofFin n) = [UInt8.ofFin n] → ordinary (UInt8.ofFin n) = true := by
        decide +kernel
      exact key c.toFin (by first | exact h.2 | exact h.1 | exact h)
    · first | exact h.2 | exact h.1 | exact h

theorem _root_.Blogc.Spec.Escaped.app {V : Byte → Prop} {s t : Str} (hs : Escaped V s) (ht : Escaped V t) : Escaped V (s ++ t) := by
  induction ht with
  | nil => rw [List.append_nil]; exact hs
  | add _ hp ih => rw [← List.append_assoc]; exact .add ih hp

theorem _root_.Blogc.Spec.Escaped.piece {V : Byte → Prop} {p : Str} (h : textPiece V p) : Escaped V p := by
  have := Escaped.add .nil h
  rwa [List.nil_append] at this

theorem _root_.Blogc.Spec.Escaped.chars {V : Byte → Prop} : ∀ {s : Str}, (∀ c ∈ s, V c ∧ ordinary c = true) → Escaped V s
  | [], _ => .nil
  | c :: s, h =>
    Escaped.app (s := [c]) (.piece (.inl ⟨c, (h c (by simp)).1, (h c (by simp)).2, rfl⟩)) (.chars fun d hd => h d (by simp [hd]))

theorem escaped_entities {V : Byte → Prop} : ∀ {s : Str}, (∀ c ∈ s, V c) → Escaped V (htmlentities s)
  | [], _ => .nil
  | c :: s, h => by
    rw [C37.htmlentities_cons]
    exact Escaped.app (.piece (textPiece_entity (h c (by simp)))) (escaped_entities fun d hd => h d (by simp [hd]))

/-- Some backslashes are left out. -/
inductive Del : Str → Str → Prop
  | nil : Del [] []
  | keep {c : Byte} {s t : Str} : Del s t → Del (c :: s) (c :: t)
  | drop {s t : Str} : Del s t → Del (c!"\\" :: s) t

theorem del_loop : ∀ (s : Str) (b : Bool), Del s (appendEscapedLoop b s)
  | [], _ => .nil
  | c :: s, b => by
    rw [appendEscapedLoop]
    split
    next h => rw [h.1]; exact .drop (del_loop s true)
    · exact .keep (del_loop s false)

theorem Del.mem {s t : Str} (h : Del s t) : ∀ c ∈ t, c ∈ s := by
  induction h with
  | nil => simp
  | keep _ ih =>
    intro d hd
    rcases List.mem_cons.1 hd with rfl | hd
    · exact List.mem_cons_self
    · exact List.mem_cons_of_mem _ (ih d hd)
  | drop _ ih => intro d hd; exact List.mem_cons_of_mem _ (ih d hd)

theorem Del.split : ∀ {a b t : Str}, Del (a ++ b) t → ∃ t1 t2, t = t1 ++ t2 ∧ Del a t1 ∧ Del b t2
  | [], b, t, h => ⟨[], t, rfl, .nil, h⟩
  | c :: a, b, t, h => by
    rw [List.cons_append] at h
    cases h with
    | keep h =>
      obtain ⟨t1, t2, rfl, h1, h2⟩ := Del.split h
      exact ⟨c :: t1, t2, rfl, .keep h1, h2⟩
    | drop h =>
      obtain ⟨t1, t2, rfl, h1, h2⟩ := Del.split h
      exact ⟨t1, t2, rfl, .drop h1, h2⟩

theorem Del.const : ∀ {a t : Str}, a.all (· != c!"\\") = true → Del a t → t = a
  | [], _, _, h => by cases h; rfl
  | c :: a, t, ha, h => by
    rw [List.all_cons, Bool.and_eq_true] at ha
    cases h with
    | keep h => rw [Del.const ha.2 h]
    | drop h => exact absurd ha.1 (by decide)

theorem _root_.Blogc.Spec.Escaped.del {V : Byte → Prop} {s t : Str} (hs : Escaped V s) (h : Del s t) : Escaped V t := by
  induction hs generalizing t with
  | nil => cases h; exact .nil
  | @add s p _ hp ih =>
    obtain ⟨t1, t2, rfl, h1, h2⟩ := Del.split h
    refine Escaped.app (ih h1) ?_
    rcases hp with ⟨c, hv, hc, rfl⟩ | ⟨r, hr, hv, rfl⟩
    · cases h2 with
      | keep h2 => cases h2; exact .piece (.inl ⟨c, hv, hc, rfl⟩)
      | drop h2 => cases h2; exact .nil
    · have hall : ∀ r ∈ references, (c!"&" :: r.1).all (· != c!"\\") = true := by decide
      rw [Del.const (hall r hr) h2]
      exact .piece (.inr ⟨r, hr, hv, rfl⟩)

theorem _root_.Blogc.Spec.Phrasing.del {T : Str → Prop} {V : Byte → Prop} (hT : ∀ u v, T u → Del u v → T v) {s t : Str} (hs : Phrasing T V s) (h : Del s t) :
    Phrasing T V t := by
  induction hs generalizing t with
  | text hs => exact .text (hs.del h)
  | dash hs =>
    rcases hs with rfl | rfl <;> rw [Del.const (by decide) h]
    · exact .dash (.inl rfl)
    · exact .dash (.inr rfl)
  | br => rw [Del.const (by decide) h]; exact .br
  | em _ ih =>
    obtain ⟨t1, t2, rfl, h, h2⟩ := Del.split h
    obtain ⟨t0, t1, rfl, h0, h1⟩ := Del.split h
    rw [Del.const (by decide) h0, Del.const (by decide) h2]
    exact .em (ih h1)
  | strong _ ih =>
    obtain ⟨t1, t2, rfl, h, h2⟩ := Del.split h
    obtain ⟨t0, t1, rfl, h0, h1⟩ := Del.split h
    rw [Del.const (by decide) h0, Del.const (by decide) h2]
    exact .strong (ih h1)
  | code hs =>
    obtain ⟨t1, t2, rfl, h, h2⟩ := Del.split h
    obtain ⟨t0, t1, rfl, h0, h1⟩ := Del.split h
    rw [Del.const (by decide) h0, Del.const (by decide) h2]
    exact .code (hs.del h1)
  | link hu _ ih =>
    obtain ⟨t1, t4, rfl, h, h4⟩ := Del.split h
    obtain ⟨t1, t3, rfl, h, h3⟩ := Del.split h
    obtain ⟨t1, t2, rfl, h, h2⟩ := Del.split h
    obtain ⟨t0, t1, rfl, h0, h1⟩ := Del.split h
    rw [Del.const (by decide) h0, Del.const (by decide) h2, Del.const (by decide) h4]
    exact .link (hT _ _ hu h1) (ih h3)
  | auto hu hv =>
    obtain ⟨t1, t4, rfl, h, h4⟩ := Del.split h
    obtain ⟨t1, t3, rfl, h, h3⟩ := Del.split h
    obtain ⟨t1, t2, rfl, h, h2⟩ := Del.split h
    obtain ⟨t0, t1, rfl, h0, h1⟩ := Del.split h
    rw [Del.const (by decide) h0, Del.const (by decide) h2, Del.const (by decide) h4]
    exact .auto (hT _ _ hu h1) (hT _ _ hv h3)
  | image hu ha =>
    obtain ⟨t1, t4, rfl, h, h4⟩ := Del.split h
    obtain ⟨t1, t3, rfl, h, h3⟩ := Del.split h
    obtain ⟨t1, t2, rfl, h, h2⟩ := Del.split h
    obtain ⟨t0, t1, rfl, h0, h1⟩ := Del.split h
    rw [Del.const (by decide) h0, Del.const (by decide) h2, Del.const (by decide) h4]
    exact .image (hT _ _ hu h1) (hT _ _ ha h3)
  | app _ _ ih1 ih2 =>
    obtain ⟨t1, t2, rfl, h1, h2⟩ := Del.split h
    exact .app (ih1 h1) (ih2 h2)

/-- What may be taken over. -/
def Tg (P : Byte → Prop) (u : Str) : Prop := P c!"[" ∧ ∀ c ∈ u, P c

theorem Tg.del {P : Byte → Prop} (u v : Str) (h : Tg P u) (hd : Del u v) : Tg P v :=
  ⟨h.1, fun c hc => h.2 c (hd.mem c hc)⟩

/-- The characters that have been read before a state. -/
def marks : IState → Str
  | .start => []
  | .asterisk | .asteriskDouble => b!"*"
  | .underscore | .underscoreDouble => b!"_"
  | .backticks | .backticksDouble => b!"`"
  | .linkStart | .linkAuto | .linkContent | .linkUrlStart | .linkUrl => b!"["
  | .imageStart => b!"!"
  | .imageAlt | .imageUrlStart | .imageUrl => b!"!["
  | .endash | .emdash => b!"-"
  | .lineBreakStart | .lineBreak => b!" "

structure IInv (P : Byte → Prop) (len : Nat) (st : ISt) : Prop where
  rv : Phrasing (Tg P) P st.rv
  link1 : ∀ c ∈ st.link1, P c
  br : ∀ c ∈ marks st.state, P c
  more : st.state = .imageStart → st.current < len

abbrev IPost (P : Byte → Prop) (len : Nat) : ISt ⊕ Str → Prop := StepSafe (IInv P len) (Phrasing (Tg P) P)

variable {P : Byte → Prop} {mem : Str} {len : Nat} {st : ISt} {c : Byte} {isLast : Bool}
  {rec : Str → Nat → Run Str}

theorem phrase {s : Str} (hp : ∀ c ∈ s, P c) (h : s.all ordinary = true) : Phrasing (Tg P) P s :=
  .text (.chars fun c hc => ⟨hp c hc, List.all_eq_true.1 h c hc⟩)

theorem phrase_entity (h : P c) : Phrasing (Tg P) P (entity c) := .text (.piece (textPiece_entity h))

theorem one (h : P c) : ∀ d ∈ [c], P d := by
  intro d hd
  rw [List.mem_singleton.1 hd]; exact h

theorem none_marked : ∀ c ∈ marks .start, P c := by
  intro c hc; cases hc

/-- Something is added, or only the state changes. -/
theorem IInv.to {st' : ISt} (h : IInv P len st) {s : Str} (hs : Phrasing (Tg P) P s) (hr : st'.rv = st.rv ++ s)
    (hl : st'.link1 = st.link1 ∨ ∀ c ∈ st'.link1, P c) (hb : ∀ c ∈ marks st'.state, P c)
    (hm : st'.state = .imageStart → st'.current < len := by intro h; cases h) : IInv P len st' := by
  refine ⟨?_, ?_, hb, hm⟩
  · rw [hr]; exact .app h.rv hs
  · rcases hl with hl | hl
    · rw [hl]; exact h.link1
    · exact hl

theorem IInv.same {st' : ISt} (h : IInv P len st) (hr : st'.rv = st.rv)
    (hl : st'.link1 = st.link1 ∨ ∀ c ∈ st'.link1, P c) (hb : ∀ c ∈ marks st'.state, P c)
    (hm : st'.state = .imageStart → st'.current < len := by intro h; cases h) : IInv P len st' :=
  h.to (s := []) (.text .nil) (by rw [hr, List.append_nil]) hl hb hm

def RecPost (P : Byte → Prop) (rec : Str → Nat → Run Str) : Prop :=
  ∀ m l, (∀ c ∈ m, P c) → Run.Post (Phrasing (Tg P) P) (rec m l)

theorem inlineStart_post (h : IInv P len st) (hst : st.state = .start) (hm : ∀ c ∈ mem, P c) (hc : P c)
    (hlast : isLast = false → st.current + 1 < len) :
    Run.Post (IPost P len) (inlineStart mem st c isLast) := by
  have hb : ∀ c ∈ marks st.state, P c := h.br
  have hi : st.state ≠ .imageStart := by rw [hst]; decide
  unfold inlineStart
  split
  · exact h.to (phrase_entity hc) rfl (.inl rfl) hb fun h => absurd h hi
  next hL =>
  split
  · split
    · trivial
    next c' hc' =>
      exact h.to (phrase_entity (hm c' (List.mem_of_getElem? hc'))) rfl (.inl rfl) hb fun h => absurd h hi
  split
  next h' => exact h.same rfl (.inl rfl) (by rw [h'] at hc; exact one hc)
  split
  next h' => exact h.same rfl (.inl rfl) (by rw [h'] at hc; exact one hc)
  split
  next h' => exact h.same rfl (.inl rfl) (by rw [h'] at hc; exact one hc)
  split
  next h' => exact h.same rfl (.inl rfl) (by rw [h'] at hc; exact one hc)
  split
  next h' => exact h.same rfl (.inl rfl) (by rw [h'] at hc; exact one hc) fun _ => hlast (by simpa using hL)
  split
  next h' => exact h.same rfl (.inl rfl) (by rw [h'] at hc; exact one hc)
  split
  next h' => exact h.same rfl (.inl rfl) (by rw [h'] at hc; exact one hc)
  · exact h.to (phrase_entity hc) rfl (.inl rfl) hb fun h => absurd h hi

theorem inlineEm_post (hrec : RecPost P rec) (h : IInv P len st) (hm : ∀ c ∈ mem, P c) {delim : Byte} {double : IState}
    (hd : ordinary delim = true) (hl : marks double = [delim]) (hi : double ≠ .imageStart) (hp : P delim) :
    Run.Post (IPost P len) (inlineEm rec mem len st c delim double) := by
  unfold inlineEm
  split
  · exact h.same rfl (.inl rfl) (by
      show ∀ c ∈ marks double, P c
      rw [hl]; exact one hp) fun h => absurd h hi
  · refine (Run.Post.any).bind fun r _ => ?_
    cases r with
    | none => exact h.to (phrase (one hp) (by simp [hd])) rfl (.inl rfl) none_marked
    | some k =>
      refine (hrec _ _ fun c hc => hm c (List.mem_of_mem_drop hc)).bind fun s hs => ?_
      exact h.to (.em hs) rfl (.inl rfl) none_marked

theorem two (h : P c) : ∀ d ∈ [c, c], P d := by
  intro d hd
  rcases List.mem_cons.1 hd with rfl | hd
  · exact h
  · exact one h d hd

theorem inlineStrong_post (hrec : RecPost P rec) (h : IInv P len st) (hm : ∀ c ∈ mem, P c) {delim : Byte}
    (hd : ordinary delim = true) (hp : P delim) :
    Run.Post (IPost P len) (inlineStrong rec mem len st delim) := by
  unfold inlineStrong
  refine (Run.Post.any).bind fun r _ => ?_
  cases r with
  | none => exact h.to (phrase (two hp) (by simp [hd])) rfl (.inl rfl) none_marked
  | some k =>
    refine (hrec _ _ fun c hc => hm c (List.mem_of_mem_drop hc)).bind fun s hs => ?_
    exact h.to (.strong hs) rfl (.inl rfl) none_marked

theorem slice_chars (hm : ∀ c ∈ mem, P c) (a b : Nat) : ∀ c ∈ slice mem a b, P c :=
  fun c hc => hm c (List.mem_of_mem_drop (List.mem_of_mem_take hc))

theorem inlineCode_post (h : IInv P len st) (hm : ∀ c ∈ mem, P c) (hp : P c!"`") :
    Run.Post (IPost P len) (inlineCode mem len st c) := by
  unfold inlineCode
  split
  · exact h.same rfl (.inl rfl) (one hp)
  · refine (Run.Post.any).bind fun r _ => ?_
    cases r with
    | none => exact h.to (phrase (one hp) (by decide)) rfl (.inl rfl) none_marked
    | some k => exact h.to (.code (escaped_entities (slice_chars hm _ _))) rfl (.inl rfl) none_marked

theorem inlineCodeDouble_post (h : IInv P len st) (hm : ∀ c ∈ mem, P c) (hp : P c!"`") :
    Run.Post (IPost P len) (inlineCodeDouble mem len st) := by
  unfold inlineCodeDouble
  refine (Run.Post.any).bind fun r _ => ?_
  cases r with
  | none => exact h.to (phrase (two hp) (by decide)) rfl (.inl rfl) none_marked
  | some k => exact h.to (.code (escaped_entities (slice_chars hm _ _))) rfl (.inl rfl) none_marked

theorem tg_slice (hm : ∀ c ∈ mem, P c) (hb : P c!"[") (a b : Nat) : Tg P (appendEscapedLoop false (slice mem a b)) :=
  Tg.del _ _ ⟨hb, fun c hc => hm c (List.mem_of_mem_drop (List.mem_of_mem_take hc))⟩ (del_loop _ _)

theorem inlineLinkAuto_post (h : IInv P len st) (hm : ∀ c ∈ mem, P c) (hb : P c!"[") :
    Run.Post (IPost P len) (inlineLinkAuto mem len st) := by
  unfold inlineLinkAuto
  refine (Run.Post.any).bind fun r _ => ?_
  cases r with
  | none => exact h.to (phrase (two hb) (by decide)) rfl (.inl rfl) none_marked
  | some k => exact h.to (.auto (tg_slice hm hb _ _) (tg_slice hm hb _ _)) rfl (.inl rfl) none_marked

theorem inlineLink_post (hrec : RecPost P rec) (h : IInv P len st) (hm : ∀ c ∈ mem, P c) (hb : P c!"[")
    (hi : marks st.state = b!"[") : Run.Post (IPost P len) (inlineLink rec mem st c) := by
  have hi : st.state ≠ .imageStart := by intro h; rw [h] at hi; exact absurd hi (by decide)
  unfold inlineLink
  split
  · split
    · exact h.same rfl (.inl rfl) (one hb)
    · exact h.same rfl (.inl rfl) (one hb)
  · split
    · exact h.same rfl (.inl rfl) h.br fun h => absurd h hi
    split
    · exact h.same rfl (.inl rfl) h.br fun h => absurd h hi
    split
    · split
      · exact h.same rfl (.inr (slice_chars hm _ _)) (one hb)
      · exact h.same rfl (.inl rfl) h.br fun h => absurd h hi
    · exact h.same rfl (.inl rfl) h.br fun h => absurd h hi
  · split
    · exact h.same rfl (.inl rfl) h.br fun h => absurd h hi
    split
    · exact h.same rfl (.inl rfl) (one hb)
    · exact h.to (phrase (s := b!"[") (one hb) (by decide)) rfl (.inl rfl) none_marked
  · split
    · exact h.same rfl (.inl rfl) h.br fun h => absurd h hi
    split
    · refine (hrec _ _ h.link1).bind fun s hs => ?_
      exact h.to (.link (tg_slice hm hb _ _) hs) rfl (.inr fun c hc => by cases hc) none_marked
    · exact h.same rfl (.inl rfl) h.br fun h => absurd h hi

theorem inlineImage_post (h : IInv P len st) (hm : ∀ c ∈ mem, P c) (hc : P c)
    (hs : st.state = .imageStart ∨ marks st.state = b!"![") :
    Run.Post (IPost P len) (inlineImage mem st c) := by
  unfold inlineImage
  split
  next h1 =>
    have hb : P c!"!" := h.br _ (by rw [h1]; exact List.mem_cons_self)
    split
    next hc' =>
      refine h.same rfl (.inl rfl) fun d hd => ?_
      rw [hc'] at hc
      rcases List.mem_cons.1 hd with rfl | hd
      · exact hb
      · exact one hc d hd
    · exact h.to (phrase (s := b!"!") (one hb) (by decide)) rfl (.inl rfl) none_marked
  next h1 =>
    have hb : ∀ c ∈ b!"![", P c := by have := h.br; rw [h1] at this; exact this
    have hi : st.state ≠ .imageStart := by rw [h1]; decide
    split
    · exact h.same rfl (.inl rfl) h.br fun h => absurd h hi
    split
    · exact h.same rfl (.inr (slice_chars hm _ _)) hb
    · exact h.same rfl (.inl rfl) h.br fun h => absurd h hi
  next h1 =>
    have hb : ∀ c ∈ b!"![", P c := by have := h.br; rw [h1] at this; exact this
    have hi : st.state ≠ .imageStart := by rw [h1]; decide
    split
    · exact h.same rfl (.inl rfl) h.br fun h => absurd h hi
    split
    · exact h.same rfl (.inl rfl) hb
    · exact h.to (phrase (s := b!"![") hb (by decide)) rfl (.inl rfl) none_marked
  next h1 h2 h3 =>
    have hb : ∀ c ∈ b!"![", P c := by have := h.br; rw [hs.resolve_left h1] at this; exact this
    have hb' : P c!"[" := hb _ (by decide)
    split
    · exact h.same rfl (.inl rfl) h.br fun h => absurd h h1
    split
    · exact h.to (.image (tg_slice hm hb' _ _) (Tg.del _ _ ⟨hb', h.link1⟩ (del_loop _ _))) rfl
        (.inr fun c hc => by cases hc) none_marked
    · exact h.same rfl (.inl rfl) h.br fun h => absurd h h1

theorem inlineDash_post (h : IInv P len st) (hs : marks st.state = b!"-" ∨ marks st.state = b!" ") (hc : P c) :
    Run.Post (IPost P len) (inlineDash st c isLast) := by
  have hi : st.state ≠ .imageStart := by intro h; rw [h] at hs; exact absurd hs (by decide)
  unfold inlineDash
  split
  next h1 =>
    have hb : ∀ c ∈ b!"-", P c := by have := h.br; rw [h1] at this; exact this
    split
    · split
      · exact h.to (.dash (.inl rfl)) rfl (.inl rfl) none_marked
      · exact h.same rfl (.inl rfl) hb
    · exact h.to (phrase (s := b!"-") hb (by decide)) rfl (.inl rfl) none_marked
  · split
    · exact h.to (.dash (.inr rfl)) rfl (.inl rfl) none_marked
    · exact h.to (.dash (.inl rfl)) rfl (.inl rfl) none_marked
  next h1 =>
    have hb : ∀ c ∈ b!" ", P c := by have := h.br; rw [h1] at this; exact this
    split
    · split
      · exact h.to .br rfl (.inl rfl) none_marked
      · exact h.same rfl (.inl rfl) hb
    · exact h.to (phrase (s := b!" ") hb (by decide)) rfl (.inl rfl) none_marked
  next h1 h2 h3 =>
    split
    · split
      · exact h.to .br rfl (.inl rfl) none_marked
      · exact h.same rfl (.inl rfl) h.br fun h => absurd h hi
    · split
      next hc' =>
        refine h.to (.app .br (phrase (s := [c]) (one hc) ?_)) rfl (.inl rfl) none_marked
        rcases hc' with rfl | rfl <;> decide
      · refine h.to (phrase (s := List.replicate st.count c!" ") ?_ ?_) rfl (.inl rfl) none_marked
        · intro d hd
          rw [(List.mem_replicate.1 hd).2]
          refine h.br _ ?_
          cases hst : st.state <;> rw [hst] at hs h1 h2 <;> first | exact absurd rfl h1 | exact absurd rfl h2 | exact absurd hs (by decide) | decide
        · rw [List.all_eq_true]
          intro d hd
          rw [(List.mem_replicate.1 hd).2]; rfl

theorem inlineEnd_post (hrec : RecPost P rec) (h : IInv P len st) (hm : ∀ c ∈ mem, P c) (hend : ¬ st.current < len) :
    Run.Post (Phrasing (Tg P) P) (inlineEnd rec mem st) := by
  unfold inlineEnd
  have key : ∀ p : Str, (∀ c ∈ p, P c) → p.all ordinary = true → Run.Post (Phrasing (Tg P) P) (if st.startLink > mem.length then .ub
      else do
        let s ← rec (mem.drop st.startLink) (mem.length - st.startLink)
        pure (st.rv ++ p ++ appendEscapedLoop false s)) := by
    intro p hp' hp
    split
    · trivial
    · refine (hrec _ _ fun c hc => hm c (List.mem_of_mem_drop hc)).bind fun s hs => ?_
      exact .app (.app h.rv (phrase hp' hp)) (hs.del Tg.del (del_loop _ _))
  have hb := h.br
  cases hs : st.state <;> rw [hs] at hb <;> dsimp only
  all_goals first | exact h.rv | exact key _ hb (by decide) | exact absurd (h.more hs) hend

theorem inlineStep_post (hrec : RecPost P rec) (hm : ∀ c ∈ mem, P c) (h : IInv P len st) :
    Run.Post (IPost P len) (inlineStep rec mem len st) := by
  unfold inlineStep
  split
  next hlt =>
    split
    · trivial
    next c hc =>
      have hc := hm c (List.mem_of_getElem? hc)
      have hb := h.br
      cases hs : st.state <;> dsimp only <;> rw [hs] at hb
      case start => exact inlineStart_post h hs hm hc (by intro h; simp at h; omega)
      case asterisk => exact inlineEm_post hrec h hm rfl rfl (by decide) (hb _ (by decide))
      case asteriskDouble => exact inlineStrong_post hrec h hm rfl (hb _ (by decide))
      case underscore => exact inlineEm_post hrec h hm rfl rfl (by decide) (hb _ (by decide))
      case underscoreDouble => exact inlineStrong_post hrec h hm rfl (hb _ (by decide))
      case backticks => exact inlineCode_post h hm (hb _ (by decide))
      case backticksDouble => exact inlineCodeDouble_post h hm (hb _ (by decide))
      case linkAuto => exact inlineLinkAuto_post h hm (hb _ (by decide))
      case linkStart => exact inlineLink_post hrec h hm (hb _ (by decide)) (by rw [hs]; rfl)
      case linkContent => exact inlineLink_post hrec h hm (hb _ (by decide)) (by rw [hs]; rfl)
      case linkUrlStart => exact inlineLink_post hrec h hm (hb _ (by decide)) (by rw [hs]; rfl)
      case linkUrl => exact inlineLink_post hrec h hm (hb _ (by decide)) (by rw [hs]; rfl)
      case imageStart => exact inlineImage_post h hm hc (.inl hs)
      case imageAlt => exact inlineImage_post h hm hc (.inr (by rw [hs]; rfl))
      case imageUrlStart => exact inlineImage_post h hm hc (.inr (by rw [hs]; rfl))
      case imageUrl => exact inlineImage_post h hm hc (.inr (by rw [hs]; rfl))
      case endash => exact inlineDash_post h (.inl (by rw [hs]; rfl)) hc
      case emdash => exact inlineDash_post h (.inl (by rw [hs]; rfl)) hc
      case lineBreakStart => exact inlineDash_post h (.inr (by rw [hs]; rfl)) hc
      case lineBreak => exact inlineDash_post h (.inr (by rw [hs]; rfl)) hc
  next hlt => exact (inlineEnd_post hrec h hm hlt).bind fun s hs => hs

theorem inlineInternal_post : ∀ (d : Nat) (mem : Str) (len : Nat), (∀ c ∈ mem, P c) →
    Run.Post (Phrasing (Tg P) P) (inlineInternal d mem len)
  | 0, _, _, _ => trivial
  | d + 1, mem, len, hm => by
    rw [inlineInternal]
    exact runL_post (I := IInv P len) (fun s hs => inlineStep_post (fun m l h => inlineInternal_post d m l h) hm hs) _ _
      ⟨.text .nil, by simp [ISt.init], none_marked, by intro h; cases h⟩

theorem parseInline_post (s : Str) (hs : ∀ c ∈ s, P c) : Run.Post (Phrasing (Tg P) P) (parseInline s) :=
  inlineInternal_post _ _ _ hs

end Content
end Blogc
