import Verif.Lemmas.InlineMarkup
import Verif.Lemmas.Numbers

/-!
# The output of the block parser is properly nested

`Q` says that there may be lines that are taken over as HTML.
-/

namespace Blogc.Content.Mk

open Blogc Blogc.Content Blogc.Spec

/-- Where a line is read: at its start, after `>` and blanks, or further on. -/
inductive At where
  | start
  | quote
  | inside

/-- No line is taken over as HTML. -/
def clear : At → Str → Bool
  | _, [] => true
  | .start, c :: r => if isNl c then clear .start r else if c = c!"<" then false
    else if c = c!">" then clear .quote r else clear .inside r
  | .quote, c :: r => if isNl c then clear .start r else if c = c!"<" then false
    else if isQuote c then clear .quote r else clear .inside r
  | .inside, c :: r => if isNl c then clear .start r else clear .inside r

theorem clear_inside : ∀ {a : At} {s : Str}, clear a s = true → clear .inside s = true
  | a, [], _ => by cases a <;> rfl
  | .inside, _ :: _, h => h
  | .start, c :: r, h => by
    rw [clear] at h
    rw [clear.eq_4]
    split at h
    next hc => rw [if_pos hc]; exact h
    next hc =>
      rw [if_neg hc]
      split at h
      · cases h
      split at h <;> exact clear_inside h
  | .quote, c :: r, h => by
    rw [clear] at h
    rw [clear.eq_4]
    split at h
    next hc => rw [if_pos hc]; exact h
    next hc =>
      rw [if_neg hc]
      split at h
      · cases h
      split at h <;> exact clear_inside h

theorem clear_start : ∀ {s : Str}, clear .quote s = true → clear .start s = true
  | [], _ => rfl
  | c :: r, h => by
    rw [clear] at h
    rw [clear]
    split at h
    next hc => rw [if_pos hc]; exact h
    next hc =>
      rw [if_neg hc]
      split at h
      · cases h
      next h1 =>
        rw [if_neg h1]
        split at h
        · split
          · exact h
          · exact clear_inside h
        next h2 =>
          rw [if_neg]
          · exact h
          · rintro rfl; exact h2 rfl

theorem clear_after_nl {a : At} {c : Byte} {r : Str} (hn : isNl c = true) (h : clear a (c :: r) = true) :
    clear .start r = true := by
  cases a <;> rw [clear, if_pos hn] at h <;> exact h

theorem clear_tail {a : At} {c : Byte} {r : Str} (h : clear a (c :: r) = true) : clear .inside r = true := by
  cases hn : isNl c with
  | true => exact clear_inside (clear_after_nl hn h)
  | false =>
    have := clear_inside h
    rw [clear, hn] at this
    exact this

theorem clear_line : ∀ {s : Str} {a : At} {k : Nat} {c : Byte}, clear a s = true → s[k]? = some c → isNl c = true →
    clear .start (s.drop (k + 1)) = true
  | [], _, _, _, _, h, _ => by simp at h
  | d :: r, a, 0, c, h, hc, hn => by
    simp only [List.getElem?_cons_zero, Option.some.injEq] at hc
    exact clear_after_nl (by rw [hc]; exact hn) h
  | d :: r, a, k + 1, c, h, hc, hn => by
    rw [List.getElem?_cons_succ] at hc
    show clear .start (r.drop (k + 1)) = true
    exact clear_line (clear_tail h) hc hn

theorem clear_take : ∀ {s : Str} {a : At} (k : Nat), clear a s = true → clear a (s.take k) = true
  | _, a, 0, _ => by rw [List.take_zero]; cases a <;> rfl
  | [], a, _ + 1, _ => by rw [List.take_nil]; cases a <;> rfl
  | c :: r, a, k + 1, h => by
    rw [List.take_succ_cons]
    cases a
    all_goals
      rw [clear] at h ⊢
      split at h
      next hc => rw [if_pos hc]; exact clear_take k h
      next hc =>
        rw [if_neg hc]
        first
          | exact clear_take k h
          | (split at h
             · cases h
             next h1 =>
               rw [if_neg h1]
               split at h
               next h2 => rw [if_pos h2]; exact clear_take k h
               next h2 => rw [if_neg h2]; exact clear_take k h)

theorem clear_nl : ∀ {e t : Str} {a : At}, e ≠ [] → (∀ c ∈ e, isNl c = true) → clear .start t = true →
    clear a (e ++ t) = true
  | [], _, _, he, _, _ => absurd rfl he
  | c :: e, t, a, _, hn, ht => by
    have hr : clear .start (e ++ t) = true := by
      cases e with
      | nil => exact ht
      | cons d e => exact clear_nl (by simp) (fun c hc => hn c (List.mem_cons_of_mem _ hc)) ht
    cases a <;> rw [List.cons_append, clear, if_pos (hn c (by simp))] <;> exact hr

theorem clear_append : ∀ {s e t : Str} {a : At}, e ≠ [] → (∀ c ∈ e, isNl c = true) →
    clear a s = true → clear .start t = true → clear a (s ++ (e ++ t)) = true
  | [], e, t, a, he, hn, _, ht => by rw [List.nil_append]; exact clear_nl he hn ht
  | c :: r, e, t, a, he, hn, hs, ht => by
    rw [List.cons_append]
    cases a
    all_goals
      rw [clear] at hs ⊢
      split at hs
      next hc => rw [if_pos hc]; exact clear_append he hn hs ht
      next hc =>
        rw [if_neg hc]
        first
          | exact clear_append he hn hs ht
          | (split at hs
             · cases hs
             next h1 =>
               rw [if_neg h1]
               split at hs
               next h2 => rw [if_pos h2]; exact clear_append he hn hs ht
               next h2 => rw [if_neg h2]; exact clear_append he hn hs ht)

/-- What remains after `p` is after the mark of a quotation. -/
def Marked (p : Str) : Prop := ∀ t, clear .start (p ++ t) = true → clear .quote t = true

/-- What remains after `p` is a text as well. -/
def Removable (p : Str) : Prop := ∀ t, clear .start (p ++ t) = true → clear .start t = true

theorem Marked.removable {p : Str} (h : Marked p) : Removable p := fun t ht => clear_start (h t ht)

theorem Marked.one : Marked [c!">"] := fun t h => by
  rw [List.cons_append, clear, if_neg (by decide), if_neg (by decide), if_pos rfl] at h
  exact h

theorem Marked.blank {p : Str} {c : Byte} (h : Marked p) (hc : isSp c = true) : Marked (p ++ [c]) := fun t ht => by
  rw [List.append_assoc] at ht
  have := h _ ht
  have key : ∀ n : Fin 256, isSp (UInt8.ofFin n) = true →
      isNl (UInt8.ofFin n) = false ∧ UInt8.ofFin n ≠ c!"<" ∧ isQuote (UInt8.ofFin n) = true := by decide +kernel
  have hk : isNl c = false ∧ c ≠ c!"<" ∧ isQuote c = true := key c.toFin hc
  obtain ⟨h1, h2, h3⟩ := hk
  rw [List.cons_append, clear, if_neg (by simpa using h1), if_neg h2, if_pos h3] at this
  exact this

theorem Marked.nl {p : Str} {c : Byte} (h : Marked p) (hc : isNl c = true) : Removable (p ++ [c]) := fun t ht => by
  rw [List.append_assoc] at ht
  exact clear_after_nl hc (h _ ht)

/-- A block of HTML; `Q` says that there may be some. -/
def Raw (Q : Prop) (P : Byte → Prop) (h : Str) : Prop := Q ∧ (h = [] ∨ h.head? = some c!"<") ∧ ∀ c ∈ h, P c

/-- What is assumed about the text. -/
structure Src (Q : Prop) (P : Byte → Prop) (src : Str) : Prop where
  chars : ∀ c ∈ src, P c
  cl : Q ∨ clear .start src = true

/-- Position `k` is at the start of a line, or after the prefix of a quotation. -/
def Line (Q : Prop) (src : Str) (k : Nat) : Prop := Q ∨ clear .start (src.drop k) = true

/-- The output and the other results. -/
structure Core (Q : Prop) (P : Byte → Prop) (st : BSt) : Prop where
  rv : Flow (Tg P) P (Raw Q P) st.rv
  cut : st.endExcerpt ≤ st.rv.length
  excerpt : Flow (Tg P) P (Raw Q P) (st.rv.take st.endExcerpt)
  ne : st.lineEnding ≠ []
  le : ∀ c ∈ st.lineEnding, isNl c = true
  l2 : ∀ l, st.lines2 = .live l → ∀ t ∈ l, ∀ c ∈ t, P c
  first : ∀ t, st.firstHeader = some t → Escaped P t
  desc : ∀ t, st.description = some t → Escaped (fun c => P c ∨ c = c!" ") t

def QL (Q : Prop) (P : Byte → Prop) (ls : List Str) : Prop := ∀ l ∈ ls, (∀ c ∈ l, P c) ∧ (Q ∨ clear .start l = true)

def Prefix (st : BSt) : Prop := ∃ p, st.pre = some p ∧ Removable p

/-- `mid` is set between the two characters of a line ending. -/
def SSt (Q : Prop) (P : Byte → Prop) (src : Str) (mid : Bool) (st : BSt) : Prop :=
  match st.state with
  | .startLine => st.lines = [] ∧ Line Q src st.current
  | .excerpt | .excerptEnd => st.lines = [] ∧ st.eend = st.rv.length
  | .html | .htmlEnd => st.lines = [] ∧ Q ∧ src[st.start]? = some c!"<"
  | .blockquote => st.lines = [] ∧ st.start = st.start2 ∧ st.start2 ≤ st.current ∧ Line Q src st.start2 ∧
      (Marked (slice src st.start st.current) ∨
        mid = true ∧ Removable (slice src st.start st.current) ∧ ∃ c, src[st.current]? = some c ∧ isNl c = true)
  | .blockquoteStart => QL Q P st.lines ∧ Line Q src st.start2 ∧ Prefix st
  | .blockquoteEnd => QL Q P st.lines ∧ Line Q src st.current ∧ Prefix st
  | .codeStart | .codeEnd => ∀ t ∈ st.lines, ∀ c ∈ t, P c
  | .ulStart | .ulEnd | .olStart | .olEnd => ∀ t ∈ st.lines, Phrasing (Tg P) P t
  | _ => st.lines = []

def SPost (Q : Prop) (P : Byte → Prop) (src : Str) : BSt ⊕ BSt → Prop :=
  StepSafe (fun st => Core Q P st ∧ SSt Q P src false st) (Core Q P)

variable {Q : Prop} {P : Byte → Prop} {src : Str} {w : Want} {st : BSt} {c : Byte} {isLast : Bool} {fx : Bool}
  {rec : Str → Str → Run Str}

theorem next_line (hG : Src Q P src) (hc : src[st.current]? = some c)
    (hlast : isLast = true → st.current + 1 = src.length) (he : ends c isLast = true) :
    Line Q src (st.current + 1) := by
  cases hn : isNl c with
  | true => exact hG.cl.imp id (clear_line · hc hn)
  | false =>
    have : isLast = true := by simpa [ends, hn] using he
    unfold Line
    rw [hlast this, List.drop_length]; exact .inr rfl

theorem dup_post (hG : Src Q P src) {a b : Nat} :
    Run.Post (fun t => (∀ c ∈ t, P c) ∧ (Line Q src a → Q ∨ clear .start t = true)) (dup src a b) := by
  unfold dup
  split
  · trivial
  split
  · exact ⟨fun c hc => hG.chars c (List.mem_of_mem_drop (List.mem_of_mem_take hc)), fun h => h.imp id (clear_take _)⟩
  · exact ⟨fun c hc => hG.chars c (List.mem_of_mem_drop hc), fun h => h⟩

/-- Nothing is added. -/
theorem Core.same (hC : Core Q P st) {st' : BSt} (h1 : st'.rv = st.rv) (h2 : st'.endExcerpt = st.endExcerpt)
    (h3 : st'.lineEnding = st.lineEnding) (h4 : st'.lines2 = st.lines2 ∨ ∀ l, st'.lines2 = .live l → ∀ t ∈ l, ∀ c ∈ t, P c)
    (h5 : st'.firstHeader = st.firstHeader) (h6 : st'.description = st.description) : Core Q P st' := by
  refine ⟨by rw [h1]; exact hC.rv, by rw [h1, h2]; exact hC.cut, by rw [h1, h2]; exact hC.excerpt,
    by rw [h3]; exact hC.ne, by rw [h3]; exact hC.le, ?_, by rw [h5]; exact hC.first, by rw [h6]; exact hC.desc⟩
  rcases h4 with h4 | h4
  · rw [h4]; exact hC.l2
  · exact h4

/-- A block is added. -/
theorem Core.add (hC : Core Q P st) {st' : BSt} {s : Str} (hs : Flow (Tg P) P (Raw Q P) s) (h1 : st'.rv = st.rv ++ s ++ st.lineEnding)
    (h2 : st'.endExcerpt = st.endExcerpt) (h3 : st'.lineEnding = st.lineEnding)
    (h4 : st'.lines2 = st.lines2) (h5 : ∀ t, st'.firstHeader = some t → Escaped P t)
    (h6 : ∀ t, st'.description = some t → Escaped (fun c => P c ∨ c = c!" ") t) : Core Q P st' := by
  have hr : st'.rv = st.rv ++ (s ++ st.lineEnding) := by rw [h1, List.append_assoc]
  refine ⟨?_, ?_, ?_, by rw [h3]; exact hC.ne, by rw [h3]; exact hC.le, by rw [h4]; exact hC.l2, h5, h6⟩
  · rw [h1]; exact .app (.app hC.rv hs) (.ends hC.le)
  · rw [hr, h2, List.length_append]; have := hC.cut; omega
  · rw [hr, h2, List.take_append_of_le_length hC.cut]; exact hC.excerpt

theorem flow_header {s t : Str} (n : Nat) (ht : Phrasing (Tg P) P t) :
    Flow (Tg P) P (Raw Q P) (b!"<h" ++ decNat n ++ b!" id=\"" ++ slugify s ++ b!"\">" ++ t ++ b!"</h" ++ decNat n ++ b!">") := by
  refine .header ?_ ?_ ?_ ht
  · exact decNat_ne_nil n
  · intro c hc
    simpa [isDigit] using decNat_digits n c hc
  · intro c hc
    exact C36.slug_chars s c hc

theorem headerTitle_post (hG : Src Q P src) (hC : Core Q P st) (hc : src[st.current]? = some c)
    (hlast : isLast = true → st.current + 1 = src.length)
    (hs : st.state = .headerTitle ∨ st.state = .headerTitleStart ∧ isNl c = true) (hl : st.lines = []) :
    Run.Post (SPost Q P src) (headerTitle src w st c isLast) := by
  unfold headerTitle
  split
  next he =>
    refine (dup_post hG).bind fun t ht => (parseInline_post t ht.1).bind fun p hp => ?_
    refine ⟨hC.add (flow_header (s := t) st.headerLevel hp) ?_ rfl rfl rfl ?_ hC.desc, hl, next_line hG hc hlast he⟩
    · simp [List.append_assoc]
    · intro t' ht'
      dsimp only at ht'
      split at ht'
      · injection ht' with ht'
        rw [← ht']; exact escaped_entities ht.1
      · exact hC.first t' ht'
  next he =>
    rcases hs with hs | ⟨_, hn⟩
    · refine ⟨hC.same rfl rfl rfl (.inl rfl) rfl rfl, ?_⟩
      simp only [SSt, hs]; exact hl
    · rw [ends, hn] at he; exact absurd rfl he

theorem htmlEnd_post (hG : Src Q P src) (hC : Core Q P st) (hc : src[st.current]? = some c)
    (hlast : isLast = true → st.current + 1 = src.length) (hl : st.lines = []) (hq : Q)
    (hs : src[st.start]? = some c!"<") : Run.Post (SPost Q P src) (htmlEnd src st c isLast) := by
  unfold htmlEnd
  split
  next he =>
    have hd : Run.Post (Raw Q P) (dup src st.start st.stop) := by
      have h := dup_post hG (a := st.start) (b := st.stop)
      unfold dup at h ⊢
      split
      · trivial
      next h1 =>
        rw [if_neg h1] at h
        split
        next h2 =>
          rw [if_pos h2] at h
          refine ⟨hq, ?_, h.1⟩
          rw [slice, drop_cons hs]
          cases st.stop - st.start with
          | zero => exact .inl rfl
          | succ n => exact .inr rfl
        next h2 =>
          rw [if_neg h2] at h
          refine ⟨hq, .inr ?_, h.1⟩
          rw [drop_cons hs]; rfl
    refine hd.bind fun t ht => ?_
    exact ⟨hC.add (.html ht) rfl rfl rfl rfl hC.first hC.desc, hl, next_line hG hc hlast he⟩
  · exact ⟨hC.same rfl rfl rfl (.inl rfl) rfl rfl, hl, hq, hs⟩

theorem lstrip_chars : ∀ {s : Str}, ∀ c ∈ lstrip s, c ∈ s
  | [], _, h => h
  | a :: s, c, h => by
    rw [lstrip] at h
    split at h
    · exact h
    split at h
    · cases h
    · exact List.mem_cons_of_mem _ (lstrip_chars c h)

theorem rstripLoop_chars {s : Str} : ∀ (n : Nat), ∀ c ∈ rstripLoop s n, c ∈ s
  | 0, _, h => h
  | n + 1, c, h => by
    rw [rstripLoop] at h
    split at h
    · exact List.mem_of_mem_take h
    split at h
    · cases h
    · exact rstripLoop_chars n c h

theorem strip_chars {s : Str} : ∀ c ∈ strip s, c ∈ s := fun c h => rstripLoop_chars _ c (lstrip_chars c h)

theorem fixLoop_chars {V : Byte → Prop} (hsp : V c!" ") : ∀ {rest cur : Str} {b : Bool} {rv : Str}, (∀ c ∈ rest, V c) →
    (∀ c ∈ cur, V c) → (∀ c ∈ rv, V c) → ∀ c ∈ fixLoop rest cur b rv, V c
  | [], cur, b, rv, _, hc, hr => by
    rw [fixLoop]
    split
    · exact hr
    · intro d hd
      rcases List.mem_append.1 hd with hd | hd
      · exact hr d hd
      · exact hc d (strip_chars d hd)
  | a :: rest, cur, b, rv, ha, hc, hr => by
    have ha' : ∀ c ∈ rest, V c := fun c hc => ha c (List.mem_cons_of_mem _ hc)
    have hs : ∀ d ∈ cur ++ [a], V d := by
      intro d hd
      rcases List.mem_append.1 hd with hd | hd
      · exact hc d hd
      · rw [List.mem_singleton.1 hd]; exact ha a (by simp)
    rw [fixLoop]
    split
    · split
      · exact fixLoop_chars hsp ha' hs hr
      · refine fixLoop_chars hsp ha' (by intro d hd; cases hd) fun d hd => ?_
        rcases List.mem_append.1 hd with hd | hd
        · rcases List.mem_append.1 hd with hd | hd
          · exact hr d hd
          · exact hc d (strip_chars d hd)
        · rw [List.mem_singleton.1 hd]; exact hsp
    · exact fixLoop_chars hsp ha' hs hr

theorem description_chars {t : Str} (h : ∀ c ∈ t, P c) : ∀ c ∈ strip (fixLoop t [] false []), P c ∨ c = c!" " :=
  fun c hc => fixLoop_chars (V := fun c => P c ∨ c = c!" ") (.inr rfl) (fun c hc => .inl (h c hc)) (by simp) (by simp) c
    (strip_chars c hc)

theorem paragraphEnd_post (hG : Src Q P src) (hC : Core Q P st) (hc : src[st.current]? = some c)
    (hlast : isLast = true → st.current + 1 = src.length) (hl : st.lines = []) :
    Run.Post (SPost Q P src) (paragraphEnd src w st c isLast) := by
  unfold paragraphEnd
  split
  next he =>
    refine (dup_post hG).bind fun t ht => (parseInline_post t ht.1).bind fun p hp => ?_
    refine ⟨hC.add (.paragraph hp) ?_ rfl rfl rfl hC.first ?_, hl, next_line hG hc hlast he⟩
    · simp [List.append_assoc]
    · intro t' ht'
      dsimp only at ht'
      split at ht'
      · injection ht' with ht'
        rw [← ht']; exact escaped_entities (description_chars ht.1)
      · exact hC.desc t' ht'
  · exact ⟨hC.same rfl rfl rfl (.inl rfl) rfl rfl, hl⟩

theorem ordinary_nl {e : Str} (hN : ∀ c, isNl c = true → P c) (he : ∀ c ∈ e, isNl c = true) : Escaped P e := by
  refine .chars fun c hc => ⟨hN c (he c hc), ?_⟩
  have key : ∀ n : Fin 256, isNl (UInt8.ofFin n) = true → ordinary (UInt8.ofFin n) = true := by decide +kernel
  exact key c.toFin (he c hc)

theorem escaped_join {e : Str} (hN : ∀ c, isNl c = true → P c) (he : ∀ c ∈ e, isNl c = true) :
    ∀ {l : List Str}, (∀ t ∈ l, ∀ c ∈ t, P c) → Escaped P (join e (l.map htmlentities))
  | [], _ => .nil
  | [a], h => escaped_entities (h a (by simp))
  | a :: b :: l, h => by
    have ih := escaped_join hN he (l := b :: l) fun t ht => h t (List.mem_cons_of_mem _ ht)
    show Escaped P (htmlentities a ++ e ++ join e ((b :: l).map htmlentities))
    exact Escaped.app (Escaped.app (escaped_entities (h a (by simp))) (ordinary_nl hN he)) ih

theorem codeEnd_post (hN : ∀ c, isNl c = true → P c) (hG : Src Q P src) (hC : Core Q P st) (hc : src[st.current]? = some c)
    (hlast : isLast = true → st.current + 1 = src.length) (hl : ∀ t ∈ st.lines, ∀ c ∈ t, P c) :
    Run.Post (SPost Q P src) (codeEnd st c isLast) := by
  unfold codeEnd
  split
  next he =>
    refine ⟨hC.add (.code (escaped_join hN hC.le hl)) ?_ rfl rfl rfl hC.first hC.desc, rfl, next_line hG hc hlast he⟩
    simp [List.append_assoc]
  · exact ⟨hC.same rfl rfl rfl (.inl rfl) rfl rfl, hl⟩

theorem codeStart_post (hN : ∀ c, isNl c = true → P c) (hG : Src Q P src) (hC : Core Q P st) (hc : src[st.current]? = some c)
    (hlast : isLast = true → st.current + 1 = src.length) (hs : st.state = .codeStart) (hl : ∀ t ∈ st.lines, ∀ c ∈ t, P c) :
    Run.Post (SPost Q P src) (codeStart src st c isLast) := by
  unfold codeStart
  split
  next he =>
    split
    · trivial
    next p hp =>
      refine (dup_post hG).bind fun t ht => ?_
      have hl' : ∀ x ∈ st.lines ++ [t.drop p.length], ∀ c ∈ x, P c := by
        intro x hx
        rcases List.mem_append.1 hx with hx | hx
        · exact hl x hx
        · rw [List.mem_singleton.1 hx]
          exact fun c hc => ht.1 c (List.mem_of_mem_drop hc)
      show Run.Post _ (if _ then _ else _)
      split
      · show Run.Post _ (if _ then _ else _)
        split
        · refine codeEnd_post hN hG ?_ ?_ ?_ ?_
          · exact hC.same rfl rfl rfl (.inl rfl) rfl rfl
          · exact hc
          · exact hlast
          · exact hl'
        · exact ⟨hC.same rfl rfl rfl (.inl rfl) rfl rfl, hl'⟩
      · show Run.Post _ (if _ then _ else _)
        split
        · exact ⟨hC.same rfl rfl rfl (.inl rfl) rfl rfl, rfl⟩
        · exact ⟨hC.same rfl rfl rfl (.inl rfl) rfl rfl, rfl⟩
  · refine ⟨hC.same rfl rfl rfl (.inl rfl) rfl rfl, ?_⟩
    simp only [SSt, hs]; exact hl

theorem join_chars {e : Str} (he : ∀ c ∈ e, P c) : ∀ {l : List Str}, (∀ t ∈ l, ∀ c ∈ t, P c) → ∀ c ∈ join e l, P c
  | [], _ => by intro c hc; cases hc
  | [a], h => h a (by simp)
  | a :: b :: l, h => by
    have ih := join_chars he (l := b :: l) fun t ht => h t (List.mem_cons_of_mem _ ht)
    intro c hc
    rw [join] at hc
    rcases List.mem_append.1 hc with hc | hc
    · rcases List.mem_append.1 hc with hc | hc
      · exact h a (by simp) c hc
      · exact he c hc
    · exact ih c hc

theorem flushItem_post (hN : ∀ c, isNl c = true → P c) (hC : Core Q P st) (hl : ∀ t ∈ st.lines, Phrasing (Tg P) P t) :
    Run.Post (fun st' => ∃ a b, st' = { st with lines := a, lines2 := b } ∧ (∀ t ∈ a, Phrasing (Tg P) P t) ∧
      ∀ l, b = .live l → ∀ t ∈ l, ∀ c ∈ t, P c) (flushItem st) := by
  unfold flushItem
  cases h2 : st.lines2 with
  | freed => trivial
  | live l =>
    show Run.Post _ (if _ then _ else _)
    split
    · exact ⟨st.lines, st.lines2, rfl, hl, hC.l2⟩
    · refine (parseInline_post _ (join_chars (fun c hc => hN c (hC.le c hc)) (hC.l2 l h2))).bind fun p hp => ?_
      refine ⟨_, _, rfl, ?_, ?_⟩
      · intro t ht
        rcases List.mem_append.1 ht with ht | ht
        · exact hl t ht
        · rw [List.mem_singleton.1 ht]; exact hp
      · intro l h t ht
        injection h with h
        subst h
        cases ht

theorem addLine_post (hC : Core Q P st) {t : Str} (ht : ∀ c ∈ t, P c) :
    Run.Post (fun st' => ∃ b, st' = { st with lines2 := b } ∧ ∀ l, b = .live l → ∀ t ∈ l, ∀ c ∈ t, P c) (addLine st t) := by
  unfold addLine
  cases h2 : st.lines2 with
  | freed => trivial
  | live l =>
    refine ⟨_, rfl, fun l' h t' ht' => ?_⟩
    injection h with h
    subst h
    rcases List.mem_append.1 ht' with h | h
    · exact hC.l2 l h2 t' h
    · rw [List.mem_singleton.1 h]; exact ht

theorem items_flow {e : Str} (he : ∀ c ∈ e, isNl c = true) : ∀ {ls : List Str}, (∀ t ∈ ls, Phrasing (Tg P) P t) →
    Items (Tg P) P (ls.flatMap (fun l => b!"<li>" ++ l ++ b!"</li>" ++ e))
  | [], _ => .ends (by simp)
  | l :: ls, h => by
    rw [List.flatMap_cons]
    exact .app (.app (.item (h l (by simp))) (.ends he)) (items_flow he fun t ht => h t (List.mem_cons_of_mem _ ht))

theorem listEnd_post (hN : ∀ c, isNl c = true → P c) (hG : Src Q P src) (hC : Core Q P st) (hc : src[st.current]? = some c)
    (hlast : isLast = true → st.current + 1 = src.length) {tag : Str} {again : BState} (hl : ∀ t ∈ st.lines, Phrasing (Tg P) P t)
    (ht : tag = b!"ul" ∧ again = .ulStart ∨ tag = b!"ol" ∧ again = .olStart) :
    Run.Post (SPost Q P src) (listEnd tag again st c isLast) := by
  unfold listEnd
  split
  next he =>
    refine (flushItem_post hN hC hl).bind fun st' h => ?_
    obtain ⟨a, b, rfl, ha, hb⟩ := h
    have hC' : Core Q P { st with lines := a, lines2 := b } := hC.same rfl rfl rfl (.inr hb) rfl rfl
    refine ⟨hC'.add (.list (tag := tag) (ht.imp And.left And.left) (.app (.ends hC.le) (items_flow hC.le ha))) ?_ rfl rfl rfl hC.first hC.desc,
      rfl, next_line hG hc hlast he⟩
    simp [List.append_assoc]
  · refine ⟨hC.same rfl rfl rfl (.inl rfl) rfl rfl, ?_⟩
    rcases ht with ⟨_, rfl⟩ | ⟨_, rfl⟩ <;> exact hl

theorem listAbort_post (hC : Core Q P st) (keep : Bool) : Run.Post (SPost Q P src) (listAbort fx st keep isLast) := by
  unfold listAbort
  refine (Run.Post.of_eq (P := fun b => ∀ l, b = .live l → ∀ t ∈ l, ∀ c ∈ t, P c) ?_).bind fun b hb => ?_
  · intro b h l hl
    subst hl
    unfold Lines2.giveUp at h
    split at h
    · cases h2 : st.lines2 with
      | freed => rw [h2] at h; cases h
      | live l' => rw [h2] at h; cases h; simp
    · cases h2 : st.lines2 with
      | freed => rw [h2] at h; cases h
      | live l' =>
        rw [h2] at h
        intro t ht
        cases l' <;> cases h
        cases ht
  · show Run.Post _ (if _ then _ else _)
    split
    · exact ⟨hC.same rfl rfl rfl (.inr hb) rfl rfl, rfl⟩
    · exact ⟨hC.same rfl rfl rfl (.inr hb) rfl rfl, rfl⟩

/-- The same results. -/
theorem Core.keep (hC : Core Q P st) {st' : BSt} (h1 : st'.rv = st.rv) (h2 : st'.endExcerpt = st.endExcerpt)
    (h3 : st'.lineEnding = st.lineEnding) (h4 : st'.lines2 = st.lines2)
    (h5 : st'.firstHeader = st.firstHeader) (h6 : st'.description = st.description) : Core Q P st' :=
  hC.same h1 h2 h3 (.inl h4) h5 h6

theorem ulStart_post (hN : ∀ c, isNl c = true → P c) (hG : Src Q P src) (hC : Core Q P st) (hc : src[st.current]? = some c)
    (hlast : isLast = true → st.current + 1 = src.length) (hs : st.state = .ulStart)
    (hl : ∀ t ∈ st.lines, Phrasing (Tg P) P t) :
    Run.Post (SPost Q P src) (ulStart fx src st c isLast) := by
  unfold ulStart
  split
  next he =>
    split
    · trivial
    next p hp =>
      refine (dup_post hG).bind fun t ht => ?_
      have hd : ∀ n, ∀ c ∈ t.drop n, P c := fun n c h => ht.1 c (List.mem_of_mem_drop h)
      have hC1 : Core Q P { st with stop := lineStop src st c isLast } := hC.keep rfl rfl rfl rfl rfl rfl
      show Run.Post _ (if _ then _ else _)
      split
      · refine (flushItem_post hN hC1 hl).bind fun st1 h1 => ?_
        obtain ⟨a, b, rfl, ha, hb⟩ := h1
        have hC2 : Core Q P { st with stop := lineStop src st c isLast, lines := a, lines2 := b } :=
          hC1.same rfl rfl rfl (.inr hb) rfl rfl
        refine (addLine_post hC2 (hd p.length)).bind fun st2 h2 => ?_
        obtain ⟨b', rfl, hb'⟩ := h2
        show Run.Post _ (if _ then _ else _)
        split
        · refine listEnd_post hN hG ?_ ?_ ?_ ?_ (.inl ⟨rfl, rfl⟩)
          · exact hC2.same rfl rfl rfl (.inr hb') rfl rfl
          · exact hc
          · exact hlast
          · exact ha
        · exact ⟨hC2.same rfl rfl rfl (.inr hb') rfl rfl, ha⟩
      · show Run.Post _ (if _ then _ else _)
        split
        · refine (addLine_post hC1 (hd p.length)).bind fun st2 h2 => ?_
          obtain ⟨b', rfl, hb'⟩ := h2
          show Run.Post _ (if _ then _ else _)
          split
          · refine listEnd_post hN hG ?_ ?_ ?_ ?_ (.inl ⟨rfl, rfl⟩)
            · exact hC1.same rfl rfl rfl (.inr hb') rfl rfl
            · exact hc
            · exact hlast
            · exact hl
          · exact ⟨hC1.same rfl rfl rfl (.inr hb') rfl rfl, hl⟩
        · exact listAbort_post hC1 false
  · refine ⟨hC.keep rfl rfl rfl rfl rfl rfl, ?_⟩
    simp only [SSt, hs]; exact hl

theorem olStart_post (hN : ∀ c, isNl c = true → P c) (hG : Src Q P src) (hC : Core Q P st) (hc : src[st.current]? = some c)
    (hlast : isLast = true → st.current + 1 = src.length) (hs : st.state = .olStart)
    (hl : ∀ t ∈ st.lines, Phrasing (Tg P) P t) :
    Run.Post (SPost Q P src) (olStart fx src st c isLast) := by
  unfold olStart
  split
  next he =>
    refine (dup_post hG).bind fun t ht => ?_
    have hd : ∀ n, ∀ c ∈ t.drop n, P c := fun n c h => ht.1 c (List.mem_of_mem_drop h)
    have hC1 : Core Q P { st with stop := lineStop src st c isLast } := hC.keep rfl rfl rfl rfl rfl rfl
    show Run.Post _ (if _ then _ else _)
    split
    · refine (flushItem_post hN hC1 hl).bind fun st1 h1 => ?_
      obtain ⟨a, b, rfl, ha, hb⟩ := h1
      have hC2 : Core Q P { st with stop := lineStop src st c isLast, lines := a, lines2 := b } :=
        hC1.same rfl rfl rfl (.inr hb) rfl rfl
      refine (addLine_post hC2 (hd st.prefixLen)).bind fun st2 h2 => ?_
      obtain ⟨b', rfl, hb'⟩ := h2
      show Run.Post _ (if _ then _ else _)
      split
      · refine listEnd_post hN hG ?_ ?_ ?_ ?_ (.inr ⟨rfl, rfl⟩)
        · exact hC2.same rfl rfl rfl (.inr hb') rfl rfl
        · exact hc
        · exact hlast
        · exact ha
      · exact ⟨hC2.same rfl rfl rfl (.inr hb') rfl rfl, ha⟩
    · show Run.Post _ (if _ then _ else _)
      split
      · refine (addLine_post hC1 (hd st.prefixLen)).bind fun st2 h2 => ?_
        obtain ⟨b', rfl, hb'⟩ := h2
        show Run.Post _ (if _ then _ else _)
        split
        · refine listEnd_post hN hG ?_ ?_ ?_ ?_ (.inr ⟨rfl, rfl⟩)
          · exact hC1.same rfl rfl rfl (.inr hb') rfl rfl
          · exact hc
          · exact hlast
          · exact hl
        · exact ⟨hC1.same rfl rfl rfl (.inr hb') rfl rfl, hl⟩
      · exact listAbort_post hC1 true
  · refine ⟨hC.keep rfl rfl rfl rfl rfl rfl, ?_⟩
    simp only [SSt, hs]; exact hl

/-- What is assumed about nested texts. -/
def RecPost (Q : Prop) (P : Byte → Prop) (rec : Str → Str → Run Str) : Prop :=
  ∀ s e, Src Q P s → e ≠ [] → (∀ c ∈ e, isNl c = true) → Run.Post (Flow (Tg P) P (Raw Q P)) (rec s e)

theorem lines_src (hN : ∀ c, isNl c = true → P c) {e : Str} (he : e ≠ []) (hn : ∀ c ∈ e, isNl c = true) :
    ∀ {ls : List Str}, QL Q P ls → Src Q P (ls.flatMap (· ++ e))
  | [], _ => ⟨(by intro c hc; cases hc), .inr rfl⟩
  | l :: ls, h => by
    have ih := lines_src hN he hn (ls := ls) fun t ht => h t (List.mem_cons_of_mem _ ht)
    have hl := h l (by simp)
    rw [List.flatMap_cons]
    refine ⟨fun c hc => ?_, ?_⟩
    · rcases List.mem_append.1 hc with hc | hc
      · rcases List.mem_append.1 hc with hc | hc
        · exact hl.1 c hc
        · exact hN c (hn c hc)
      · exact ih.chars c hc
    · rw [List.append_assoc]
      rcases hl.2 with h1 | h1
      · exact .inl h1
      · exact ih.cl.imp id (clear_append he hn h1)

theorem blockquoteEnd_post (hN : ∀ c, isNl c = true → P c) (hrec : RecPost Q P rec) (hG : Src Q P src) (hC : Core Q P st)
    (hc : src[st.current]? = some c) (hlast : isLast = true → st.current + 1 = src.length) (hq : QL Q P st.lines)
    (hl : ends c isLast = false → Line Q src st.current) (hp : Prefix st) :
    Run.Post (SPost Q P src) (blockquoteEnd rec st c isLast) := by
  unfold blockquoteEnd
  split
  next he =>
    refine (hrec _ _ (lines_src hN hC.ne hC.le hq) hC.ne hC.le).bind fun t ht => ?_
    refine ⟨hC.add (.quote ht) ?_ rfl rfl rfl hC.first hC.desc, rfl, next_line hG hc hlast he⟩
    simp [List.append_assoc]
  next he => exact ⟨hC.keep rfl rfl rfl rfl rfl rfl, hq, hl (by simpa using he), hp⟩

theorem blockquoteStart_post (hN : ∀ c, isNl c = true → P c) (hrec : RecPost Q P rec) (hG : Src Q P src) (hC : Core Q P st)
    (hc : src[st.current]? = some c) (hlast : isLast = true → st.current + 1 = src.length)
    (hs : st.state = .blockquoteStart) (hq : QL Q P st.lines) (hl : Line Q src st.start2) (hp : Prefix st) :
    Run.Post (SPost Q P src) (blockquoteStart rec src st c isLast) := by
  obtain ⟨p, hp', hpq⟩ := hp
  unfold blockquoteStart
  split
  next he =>
    rw [hp']
    refine (dup_post hG).bind fun t ht => ?_
    show Run.Post _ (if _ then _ else _)
    split
    next hsw =>
      have hq' : QL Q P (st.lines ++ [t.drop p.length]) := by
        intro l h
        rcases List.mem_append.1 h with h | h
        · exact hq l h
        · rw [List.mem_singleton.1 h]
          refine ⟨fun c hc => ht.1 c (List.mem_of_mem_drop hc), (ht.2 hl).imp id fun h => hpq _ ?_⟩
          unfold startsWith at hsw
          split at hsw
          · cases hsw
          · have h' := List.take_append_drop p.length t
            rw [beq_iff_eq.1 hsw] at h'
            rw [h']; exact h
      show Run.Post _ (if _ then _ else _)
      split
      next hla =>
        refine blockquoteEnd_post hN hrec hG ?_ ?_ ?_ ?_ ?_ ?_
        · exact hC.keep rfl rfl rfl rfl rfl rfl
        · exact hc
        · exact hlast
        · exact hq'
        · intro h; simp [ends, hla] at h
        · exact ⟨p, rfl, hpq⟩
      · exact ⟨hC.keep rfl rfl rfl rfl rfl rfl, hq', next_line hG hc hlast he, p, rfl, hpq⟩
    · show Run.Post _ (if _ then _ else _)
      split
      · exact ⟨hC.keep rfl rfl rfl rfl rfl rfl, rfl⟩
      · exact ⟨hC.keep rfl rfl rfl rfl rfl rfl, rfl⟩
  · refine ⟨hC.keep rfl rfl rfl rfl rfl rfl, ?_⟩
    simp only [SSt, hs]; exact ⟨hq, hl, p, hp', hpq⟩

theorem blockquote_post (hC : Core Q P st) (hc : src[st.current]? = some c) (hs : st.state = .blockquote)
    {mid : Bool} (hS : SSt Q P src mid st) : Run.Post (SPost Q P src) (takePrefix src st c .blockquoteStart) := by
  simp only [SSt, hs] at hS
  obtain ⟨h1, h2, h3, h4, h5⟩ := hS
  unfold takePrefix
  split
  next hsp =>
    refine ⟨hC.keep rfl rfl rfl rfl rfl rfl, ?_⟩
    simp only [SSt, hs]
    refine ⟨h1, h2, by omega, h4, .inl ?_⟩
    rw [slice_succ (by omega) hc]
    rcases h5 with h5 | ⟨_, _, d, hd, hn⟩
    · exact h5.blank hsp
    · rw [hc] at hd
      injection hd with hd
      subst hd
      have key : ∀ n : Fin 256, isSp (UInt8.ofFin n) = true → isNl (UInt8.ofFin n) = false := by decide +kernel
      have := key c.toFin hsp
      rw [show UInt8.ofFin c.toFin = c from rfl, hn] at this
      cases this
  · unfold dup
    split
    · trivial
    · rw [if_pos (by omega)]
      refine ⟨hC.keep rfl rfl rfl rfl rfl rfl, ?_, h4, _, rfl, ?_⟩
      rotate_left
      · rcases h5 with h5 | h5
        · exact h5.removable
        · exact h5.2.1
      dsimp only
      rw [h1]; intro l hl; cases hl

theorem takePrefix_post (hC : Core Q P st) {s' : BState} (hl : st.lines = [])
    (hs : st.state = .code ∧ s' = .codeStart ∨ st.state = .ulOrHrOrEm ∧ s' = .ulStart) :
    Run.Post (SPost Q P src) (takePrefix src st c s') := by
  unfold takePrefix
  split
  · refine ⟨hC.keep rfl rfl rfl rfl rfl rfl, ?_⟩
    rcases hs with ⟨hs, _⟩ | ⟨hs, _⟩ <;> simp only [SSt, hs] <;> exact hl
  · refine (Run.Post.any).bind fun p _ => ?_
    refine ⟨hC.keep rfl rfl rfl rfl rfl rfl, ?_⟩
    rcases hs with ⟨_, rfl⟩ | ⟨_, rfl⟩
    · simp only [SSt]; rw [hl]; intro t ht; cases ht
    · simp only [SSt]; rw [hl]; intro t ht; cases ht

theorem startLine_post (hG : Src Q P src) (hC : Core Q P st) (hc : src[st.current]? = some c)
    (hlast : isLast = true → st.current + 1 = src.length) (hs : st.state = .startLine)
    (hl : st.lines = []) (hL : Line Q src st.current) :
    Run.Post (SPost Q P src) (startLine w st c isLast) := by
  unfold startLine
  split
  next he =>
    refine ⟨hC.keep rfl rfl rfl rfl rfl rfl, ?_⟩
    simp only [SSt, hs]; exact ⟨hl, next_line hG hc hlast he⟩
  next he =>
    have hk : ∀ {st' : BSt}, st'.rv = st.rv → st'.endExcerpt = st.endExcerpt → st'.lineEnding = st.lineEnding →
        st'.lines2 = st.lines2 → st'.firstHeader = st.firstHeader → st'.description = st.description → Core Q P st' :=
      fun h1 h2 h3 h4 h5 h6 => hC.keep h1 h2 h3 h4 h5 h6
    have hn : c = c!"<" → Q := by
      rintro rfl
      unfold Line at hL
      rw [drop_cons hc] at hL
      exact hL.elim id fun h => by cases h
    show Run.Post _ (if _ then _ else _)
    split
    · exact ⟨hk rfl rfl rfl rfl rfl rfl, hl, rfl⟩
    split
    · exact ⟨hk rfl rfl rfl rfl rfl rfl, hl⟩
    split
    · exact ⟨hk rfl rfl rfl rfl rfl rfl, hl⟩
    split
    · exact ⟨hk rfl rfl rfl rfl rfl rfl, hl⟩
    split
    · exact ⟨hk rfl rfl rfl rfl rfl rfl, hl⟩
    split
    next h => exact ⟨hk rfl rfl rfl rfl rfl rfl, hl, hn h, by rw [← h]; exact hc⟩
    split
    next h =>
      refine ⟨hk rfl rfl rfl rfl rfl rfl, hl, rfl, Nat.le_succ _, hL, ?_⟩
      dsimp only
      rw [slice_one hc, h]
      exact .inl .one
    · exact ⟨hk rfl rfl rfl rfl rfl rfl, hl⟩

theorem dispatch_post (hN : ∀ c, isNl c = true → P c) (hrec : RecPost Q P rec) (hG : Src Q P src) (hC : Core Q P st)
    {mid : Bool} (hS : SSt Q P src mid st) (hc : src[st.current]? = some c) (hlast : isLast = true → st.current + 1 = src.length) :
    Run.Post (SPost Q P src) (dispatch fx rec src w st c isLast) := by
  have hk : ∀ {st' : BSt}, st'.rv = st.rv → st'.endExcerpt = st.endExcerpt → st'.lineEnding = st.lineEnding →
      st'.lines2 = st.lines2 → st'.firstHeader = st.firstHeader → st'.description = st.description → Core Q P st' :=
    fun h1 h2 h3 h4 h5 h6 => hC.keep h1 h2 h3 h4 h5 h6
  have hS' := hS
  unfold dispatch
  split <;> rename_i h <;> simp only [SSt, h] at hS
  · exact startLine_post hG hC hc hlast h hS.1 hS.2
  · unfold excerpt
    split
    · refine ⟨hk rfl rfl rfl rfl rfl rfl, ?_⟩
      simp only [SSt, h]; exact hS
    split
    · exact ⟨hk rfl rfl rfl rfl rfl rfl, hS⟩
    · exact ⟨hk rfl rfl rfl rfl rfl rfl, hS.1⟩
  · unfold excerptEnd
    split
    next he =>
      refine ⟨⟨hC.rv, ?_, ?_, hC.ne, hC.le, hC.l2, hC.first, hC.desc⟩, hS.1, hG.cl.imp id (clear_line · hc he.2)⟩
      · exact Nat.le_of_eq hS.2
      · dsimp only
        rw [hS.2, List.take_length]; exact hC.rv
    · exact ⟨hk rfl rfl rfl rfl rfl rfl, hS.1⟩
  · unfold header
    split
    · refine ⟨hk rfl rfl rfl rfl rfl rfl, ?_⟩
      simp only [SSt, h]; exact hS
    split
    · exact ⟨hk rfl rfl rfl rfl rfl rfl, hS⟩
    · exact ⟨hk rfl rfl rfl rfl rfl rfl, hS⟩
  · unfold headerTitleStart
    split
    · refine ⟨hk rfl rfl rfl rfl rfl rfl, ?_⟩
      simp only [SSt, h]; exact hS
    split
    · exact ⟨hk rfl rfl rfl rfl rfl rfl, hS⟩
    next hn =>
      refine headerTitle_post hG ?_ ?_ ?_ (.inr ⟨?_, ?_⟩) ?_
      · exact hk rfl rfl rfl rfl rfl rfl
      · exact hc
      · exact hlast
      · exact h
      · simpa using hn
      · exact hS
  · exact headerTitle_post hG hC hc hlast (.inl h) hS
  · unfold html
    have key : ∀ st1 : BSt, Core Q P st1 → st1.current = st.current → st1.start = st.start → st1.lines = [] →
        (st1.state = .html ∨ st1.state = .htmlEnd) →
        Run.Post (SPost Q P src) (if isLast then htmlEnd src st1 c isLast else st1.brk) := by
      intro st1 hC1 e1 e2 l1 s1
      split
      · exact htmlEnd_post hG hC1 (by rw [e1]; exact hc) (by rw [e1]; exact hlast) l1 hS.2.1 (by rw [e2]; exact hS.2.2)
      · refine ⟨hC1.keep rfl rfl rfl rfl rfl rfl, ?_⟩
        rcases s1 with s1 | s1 <;> simp only [SSt, s1] <;> exact ⟨l1, hS.2.1, by rw [e2]; exact hS.2.2⟩
    refine key _ ?_ ?_ ?_ ?_ ?_
    · split
      · exact hk rfl rfl rfl rfl rfl rfl
      · exact hC
    · split <;> rfl
    · split <;> rfl
    · split <;> exact hS.1
    · split
      · exact .inr rfl
      · exact .inl h
  · exact htmlEnd_post hG hC hc hlast hS.1 hS.2.1 hS.2.2
  · exact blockquote_post hC hc h hS'
  · exact blockquoteStart_post hN hrec hG hC hc hlast h hS.1 hS.2.1 hS.2.2
  · exact blockquoteEnd_post hN hrec hG hC hc hlast hS.1 (fun _ => hS.2.1) hS.2.2
  · exact takePrefix_post hC hS (.inl ⟨h, rfl⟩)
  · exact codeStart_post hN hG hC hc hlast h hS
  · exact codeEnd_post hN hG hC hc hlast hS
  · unfold ulOrHrOrEm
    split
    · exact ⟨hk rfl rfl rfl rfl rfl rfl, hS⟩
    split
    · exact ⟨hk rfl rfl rfl rfl rfl rfl, hS⟩
    · exact takePrefix_post hC hS (.inr ⟨h, rfl⟩)
  · unfold hrOrEm
    split
    · split
      · exact ⟨hk rfl rfl rfl rfl rfl rfl, hS⟩
      · exact ⟨hk rfl rfl rfl rfl rfl rfl, hS⟩
    · exact ⟨hk rfl rfl rfl rfl rfl rfl, hS⟩
  · unfold hr
    split
    · refine ⟨hk rfl rfl rfl rfl rfl rfl, ?_⟩
      simp only [SSt, h]; exact hS
    split
    next he => exact ⟨hC.add .rule rfl rfl rfl rfl hC.first hC.desc, hS, next_line hG hc hlast he⟩
    · exact ⟨hk rfl rfl rfl rfl rfl rfl, hS⟩
  · exact ulStart_post hN hG hC hc hlast h hS
  · exact listEnd_post hN hG hC hc hlast hS (.inl ⟨rfl, rfl⟩)
  · unfold ol
    split
    · refine ⟨hk rfl rfl rfl rfl rfl rfl, ?_⟩
      simp only [SSt, h]; exact hS
    split
    · exact ⟨hk rfl rfl rfl rfl rfl rfl, hS⟩
    split
    · exact ⟨hk rfl rfl rfl rfl rfl rfl, hS⟩
    · exact ⟨hk rfl rfl rfl rfl rfl rfl, hS⟩
  · unfold olSpace
    have hl : ∀ t ∈ st.lines, Phrasing (Tg P) P t := by rw [hS]; intro t ht; cases ht
    split
    · refine ⟨hk rfl rfl rfl rfl rfl rfl, ?_⟩
      simp only [SSt, h]; exact hS
    show Run.Post _ (if _ then _ else _)
    split
    · exact ⟨hk rfl rfl rfl rfl rfl rfl, hl⟩
    · refine olStart_post hN hG ?_ ?_ ?_ rfl ?_
      · exact hk rfl rfl rfl rfl rfl rfl
      · exact hc
      · exact hlast
      · exact hl
  · exact olStart_post hN hG hC hc hlast h hS
  · exact listEnd_post hN hG hC hc hlast hS (.inr ⟨rfl, rfl⟩)
  · unfold paragraph
    have key : ∀ st1 : BSt, Core Q P st1 → st1.current = st.current → st1.lines = [] →
        (st1.state = .paragraph ∨ st1.state = .paragraphEnd) →
        Run.Post (SPost Q P src) (if isLast then paragraphEnd src w st1 c isLast else st1.brk) := by
      intro st1 hC1 e1 l1 s1
      split
      · exact paragraphEnd_post hG hC1 (by rw [e1]; exact hc) (by rw [e1]; exact hlast) l1
      · refine ⟨hC1.keep rfl rfl rfl rfl rfl rfl, ?_⟩
        rcases s1 with s1 | s1 <;> simp only [SSt, s1] <;> exact l1
    refine key _ ?_ ?_ ?_ ?_
    · split
      · exact hk rfl rfl rfl rfl rfl rfl
      · exact hC
    · split <;> rfl
    · split <;> exact hS
    · split
      · exact .inr rfl
      · exact .inl h
  · exact paragraphEnd_post hG hC hc hlast hS

/-- The second character of a line ending. -/
theorem SSt.skip (hG : Src Q P src) (hS : SSt Q P src false st) (hc : src[st.current]? = some c) (hn : isNl c = true)
    {c' : Byte} (hc' : src[st.current + 1]? = some c') (hn' : isNl c' = true) (le : Str) (f : Bool) (re : Nat) :
    SSt Q P src true { st with lineEnding := le, lineEndingFound := f, realEnd := re, current := st.current + 1 } := by
  have hL : Line Q src (st.current + 1) := hG.cl.imp id (clear_line · hc hn)
  revert hS
  unfold SSt
  dsimp only
  split
  · exact fun h => ⟨h.1, hL⟩
  · exact id
  · exact id
  · exact id
  · exact id
  · rintro ⟨h1, h2, h3, h4, h5⟩
    refine ⟨h1, h2, by omega, h4, .inr ⟨rfl, ?_, c', hc', hn'⟩⟩
    rw [slice_succ (by omega) hc]
    rcases h5 with h5 | ⟨h5, _⟩
    · exact h5.nl hn
    · cases h5
  · exact id
  · exact fun h => ⟨h.1, hL, h.2.2⟩
  all_goals exact id

theorem Core.found (hC : Core Q P st) {e : Str} (he : e ≠ []) (hn : ∀ c ∈ e, isNl c = true) (f : Bool) (re cur : Nat) :
    Core Q P { st with lineEnding := if st.lineEndingFound then st.lineEnding else e, lineEndingFound := f,
                       realEnd := re, current := cur } := by
  refine ⟨hC.rv, hC.cut, hC.excerpt, ?_, ?_, hC.l2, hC.first, hC.desc⟩
  · dsimp only; split
    · exact hC.ne
    · exact he
  · dsimp only; split
    · exact hC.le
    · exact hn

theorem blockStep_post (hN : ∀ c, isNl c = true → P c) (hrec : RecPost Q P rec) (hG : Src Q P src)
    (hI : Core Q P st ∧ SSt Q P src false st) : Run.Post (SPost Q P src) (blockStep fx rec src w st) := by
  obtain ⟨hC, hS⟩ := hI
  have hlen : ∀ k, (k == src.length - 1) = true → src[k]? ≠ none → k + 1 = src.length := by
    intro k h1 h2
    have h1 := beq_iff_eq.1 h1
    have : k < src.length := by
      rcases Nat.lt_or_ge k src.length with h | h
      · exact h
      · exact absurd (List.getElem?_eq_none h) h2
    omega
  unfold blockStep
  split
  · exact hC
  next c hc =>
    split
    next hn =>
      split
      next c' hc' =>
        split
        next hp =>
          have hn' : isNl c' = true := by
            have : ∀ a b : Byte, isPair a b = true → isNl b = true := by
              intro a b h
              simp only [isPair, Bool.or_eq_true, Bool.and_eq_true, beq_iff_eq] at h
              rcases h with ⟨_, rfl⟩ | ⟨_, rfl⟩ <;> rfl
            exact this c c' hp
          refine dispatch_post hN hrec hG ?_ (hS.skip hG hc hn hc' hn' _ _ _) ?_ ?_
          · exact hC.found (by simp) (by simp [hn, hn']) _ _ _
          · exact hc'
          · intro h; exact hlen _ h (by rw [hc']; simp)
        · refine dispatch_post hN hrec hG (hC.found (e := [c]) (by simp) (by simp [hn]) _ _ _) hS hc ?_
          intro h; cases h
      next hnone =>
        refine dispatch_post hN hrec hG (hC.found (e := [c]) (by simp) (by simp [hn]) _ _ _) hS hc ?_
        intro _
        have h1 := (List.getElem?_eq_some_iff.1 hc).1
        have h2 := List.getElem?_eq_none_iff.1 hnone
        show st.current + 1 = src.length
        omega
    · exact dispatch_post hN hrec hG hC hS hc fun h => hlen _ h (by rw [hc]; simp)

theorem parseBlocks_post (hN : ∀ c, isNl c = true → P c) : ∀ (depth : Nat) (src : Str) (w : Want) (endl : Option Str),
    Src Q P src → (∀ e, endl = some e → e ≠ [] ∧ ∀ c ∈ e, isNl c = true) →
    Run.Post (Core Q P) (parseBlocks fx depth src w endl)
  | 0, _, _, _, _, _ => trivial
  | d + 1, src, w, endl, hG, he => by
    rw [parseBlocks]
    refine runL_post (I := fun st => Core Q P st ∧ SSt Q P src false st) (P := Core Q P) ?_ _ _ ?_
    · intro st hI
      refine blockStep_post hN ?_ hG hI
      intro s e hs h1 h2
      refine (parseBlocks_post hN d s _ (some e) hs ?_).bind fun r hr => hr.rv
      intro e' h
      injection h with h
      subst h
      exact ⟨h1, h2⟩
    · refine ⟨⟨.ends (by intro c hc; cases hc), Nat.le_refl _, .ends (by intro c hc; cases hc), ?_, ?_, ?_, ?_, ?_⟩, rfl, hG.cl⟩
      · cases endl with
        | none => simp [BSt.init]
        | some e => exact (he e rfl).1
      · cases endl with
        | none => intro c hc; simp [BSt.init] at hc; rw [hc]; rfl
        | some e => exact (he e rfl).2
      · intro l h t ht
        simp only [BSt.init] at h
        injection h with h
        subst h
        cases ht
      · intro t h; cases h
      · intro t h; cases h

end Blogc.Content.Mk
