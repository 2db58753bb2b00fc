import Verif.Model.GitShell
import Verif.Spec.GitShell

/-!
# C41: git shell commands round-trip and are restricted
-/

namespace Blogc.C41

open Blogc Blogc.GitShell

/-! ## The parser without indices -/

/-- The states after the command name, with the text collected so far. -/
inductive Q where
  | outer | opening | inner (acc : Str) | esc
  deriving Repr, DecidableEq

/-- The decoder of the quoted path. -/
def dec : Str → Q → Str → Option Str
  | [], _, rv => if rv.length > 0 then some rv else none
  | c :: r, .outer, rv =>
    if c = c!"'" then dec r .opening rv else if c = c!"\\" then dec r .esc rv else none
  | c :: r, .opening, rv =>
    if c = c!"'" then dec r .outer rv
    else if rv.length = 0 ∧ c = c!"/" then dec r (.inner []) rv
    else dec r (.inner [c]) rv
  | c :: r, .esc, rv => if c = c!"!" ∨ c = c!"'" then dec r .outer (rv ++ [c]) else none
  | c :: r, .inner acc, rv =>
    if c = c!"'" then dec r .outer (rv ++ acc) else dec r (.inner (acc ++ [c])) rv

/-- The indexed state agrees with the collected text. -/
def Agree (command : Str) (current start : Nat) : St → Q → Prop
  | .startRepo, .outer => True
  | .startRepo2, .opening => True
  | .startEscaped, .esc => True
  | .repo, .inner acc => start ≤ current ∧ slice command start current = acc
  | _, _ => False

theorem slice_snoc {command pre rest : Str} {c : Byte} {start : Nat}
    (h : command = pre ++ c :: rest) (hs : start ≤ pre.length) :
    slice command start (pre.length + 1) = slice command start pre.length ++ [c] := by
  subst h
  unfold slice
  rw [List.drop_append_of_le_length hs]
  have e : pre.length + 1 - start = (pre.drop start).length + 1 := by
    simp only [List.length_drop]; omega
  have e' : pre.length - start = (pre.drop start).length := by simp
  rw [e, e', List.take_append, List.take_append]
  simp

theorem loop_eq_dec (command : Str) : ∀ (rest pre : Str) (st : St) (q : Q) (start : Nat) (rv : Str),
    command = pre ++ rest → Agree command pre.length start st q →
    loop command rest pre.length st start rv = dec rest q rv := by
  intro rest
  induction rest with
  | nil => intro pre st q start rv _ _; simp [loop, dec]
  | cons c rest ih =>
    intro pre st q start rv h ha
    have h' : command = (pre ++ [c]) ++ rest := by simp [h]
    have hl : pre.length + 1 = (pre ++ [c]).length := by simp
    cases st <;> cases q <;> simp only [Agree] at ha
    · rw [loop, dec, hl]
      by_cases h1 : c = c!"'"
      · rw [if_pos h1, if_pos h1]; exact ih _ _ _ _ _ h' trivial
      · rw [if_neg h1, if_neg h1]
        by_cases h2 : c = c!"\\"
        · rw [if_pos h2, if_pos h2]; exact ih _ _ _ _ _ h' trivial
        · rw [if_neg h2, if_neg h2]
    · rw [loop, dec]
      by_cases h1 : c = c!"'"
      · rw [if_pos h1, if_pos h1, hl]; exact ih _ _ _ _ _ h' trivial
      · rw [if_neg h1, if_neg h1]
        by_cases h2 : rv.length = 0 ∧ c = c!"/"
        · rw [if_pos h2, if_pos h2, hl]
          exact ih _ _ _ _ _ h' ⟨by omega, by simp [slice]⟩
        · rw [if_neg h2, if_neg h2, hl]
          refine ih _ _ _ _ _ h' ⟨by simp, ?_⟩
          rw [← hl, slice_snoc h (by omega)]
          simp [slice]
    · rename_i acc
      rw [loop, dec]
      by_cases h1 : c = c!"'"
      · rw [if_pos h1, if_pos h1, hl, ha.2]; exact ih _ _ _ _ _ h' trivial
      · rw [if_neg h1, if_neg h1, hl]
        refine ih _ _ _ _ _ h' ⟨by simp; omega, ?_⟩
        rw [← hl, slice_snoc h ha.1, ha.2]
    · rw [loop, dec]
      by_cases h1 : c = c!"!" ∨ c = c!"'"
      · rw [if_pos h1, if_pos h1, hl]; exact ih _ _ _ _ _ h' trivial
      · rw [if_neg h1, if_neg h1]

theorem knownAt_iff (name rest : Str) :
    knownAt (name ++ c!" " :: rest) name.length = true ↔ name ∈ commands := by
  have ht : ∀ n, n = name.length → (name ++ c!" " :: rest).take n = name := by
    intro n hn; subst hn; simp
  simp only [knownAt, commands, Bool.or_eq_true, Bool.and_eq_true, beq_iff_eq, List.mem_cons,
    List.not_mem_nil, or_false]
  constructor
  · rintro ((⟨h1, h2⟩ | ⟨h1, h2⟩) | ⟨h1, h2⟩)
    · left; rw [← h2, ht _ h1.symm]
    · right; left; rw [← h2, ht _ h1.symm]
    · right; right; rw [← h2, ht _ h1.symm]
  · rintro (h | h | h) <;> subst h
    · left; left; exact ⟨rfl, rfl⟩
    · left; right; exact ⟨rfl, rfl⟩
    · right; exact ⟨rfl, rfl⟩

/-- Reading the command name. -/
theorem loop_name (command : Str) : ∀ (rest pre : Str),
    command = pre ++ rest → c!" " ∉ pre →
    loop command rest pre.length .startCommand 0 [] =
      if c!" " ∈ rest ∧ command.takeWhile (· != c!" ") ∈ commands then
        dec (command.drop ((command.takeWhile (· != c!" ")).length + 1)) .outer []
      else none := by
  intro rest
  induction rest with
  | nil => intro pre h hp; simp [loop]
  | cons c rest ih =>
    intro pre h hp
    rw [loop]
    by_cases hc : c = c!" "
    · subst hc
      have htw : command.takeWhile (· != c!" ") = pre := by
        rw [h, List.takeWhile_append_of_pos]
        · simp
        · intro x hx; simp only [bne_iff_ne, ne_eq]; intro e; exact hp (e ▸ hx)
      have hk := knownAt_iff pre rest
      rw [← h] at hk
      rw [if_pos rfl, htw]
      by_cases hm : pre ∈ commands
      · rw [if_pos (hk.2 hm), if_pos ⟨by simp, hm⟩]
        have hl : pre.length + 1 = (pre ++ [c!" "]).length := by simp
        have h' : command = (pre ++ [c!" "]) ++ rest := by simp [h]
        have hd : command.drop (pre.length + 1) = rest := by rw [h', hl, List.drop_left]
        rw [hd, hl]
        exact loop_eq_dec command rest _ _ _ _ _ h' trivial
      · rw [if_neg (fun e => hm (hk.1 e)), if_neg (fun e => hm e.2)]
    · rw [if_neg hc]
      have hl : pre.length + 1 = (pre ++ [c]).length := by simp
      rw [hl, ih (pre ++ [c]) (by simp [h])]
      · simp [Ne.symm hc]
      · simp only [List.mem_append, List.mem_singleton, not_or]
        exact ⟨hp, fun e => hc e.symm⟩

/-- A command is a name, a space, and a text that the path decoder accepts. -/
theorem parse_iff (c p : Str) :
    parse c = some p ↔ ∃ name ∈ commands, ∃ t, c = name ++ c!" " :: t ∧ dec t .outer [] = some p := by
  unfold parse
  have hl := loop_name c c [] rfl (by simp)
  rw [List.length_nil] at hl
  rw [hl]
  constructor
  · intro h
    split at h
    · rename_i hc
      refine ⟨_, hc.2, _, ?_, h⟩
      have hsplit : c = c.takeWhile (· != c!" ") ++ c.dropWhile (· != c!" ") :=
        (List.takeWhile_append_dropWhile ..).symm
      have hne : c.dropWhile (· != c!" ") ≠ [] := by
        intro e
        rw [e, List.append_nil] at hsplit
        have := hc.1
        rw [hsplit] at this
        have := List.all_eq_true.1 (List.all_takeWhile (p := (· != c!" ")) (l := c)) _ this
        simp at this
      obtain ⟨d, r, hdr⟩ := List.exists_cons_of_ne_nil hne
      have hd : d = c!" " := by
        have := List.head_dropWhile_not (p := (· != c!" ")) (l := c) hne
        simpa [hdr] using this
      rw [hdr, hd] at hsplit
      conv => lhs; rw [hsplit]
      congr 2
      conv => rhs; rhs; rw [hsplit]
      rw [List.drop_append]
      simp
    · exact absurd h (by simp)
  · rintro ⟨name, hn, t, rfl, ht⟩
    have hsp : c!" " ∉ name := by
      simp only [commands, List.mem_cons, List.not_mem_nil, or_false] at hn
      rcases hn with rfl | rfl | rfl <;> decide
    have htw : (name ++ c!" " :: t).takeWhile (· != c!" ") = name := by
      rw [List.takeWhile_append_of_pos]
      · simp
      · intro x hx; simp only [bne_iff_ne, ne_eq]; intro e; exact hsp (e ▸ hx)
    rw [htw, if_pos ⟨by simp, hn⟩]
    have hd : (name ++ c!" " :: t).drop (name.length + 1) = t := by
      rw [List.drop_append]; simp
    rw [hd]; exact ht

/-! ## Decoding -/

/-- The text left over at the end of the command. -/
def Cut (t : Str) : Prop := t = [] ∨ t = b!"\\" ∨ ∃ s, c!"'" ∉ s ∧ t = c!"'" :: s

/-- What the decoder collects from the pieces. -/
def collect : List Seg → Str → Str
  | [], rv => rv
  | .quoted s :: r, rv => collect r (rv ++ if rv = [] then dropSlash s else s)
  | .escaped c :: r, rv => collect r (rv ++ [c])

theorem dec_inner (s : Str) (hs : c!"'" ∉ s) (acc rv r : Str) :
    dec (s ++ c!"'" :: r) (.inner acc) rv = dec r .outer (rv ++ (acc ++ s)) := by
  induction s generalizing acc with
  | nil => simp [dec]
  | cons c s ih =>
    have hc : c ≠ c!"'" := fun e => hs (by simp [e])
    have hs' : c!"'" ∉ s := fun e => hs (by simp [e])
    rw [List.cons_append, dec, if_neg hc, ih hs']
    simp

theorem dec_quoted (s : Str) (hs : c!"'" ∉ s) (rv r : Str) :
    dec (c!"'" :: s ++ c!"'" :: r) .outer rv
      = dec r .outer (rv ++ if rv = [] then dropSlash s else s) := by
  rw [List.cons_append, dec, if_pos rfl]
  cases s with
  | nil => simp [dec, dropSlash]
  | cons c s =>
    have hc : c ≠ c!"'" := fun e => hs (by simp [e])
    have hs' : c!"'" ∉ s := fun e => hs (by simp [e])
    rw [List.cons_append, dec, if_neg hc]
    by_cases hr : rv = []
    · subst hr
      by_cases h : c = c!"/"
      · rw [if_pos ⟨rfl, h⟩, dec_inner s hs']; simp [dropSlash, h]
      · rw [if_neg (fun e => h e.2), dec_inner s hs']; simp [dropSlash, h]
    · have : rv.length ≠ 0 := by simpa using hr
      rw [if_neg (fun e => this e.1), dec_inner s hs', if_neg hr]
      simp

theorem dec_segs (segs : List Seg) (h : ∀ s ∈ segs, s.Ok) (rv t : Str) :
    dec (segs.flatMap Seg.text ++ t) .outer rv = dec t .outer (collect segs rv) := by
  induction segs generalizing rv with
  | nil => rfl
  | cons sg segs ih =>
    have h' : ∀ s ∈ segs, s.Ok := fun s hs => h s (by simp [hs])
    have h0 : sg.Ok := h sg (by simp)
    cases sg with
    | quoted s =>
      have : (Seg.quoted s :: segs).flatMap Seg.text ++ t
          = c!"'" :: s ++ c!"'" :: (segs.flatMap Seg.text ++ t) := by
        simp [Seg.text]
      rw [this, dec_quoted s h0, ih h', collect]
    | escaped c =>
      have : (Seg.escaped c :: segs).flatMap Seg.text ++ t
          = c!"\\" :: c :: (segs.flatMap Seg.text ++ t) := by
        simp [Seg.text]
      have h0' : c = c!"!" ∨ c = c!"'" := h0
      rw [this, dec, if_neg (by decide), if_pos rfl, dec, if_pos h0', ih h', collect]

theorem dec_cut (t : Str) (ht : Cut t) (rv : Str) :
    dec t .outer rv = if rv.length > 0 then some rv else none := by
  have inner : ∀ (s acc : Str), c!"'" ∉ s →
      dec s (.inner acc) rv = if rv.length > 0 then some rv else none := by
    intro s
    induction s with
    | nil => intro acc _; rfl
    | cons c s ih =>
      intro acc hs
      have hc : c ≠ c!"'" := fun e => hs (by simp [e])
      rw [dec, if_neg hc]
      exact ih _ (fun e => hs (by simp [e]))
  rcases ht with rfl | rfl | ⟨s, hs, rfl⟩
  · rfl
  · rfl
  · rw [dec, if_pos rfl]
    cases s with
    | nil => rfl
    | cons c s =>
      have hc : c ≠ c!"'" := fun e => hs (by simp [e])
      have hs' : c!"'" ∉ s := fun e => hs (by simp [e])
      rw [dec, if_neg hc]
      split <;> exact inner _ _ hs'

/-- Every accepted text is pieces followed by an unfinished piece. -/
theorem dec_sound : ∀ (n : Nat) (t rv p : Str), t.length ≤ n → dec t .outer rv = some p →
    ∃ (segs : List Seg) (cut : Str), (∀ s ∈ segs, s.Ok) ∧ Cut cut ∧ t = segs.flatMap Seg.text ++ cut := by
  intro n
  induction n with
  | zero =>
    intro t rv p hl _
    have : t = [] := by simpa using hl
    exact ⟨[], [], by simp, .inl rfl, by simp [this]⟩
  | succ n ih =>
    intro t rv p hl h
    cases t with
    | nil => exact ⟨[], [], by simp, .inl rfl, rfl⟩
    | cons c r =>
      by_cases hq : c = c!"'"
      · subst hq
        by_cases hm : c!"'" ∈ r
        · obtain ⟨s, r', rfl, hs⟩ := List.eq_append_cons_of_mem hm
          rw [← List.cons_append, dec_quoted s hs] at h
          obtain ⟨segs, cut, h1, h2, h3⟩ := ih r' _ p (by simp at hl; omega) h
          refine ⟨.quoted s :: segs, cut, ?_, h2, ?_⟩
          · intro x hx
            rcases List.mem_cons.1 hx with rfl | hx
            · exact hs
            · exact h1 x hx
          · simp [Seg.text, h3]
        · exact ⟨[], c!"'" :: r, by simp, .inr (.inr ⟨r, hm, rfl⟩), rfl⟩
      · by_cases he : c = c!"\\"
        · subst he
          rw [dec, if_neg hq, if_pos rfl] at h
          cases r with
          | nil => exact ⟨[], b!"\\", by simp, .inr (.inl rfl), rfl⟩
          | cons d r =>
            rw [dec] at h
            split at h
            · rename_i hd
              obtain ⟨segs, cut, h1, h2, h3⟩ := ih r _ p (by simp at hl; omega) h
              refine ⟨.escaped d :: segs, cut, ?_, h2, ?_⟩
              · intro x hx
                rcases List.mem_cons.1 hx with rfl | hx
                · exact hd
                · exact h1 x hx
              · simp [Seg.text, h3]
            · exact absurd h (by simp)
        · rw [dec, if_neg hq, if_neg he] at h
          exact absurd h (by simp)

/-- Exactly which commands are accepted, and what they decode to: a known
command, one space, pieces of quoted text, and possibly an unfinished piece
whose text is ignored. -/
theorem accepted_iff (c p : Str) :
    parse c = some p ↔ ∃ name ∈ commands, ∃ (segs : List Seg) (cut : Str),
      (∀ s ∈ segs, s.Ok) ∧ Cut cut ∧ c = name ++ b!" " ++ segs.flatMap Seg.text ++ cut ∧
      p = collect segs [] ∧ p ≠ [] := by
  rw [parse_iff]
  constructor
  · rintro ⟨name, hn, t, rfl, ht⟩
    obtain ⟨segs, cut, h1, h2, rfl⟩ := dec_sound _ t [] p (Nat.le_refl _) ht
    refine ⟨name, hn, segs, cut, h1, h2, by simp, ?_⟩
    rw [dec_segs segs h1, dec_cut cut h2] at ht
    split at ht
    · rename_i hpos
      simp only [Option.some.injEq] at ht
      subst ht
      exact ⟨rfl, fun e => by simp [e] at hpos⟩
    · exact absurd ht (by simp)
  · rintro ⟨name, hn, segs, cut, h1, h2, rfl, rfl, h3⟩
    refine ⟨name, hn, segs.flatMap Seg.text ++ cut, by simp, ?_⟩
    rw [dec_segs segs h1, dec_cut cut h2, if_pos (List.length_pos_iff.2 h3)]

/-! ## Round trip -/

theorem dec_git (p : Str) : ∀ (acc rv r : Str),
    dec (p.flatMap gitQuoteByte ++ c!"'" :: r) (.inner acc) rv = dec r .outer (rv ++ (acc ++ p)) ∧
    (rv ≠ [] →
      dec (p.flatMap gitQuoteByte ++ c!"'" :: r) .opening rv = dec r .outer (rv ++ p)) := by
  induction p with
  | nil => intro acc rv r; exact ⟨by simp [dec], fun _ => by simp [dec]⟩
  | cons b p ih =>
    intro acc rv r
    by_cases hb : b = c!"'" ∨ b = c!"!"
    · have ht : (b :: p).flatMap gitQuoteByte ++ c!"'" :: r
          = c!"'" :: c!"\\" :: b :: c!"'" :: (p.flatMap gitQuoteByte ++ c!"'" :: r) := by
        simp [gitQuoteByte, hb]
      have hesc : ∀ rv' : Str, dec (c!"\\" :: b :: c!"'" :: (p.flatMap gitQuoteByte ++ c!"'" :: r))
          .outer rv' = dec r .outer (rv' ++ [b] ++ p) := by
        intro rv'
        rw [dec, if_neg (by decide), if_pos rfl, dec, if_pos hb.symm, dec, if_pos rfl]
        exact (ih [] (rv' ++ [b]) r).2 (by simp)
      rw [ht]
      refine ⟨?_, fun _ => ?_⟩
      · rw [dec, if_pos rfl, hesc]; simp
      · rw [dec, if_pos rfl, hesc]; simp
    · have hq : b ≠ c!"'" := fun e => hb (.inl e)
      have ht : (b :: p).flatMap gitQuoteByte ++ c!"'" :: r
          = b :: (p.flatMap gitQuoteByte ++ c!"'" :: r) := by
        simp [gitQuoteByte, hb]
      rw [ht]
      refine ⟨?_, fun hne => ?_⟩
      · rw [dec, if_neg hq, (ih _ _ _).1]; simp
      · have : rv.length ≠ 0 := by simpa using hne
        rw [dec, if_neg hq, if_neg (fun e => this e.1), (ih _ _ _).1]; simp

theorem dec_gitQuote (p : Str) : dec (gitQuote p) .outer [] =
    if dropSlash p = [] then none else some (dropSlash p) := by
  have hend : ∀ q : Str, dec [] .outer q = if q = [] then none else some q := by
    intro q; cases q <;> simp [dec]
  unfold gitQuote
  rw [List.cons_append, dec, if_pos rfl]
  cases p with
  | nil => rfl
  | cons b p =>
    by_cases hb : b = c!"'" ∨ b = c!"!"
    · have ht : (b :: p).flatMap gitQuoteByte ++ [c!"'"]
          = c!"'" :: c!"\\" :: b :: c!"'" :: (p.flatMap gitQuoteByte ++ [c!"'"]) := by
        simp [gitQuoteByte, hb]
      have hs : b ≠ c!"/" := by rintro rfl; exact absurd hb (by decide)
      rw [ht, dec, if_pos rfl, dec, if_neg (by decide), if_pos rfl, dec, if_pos hb.symm, dec,
        if_pos rfl, (dec_git p [] _ _).2 (by simp), hend]
      simp [dropSlash, hs]
    · have hq : b ≠ c!"'" := fun e => hb (.inl e)
      have ht : (b :: p).flatMap gitQuoteByte ++ [c!"'"] = b :: (p.flatMap gitQuoteByte ++ [c!"'"]) := by
        simp [gitQuoteByte, hb]
      rw [ht, dec, if_neg hq]
      by_cases hs : b = c!"/"
      · rw [if_pos ⟨rfl, hs⟩, (dec_git p _ _ _).1, hend]; simp [dropSlash, hs]
      · rw [if_neg (fun e => hs e.2), (dec_git p _ _ _).1, hend]; simp [dropSlash, hs]

/-- A known command with a path quoted as git does decodes to the path without
one leading slash; the empty path and `/` are refused. -/
theorem roundtrip (name : Str) (hn : name ∈ commands) (p : Str) :
    parse (name ++ b!" " ++ gitQuote p) =
      if dropSlash p = [] then none else some (dropSlash p) := by
  rw [← dec_gitQuote]
  apply Option.ext
  intro q
  rw [parse_iff]
  constructor
  · rintro ⟨name', hn', t, he, ht⟩
    have hsp : ∀ x ∈ commands, x.takeWhile (· != c!" ") = x := by decide
    have h1 : ∀ (x t' : Str), x ∈ commands → (x ++ c!" " :: t').takeWhile (· != c!" ") = x := by
      intro x t' hx
      rw [List.takeWhile_append, if_pos (by rw [hsp x hx])]
      simp
    rw [List.append_assoc, List.singleton_append] at he
    have h2 := h1 name (gitQuote p) hn
    rw [he, h1 name' t hn'] at h2
    subst h2
    simp only [List.append_cancel_left_eq, List.cons.injEq, true_and] at he
    rw [he]; exact ht
  · intro h
    exact ⟨name, hn, gitQuote p, by simp, h⟩

/-- Every accepted command whose text does not stop inside a piece is a known
command followed by a quoted path. Missing: commands that stop inside a piece
(`unterminated_violated`). -/
theorem restricted_partial (c p : Str) (h : parse c = some p) :
    ∃ name ∈ commands, ∃ t cut, c = name ++ b!" " ++ t ++ cut ∧ (∃ q, IsQuoted t q) ∧
      (cut = [] ∨ cut = b!"\\" ∨ ∃ s, c!"'" ∉ s ∧ cut = c!"'" :: s) := by
  obtain ⟨name, hn, segs, cut, h1, h2, rfl, rfl, h3⟩ := (accepted_iff c p).1 h
  refine ⟨name, hn, _, cut, rfl, ⟨_, segs, h1, ?_, rfl, rfl⟩, h2⟩
  rintro rfl
  exact h3 rfl

/-- A command that stops inside a piece is accepted. -/
theorem unterminated_violated : ∃ c p, parse c = some p ∧
    ¬ ∃ name ∈ commands, ∃ t q, c = name ++ b!" " ++ t ∧ IsQuoted t q := by
  refine ⟨b!"git-upload-pack 'a'\\", b!"a", by decide, ?_⟩
  rintro ⟨name, -, t, q, hc, segs, h1, h2, rfl, -⟩
  obtain ⟨l, sg, rfl⟩ : ∃ l sg, segs = l ++ [sg] :=
    ⟨_, _, (List.dropLast_concat_getLast h2).symm⟩
  cases sg with
  | quoted s =>
    have e : name ++ b!" " ++ (l ++ [Seg.quoted s]).flatMap Seg.text
        = (name ++ b!" " ++ l.flatMap Seg.text ++ c!"'" :: s) ++ [c!"'"] := by simp [Seg.text]
    rw [e] at hc
    have h3 := congrArg List.getLast? hc
    rw [List.getLast?_concat] at h3
    exact absurd h3 (by decide)
  | escaped c =>
    have h0 : c = c!"!" ∨ c = c!"'" := h1 (.escaped c) (by simp)
    have e : name ++ b!" " ++ (l ++ [Seg.escaped c]).flatMap Seg.text
        = (name ++ b!" " ++ l.flatMap Seg.text ++ b!"\\") ++ [c] := by simp [Seg.text]
    rw [e] at hc
    have h3 := congrArg List.getLast? hc
    rw [List.getLast?_concat] at h3
    rcases h0 with rfl | rfl <;> exact absurd h3 (by decide)

example : parse b!"git-receive-pack '/my'\\''blog.git'" = some b!"my'blog.git" := by decide
example : parse (b!"git-upload-pack" ++ b!" " ++ gitQuote b!"/a!b.git") = some b!"a!b.git" := by decide
example : parse b!"git-receive-pack" = none := by decide
example : parse b!"rm -rf 'x'" = none := by decide
example : parse b!"git-receive-pack 'a' 'b'" = none := by decide

end Blogc.C41
