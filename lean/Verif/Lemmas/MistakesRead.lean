import Verif.Lemmas.Mistakes

/-!
# Reading a template up to a mistake
-/

namespace Blogc.Template

open Blogc Blogc.Doc Blogc.Tokens Blogc.Spec.Mistakes

/-- The last block node is the one of the current block. -/
def Named (p : Place) (ast : List Node) : Prop := ∀ k, p.block = some k → blockName ast = k

theorem blockName_cons {n : Node} {ast : List Node} (h : n.type ≠ .block) : blockName (n :: ast) = blockName ast := by
  simp [blockName, List.find?, h]

theorem blockName_trim (ast : List Node) : blockName (trimPrevious ast) = blockName ast := by
  cases ast with
  | nil => rfl
  | cons n ns =>
    rw [trimPrevious]
    split
    · rename_i h
      rw [blockName_cons (by simp [h]), blockName_cons (by simp [h])]
    · rfl

theorem blockName_flush (s : Str) (ls : Bool) (ast : List Node) : blockName (flush s ls ast) = blockName ast := by
  rw [flush]
  split
  · rfl
  · exact blockName_cons (by simp)

/-- The nodes after the opening bracket of a statement. -/
def astAt (l : Bool) (s : Str) (ls : Bool) (ast : List Node) : List Node :=
  if l then trimPrevious (flush s ls ast) else flush s ls ast

theorem blockName_astAt (l : Bool) (s : Str) (ls : Bool) (ast : List Node) : blockName (astAt l s ls ast) = blockName ast := by
  rw [astAt]
  split
  · rw [blockName_trim, blockName_flush]
  · exact blockName_flush s ls ast

theorem block_none {p : Place} (h : p.inBlock = false) : p.block = none := by
  simp only [Place.inBlock, List.any_eq_false] at h
  simp only [Place.block, List.findSome?_eq_none_iff]
  intro x hx
  have := h x hx
  cases x with
  | block k => simp at this
  | cond e => rfl
  | loop => rfl

theorem Named.next {p p' : Place} {br : Br} {ast ast' : List Node} {s : Stmt} (h : Named p ast) (ha : Agrees p br)
    (he : blockName ast' = blockName ast) (hf : follow p s = some p') : Named p' (s.node :: ast') := by
  obtain ⟨o, el⟩ := p
  cases s with
  | block a k b =>
    simp only [follow] at hf
    split at hf
    · cases hf
    · injection hf with hf; subst hf
      intro k' hk
      simp only [Place.block, List.findSome?_cons, Option.some.injEq] at hk
      subst hk
      rfl
  | endblock a =>
    obtain ⟨br', hb, ha'⟩ := ha.next hf
    have : br'.blockOpen = false := by
      simp only [Stmt.node, mark, brNext] at hb
      split at hb
      · injection hb with hb; rw [← hb]
      · cases hb
    rw [ha'.block] at this
    intro k hk
    rw [block_none this] at hk; cases hk
  | ifdef | ifndef | if_ =>
    simp only [follow, Option.some.injEq] at hf; subst hf
    intro k hk
    rw [blockName_cons (by simp [Stmt.node, Cond.node]), he]
    exact h k hk
  | else_ a | endif a | endforeach a =>
    simp only [follow] at hf
    split at hf
    · injection hf with hf; subst hf
      intro k hk
      rw [blockName_cons (by simp [Stmt.node, mark]), he]
      exact h k hk
    · cases hf
  | foreach a n b =>
    simp only [follow] at hf
    split at hf
    · cases hf
    · injection hf with hf; subst hf
      intro k hk
      rw [blockName_cons (by simp [Stmt.node]), he]
      exact h k hk

/-- Reading items that are fine, up to what follows them. -/
theorem read_prefix {src tail : Str} {p' : Place} (ts : List Tok) :
    ∀ (pre s : Str) (stop : Nat) (p : Place) (br : Br) (ast : List Node) (ls : Bool), src = pre ++ s ++ print ts ++ tail →
      NulFree s → Fine ts → (s ≠ [] → ∀ s', ts.head? ≠ some (.text s')) →
      (tail ≠ [] ∨ ∀ s', ts.getLast? ≠ some (.text s')) →
      after p ts = some p' → Agrees p br → Named p ast →
      ∃ pre' s' stop' br' ast' ls', src = pre' ++ s' ++ tail ∧ NulFree s' ∧ Agrees p' br' ∧ Named p' ast' ∧
        ((s = [] ∨ ts ≠ []) → (∀ s'', ts.getLast? ≠ some (.text s'')) → s' = []) ∧
        runAt src (pre.length + s.length) (between pre.length stop br ast ls) =
          runAt src (pre'.length + s'.length) (between pre'.length stop' br' ast' ls') := by
  induction ts with
  | nil =>
    intro pre s stop p br ast ls hsrc hn _ _ _ hp ha hnm
    injection hp with hp; subst hp
    exact ⟨pre, s, stop, br, ast, ls, by rw [hsrc]; simp [print], hn, ha, hnm,
      fun h _ => h.elim id (fun h => absurd rfl h), rfl⟩
  | cons t ts ih =>
    intro pre s stop p br ast ls hsrc hn hf hs ht hp ha hnm
    have ht' : tail ≠ [] ∨ ∀ s', ts.getLast? ≠ some (.text s') := by
      refine ht.imp id fun h s' => ?_
      cases ts with
      | nil => simp
      | cons t' ts => simpa [List.getLast?_cons_cons] using h s'
    have hlast : ∀ (s' : Str), (∀ s'', t ≠ .text s'') → (∀ s'', (t :: ts).getLast? ≠ some (.text s'')) →
        (∀ s'', ts.getLast? ≠ some (.text s'')) := by
      intro _ _ h s'
      cases ts with
      | nil => simp
      | cons t' ts => simpa [List.getLast?_cons_cons] using h s'
    cases t with
    | text s1 =>
      have hs0 : s = [] := by
        cases s with
        | nil => rfl
        | cons c s => exact absurd rfl (hs (by simp) s1)
      subst hs0
      obtain ⟨hok, hl, hh, hf'⟩ := hf
      have hd : src.drop pre.length = s1 ++ (print ts ++ tail) := by rw [hsrc]; simp [print, Tok.print]
      have hne : print ts ++ tail ≠ [] := by
        cases ts with
        | nil =>
          rcases ht with h | h
          · simpa [print] using h
          · exact absurd rfl (h s1)
        | cons t ts =>
          cases t with
          | text s2 => exact absurd rfl (hh s2)
          | var => simp [print, Tok.print]
          | stmt => simp [print, Tok.print]
      obtain ⟨stop', e⟩ := text_stays (st := between pre.length stop br ast ls) rfl hd hne hok.2.2.1 hok.2.2.2 hl
      rw [List.length_nil, Nat.add_zero, e]
      obtain ⟨pre', s', stop'', br', ast', ls', h1, h2, h3, h4, h5, h6⟩ := ih pre s1 stop' p br ast ls
        (by rw [hsrc]; simp [print, Tok.print]) hok.2.1 hf' (fun _ => hh) ht' hp ha hnm
      refine ⟨pre', s', stop'', br', ast', ls', h1, h2, h3, h4, fun _ h => ?_, h6⟩
      cases ts with
      | nil => exact absurd rfl (h s1)
      | cons t' ts =>
        exact h5 (Or.inr (by simp)) fun s'' => by simpa [List.getLast?_cons_cons] using h s''
    | var a n b =>
      obtain ⟨h1, h2, h3, hf'⟩ := hf
      have hd : src.drop pre.length = s ++ (Tok.var a n b).print ++ (print ts ++ tail) := by rw [hsrc]; simp [print]
      obtain ⟨stop', e⟩ := var_item (stop := stop) (br := br) (ast := ast) (ls := ls) hd hn h1 h2 h3
      obtain ⟨pre', s', stop'', br', ast', ls', g1, g2, g3, g4, g5, g6⟩ :=
        ih (pre ++ s ++ (Tok.var a n b).print) [] stop' p br
        (⟨.variable, .none, some n, none⟩ :: flush s ls ast) (flushed s ls) (by rw [hsrc]; simp [print])
        (fun _ h => nomatch h) hf' (fun h => absurd rfl h) ht' hp ha
        (fun k hk => by rw [blockName_cons (by simp), blockName_flush]; exact hnm k hk)
      refine ⟨pre', s', stop'', br', ast', ls', g1, g2, g3, g4, fun _ h => g5 (Or.inl rfl) (hlast [] (by simp) h), ?_⟩
      rw [e, show pre.length + s.length + (Tok.var a n b).print.length = (pre ++ s ++ (Tok.var a n b).print).length by
        simp [Nat.add_assoc]]
      rw [List.length_nil, Nat.add_zero] at g6
      exact g6
    | stmt l a t r =>
      obtain ⟨h1, h2, hf'⟩ := hf
      have hd : src.drop pre.length = s ++ (Tok.stmt l a t r).print ++ (print ts ++ tail) := by rw [hsrc]; simp [print]
      simp only [after] at hp
      cases hfo : follow p t with
      | none => rw [hfo] at hp; cases hp
      | some p1 =>
        rw [hfo, Option.bind_some] at hp
        obtain ⟨br1, hb, ha'⟩ := ha.next hfo
        obtain ⟨stop', e⟩ := stmt_item (stop := stop) (br := br) (ast := ast) (ls := ls) hd hn h1 h2 hb
        obtain ⟨pre', s', stop'', br', ast', ls', g1, g2, g3, g4, g5, g6⟩ :=
          ih (pre ++ s ++ (Tok.stmt l a t r).print) [] stop' p1 br1 (t.node :: astAt l s ls ast) (flushed s ls || r)
          (by rw [hsrc]; simp [print]) (fun _ h => nomatch h) hf' (fun h => absurd rfl h) ht' hp ha'
          (hnm.next ha (blockName_astAt l s ls ast) hfo)
        refine ⟨pre', s', stop'', br', ast', ls', g1, g2, g3, g4, fun _ h => g5 (Or.inl rfl) (hlast [] (by simp) h), ?_⟩
        rw [e, show pre.length + s.length + (Tok.stmt l a t r).print.length =
          (pre ++ s ++ (Tok.stmt l a t r).print).length by simp [Nat.add_assoc]]
        rw [List.length_nil, Nat.add_zero] at g6
        exact g6

end Blogc.Template
