import Verif.Lemmas.RenderSim
import Verif.Lemmas.RenderSafe
import Verif.Spec.NoLeak

/-!
# Where no entry leaks, `Leaky.sem` is the documented meaning
-/

namespace Blogc.Render

open Blogc Blogc.Template Blogc.Doc

variable {G L : Type}

theorem seq_map {S S' : Type} {a : Res (Str × S)} {f : S → Res (Str × S)} {f' : S' → Res (Str × S')}
    (g : S → S') (h : ∀ s, f' (g s) = (f s).map fun (o, s) => (o, g s)) :
    seq (a.map fun (o, s) => (o, g s)) f' = (seq a f).map fun (o, s) => (o, g s) := by
  cases a with
  | ub => rfl
  | ok p =>
    obtain ⟨o, s⟩ := p
    simp only [seq, Res.map, Res.bind, h]
    cases f s <;> rfl

theorem each_map {S S' α : Type} {f : α → S → Res (Str × S)} {f' : α → S' → Res (Str × S')}
    (g : S → S') (l : List α) (h : ∀ a ∈ l, ∀ s, f' a (g s) = (f a s).map fun (o, s) => (o, g s)) (s : S) :
    each f' l (g s) = (each f l s).map fun (o, s) => (o, g s) := by
  induction l generalizing s with
  | nil => rfl
  | cons a l ih =>
    rw [each, each, h a (by simp)]
    exact seq_map g (ih fun b hb => h b (List.mem_cons_of_mem _ hb))

/-- Two entries (or none) look the same for a name. -/
def Alike (E : Evaluator G L) (l l' : Option L) (n : Str) : Prop :=
  (∀ g it, E.value g l it n = E.value g l' it n) ∧ ∀ g, E.list g l n = E.list g l' n

theorem value_alike {E : Evaluator G L} {l l' : Option L} {n : Str} (h : Alike E l l' n) (it : Item) (s : Doc.Env G L) :
    Doc.value E l it n s = Doc.value E l' it n s := by
  rw [Doc.value, Doc.value, h.1]

theorem cond_alike {E : Evaluator G L} {l l' : Option L} {c : Cond} (h : ∀ n ∈ c.names, Alike E l l' n) (it : Item)
    (s : Doc.Env G L) : c.value E l it s = c.value E l' it s := by
  cases c with
  | defined n => simp only [Cond.value, value_alike (h n (by simp [Cond.names]))]
  | undefined n => simp only [Cond.value, value_alike (h n (by simp [Cond.names]))]
  | compare n op rhs =>
    simp only [Cond.value]
    rw [value_alike (h n (by cases rhs <;> simp [Cond.names]))]
    congr 1
    funext ⟨a, s⟩
    cases rhs with
    | text t => rfl
    | var m => simp only [Operand.value, value_alike (h m (by simp [Cond.names]))]

/-- Within a block. -/
theorem body_eq {E : Evaluator G L} {ctx : Ctx L} {loc last : Option L} {inside : Bool} {t : T} {f : Bool}
    (hok : Ok true f t)
    (hr : Refs (fun n => Alike E (if inside then last else none) loc n) t) (it : Item) (e : Doc.Env G L) :
    Leaky.sem E ctx t it ⟨e, inside, last⟩ =
      (Doc.sem E ctx t loc it e).map fun (o, e) => (o, (⟨e, inside, last⟩ : Leaky.Env G L)) := by
  induction t generalizing it e f with
  | done => rfl
  | text s rest ih =>
    exact seq_map (a := .ok (s, e)) (fun e => (⟨e, inside, last⟩ : Leaky.Env G L)) fun e => ih hok hr it e
  | var n rest ih =>
    rw [Leaky.sem, Doc.sem, ← seq_map (fun e => (⟨e, inside, last⟩ : Leaky.Env G L)) fun e => ih hok.2 hr.2 it e]
    congr 1
    show (Doc.value E (if inside then last else none) it n e).map _ = _
    rw [value_alike hr.1]
    cases Doc.value E loc it n e <;> rfl
  | cond c yes rest ih1 ih2 =>
    rw [Leaky.sem, Doc.sem, ← seq_map (fun e => (⟨e, inside, last⟩ : Leaky.Env G L)) fun e => ih2 hok.2.2 hr.2.2 it e]
    congr 1
    show (c.value E (if inside then last else none) it e).bind _ = _
    rw [cond_alike hr.1]
    cases c.value E loc it e with
    | ub => rfl
    | ok p =>
      obtain ⟨b, e'⟩ := p
      cases b with
      | true => exact ih1 hok.2.1 hr.2.1 it e'
      | false => rfl
  | condElse c yes no rest ih1 ih2 ih3 =>
    rw [Leaky.sem, Doc.sem,
      ← seq_map (fun e => (⟨e, inside, last⟩ : Leaky.Env G L)) fun e => ih3 hok.2.2.2 hr.2.2.2 it e]
    congr 1
    show (c.value E (if inside then last else none) it e).bind _ = _
    rw [cond_alike hr.1]
    cases c.value E loc it e with
    | ub => rfl
    | ok p =>
      obtain ⟨b, e'⟩ := p
      cases b with
      | true => exact ih1 hok.2.1 hr.2.1 it e'
      | false => exact ih2 hok.2.2.1 hr.2.2.1 it e'
  | foreach n body rest ih1 ih2 =>
    rw [Leaky.sem, Doc.sem, ← seq_map (fun e => (⟨e, inside, last⟩ : Leaky.Env G L)) fun e => ih2 hok.2.2.2 hr.2.2 it e]
    congr 1
    show each _ (E.list e.global (if inside then last else none) n) _ = _
    rw [hr.1.2]
    exact each_map (fun e => (⟨e, inside, last⟩ : Leaky.Env G L)) _ (fun i _ e => ih1 hok.2.2.1 hr.2.1 ⟨some n, some i⟩ e) e
  | block k body rest => exact absurd hok.2.1 (by simp)

theorem refs_all {P : Str → Prop} (h : ∀ n, P n) (t : T) : Refs P t := by
  induction t with
  | done => trivial
  | text s rest ih => exact ih
  | var n rest ih => exact ⟨h n, ih⟩
  | cond c yes rest ih1 ih2 => exact ⟨fun n _ => h n, ih1, ih2⟩
  | condElse c yes no rest ih1 ih2 ih3 => exact ⟨fun n _ => h n, ih1, ih2, ih3⟩
  | foreach n body rest ih1 ih2 => exact ⟨h n, ih1, ih2⟩
  | block k body rest ih1 ih2 => exact ⟨ih1, ih2⟩

theorem refs_mono {P Q : Str → Prop} (h : ∀ n, P n → Q n) {t : T} (ht : Refs P t) : Refs Q t := by
  induction t with
  | done => trivial
  | text s rest ih => exact ih ht
  | var n rest ih => exact ⟨h n ht.1, ih ht.2⟩
  | cond c yes rest ih1 ih2 => exact ⟨fun n hn => h n (ht.1 n hn), ih1 ht.2.1, ih2 ht.2.2⟩
  | condElse c yes no rest ih1 ih2 ih3 =>
    exact ⟨fun n hn => h n (ht.1 n hn), ih1 ht.2.1, ih2 ht.2.2.1, ih3 ht.2.2.2⟩
  | foreach n body rest ih1 ih2 => exact ⟨h n ht.1, ih1 ht.2.1, ih2 ht.2.2⟩
  | block k body rest ih1 ih2 => exact ⟨ih1 ht.1, ih2 ht.2⟩

/-- A property of the state is kept. -/
theorem seq_keep {S : Type} {P : S → Prop} {a : Res (Str × S)} {f : S → Res (Str × S)} {o : Str} {s : S}
    (h : seq a f = .ok (o, s)) (ha : ∀ o s, a = .ok (o, s) → P s)
    (hf : ∀ s, P s → ∀ o s', f s = .ok (o, s') → P s') : P s := by
  obtain ⟨o1, s1, o2, h1, h2, _⟩ := seq_ok h
  exact hf s1 (ha o1 s1 h1) o2 s h2

theorem each_keep {S α : Type} {P : S → Prop} {f : α → S → Res (Str × S)} (l : List α)
    (hf : ∀ a s, P s → ∀ o s', f a s = .ok (o, s') → P s') (s : S) (hs : P s) (o : Str) (s' : S)
    (h : each f l s = .ok (o, s')) : P s' := by
  induction l generalizing s o s' with
  | nil =>
    injection h with h
    injection h with _ h
    exact h ▸ hs
  | cons a l ih =>
    exact seq_keep h (fun o s'' h' => hf a s hs o s'' h') fun s hs o s' h => ih s hs o s' h

theorem value_entries {E : Evaluator G L} {loc : Option L} {it : Item} {n : Str} {s s' : Doc.Env G L} {v : Option Str}
    (h : Doc.value E loc it n s = .ok (v, s')) : s'.entries = s.entries := by
  obtain ⟨⟨g, w⟩, _, h2⟩ := map_ok h
  injection h2 with _ h2
  rw [← h2]

theorem cond_entries {E : Evaluator G L} {loc : Option L} {it : Item} {c : Cond} {s s' : Doc.Env G L} {v : Bool}
    (h : c.value E loc it s = .ok (v, s')) : s'.entries = s.entries := by
  cases c with
  | defined n =>
    obtain ⟨⟨w, s1⟩, h1, h2⟩ := map_ok h
    injection h2 with _ h2
    rw [← h2]; exact value_entries h1
  | undefined n =>
    obtain ⟨⟨w, s1⟩, h1, h2⟩ := map_ok h
    injection h2 with _ h2
    rw [← h2]; exact value_entries h1
  | compare n op rhs =>
    obtain ⟨⟨w, s1⟩, h1, h2⟩ := bind_ok' h
    obtain ⟨⟨w', s2⟩, h3, h4⟩ := map_ok h2
    injection h4 with _ h4
    rw [← h4, ← value_entries h1]
    cases rhs with
    | text t =>
      injection h3 with h3
      injection h3 with _ h3
      rw [h3]
    | var m => exact value_entries h3

theorem scopes_sub (ctx : Ctx L) (k : Str) (es : List (Option L)) : ∀ x ∈ (scopes ctx k es).2, x ∈ es := by
  rw [scopes.eq_def]
  repeat' split
  all_goals simp_all

theorem scopes_mem {ctx : Ctx L} {k : Str} {es : List (Option L)} {l : L} (h : some l ∈ (scopes ctx k es).1) :
    l ∈ ctx.sources ∨ some l ∈ es := by
  rw [scopes.eq_def] at h
  split at h
  · left
    split at h
    · cases h
    · simp only [List.mem_singleton] at h
      exact List.mem_of_mem_head? h.symm
  · split at h
    · left
      split at h
      · simpa using h
      · cases h
    · split at h
      · split at h <;> simp at h
      · split at h
        · split at h <;> simp at h
        · right
          split at h
          · cases h
          · cases h
          · split at h
            · simp only [List.mem_singleton] at h
              simp [h]
            · cases h

theorem scopes_none {ctx : Ctx L} {k : Str} {es : List (Option L)} (hk : k = b!"listing_once" ∨ k = b!"listing_empty")
    {l : Option L} (h : l ∈ (scopes ctx k es).1) : l = none := by
  rcases hk with rfl | rfl
  · rw [scopes.eq_def, if_neg (by decide), if_neg (by decide), if_pos rfl] at h
    split at h <;> simp at h; exact h
  · rw [scopes.eq_def, if_neg (by decide), if_neg (by decide), if_neg (by decide), if_pos rfl] at h
    split at h <;> simp at h; exact h

theorem scopes_used {ctx : Ctx L} {k : Str} {es : List (Option L)} (h : Used ctx k) : (scopes ctx k es).1 ≠ [] := by
  rcases h with ⟨rfl, h⟩ | ⟨rfl, h, h'⟩ | ⟨rfl, h⟩ | ⟨rfl, h, h'⟩
  · rw [scopes.eq_def, if_pos rfl, h]; simp
  · rw [scopes.eq_def, if_neg (by decide), if_pos rfl, h]; simpa using h'
  · rw [scopes.eq_def, if_neg (by decide), if_neg (by decide), if_pos rfl, h]; simp
  · rw [scopes.eq_def, if_neg (by decide), if_neg (by decide), if_neg (by decide), if_pos rfl, h, h']; simp

/-- The entries that remain are among those there were. -/
theorem sem_entries {E : Evaluator G L} {ctx : Ctx L} (all : List (Option L)) (t : T) (loc : Option L) (it : Item)
    (s : Doc.Env G L) (hs : ∀ x ∈ s.entries, x ∈ all) (o : Str) (s' : Doc.Env G L)
    (h : Doc.sem E ctx t loc it s = .ok (o, s')) : ∀ x ∈ s'.entries, x ∈ all := by
  induction t generalizing loc it s o s' with
  | done =>
    injection h with h
    injection h with _ h
    exact h ▸ hs
  | text t rest ih =>
    refine seq_keep (P := fun s => ∀ x ∈ s.entries, x ∈ all) h (fun o s'' h' => ?_) fun s hs o s' h' => ih loc it s hs o s' h'
    injection h' with h'
    injection h' with _ h'
    exact h' ▸ hs
  | var n rest ih =>
    refine seq_keep (P := fun s => ∀ x ∈ s.entries, x ∈ all) h (fun o s'' h' => ?_) fun s hs o s' h' => ih loc it s hs o s' h'
    obtain ⟨⟨v, s1⟩, h1, h2⟩ := map_ok h'
    injection h2 with _ h2
    rw [← h2, value_entries h1]; exact hs
  | cond c yes rest ih1 ih2 =>
    refine seq_keep (P := fun s => ∀ x ∈ s.entries, x ∈ all) h (fun o s'' h' => ?_) fun s hs o s' h' => ih2 loc it s hs o s' h'
    obtain ⟨⟨v, s1⟩, h1, h2⟩ := bind_ok' h'
    have hs1 : ∀ x ∈ s1.entries, x ∈ all := by rw [cond_entries h1]; exact hs
    cases v with
    | true => exact ih1 loc it s1 hs1 _ _ h2
    | false =>
      injection h2 with h2
      injection h2 with _ h2
      exact h2 ▸ hs1
  | condElse c yes no rest ih1 ih2 ih3 =>
    refine seq_keep (P := fun s => ∀ x ∈ s.entries, x ∈ all) h (fun o s'' h' => ?_) fun s hs o s' h' => ih3 loc it s hs o s' h'
    obtain ⟨⟨v, s1⟩, h1, h2⟩ := bind_ok' h'
    have hs1 : ∀ x ∈ s1.entries, x ∈ all := by rw [cond_entries h1]; exact hs
    cases v with
    | true => exact ih1 loc it s1 hs1 _ _ h2
    | false => exact ih2 loc it s1 hs1 _ _ h2
  | foreach n body rest ih1 ih2 =>
    refine seq_keep (P := fun s => ∀ x ∈ s.entries, x ∈ all) h (fun o s'' h' => ?_) fun s hs o s' h' => ih2 loc it s hs o s' h'
    exact each_keep (P := fun s => ∀ x ∈ s.entries, x ∈ all) _ (fun a s hs o s' h => ih1 loc _ s hs o s' h) s hs o s'' h'
  | block k body rest ih1 ih2 =>
    refine seq_keep (P := fun s => ∀ x ∈ s.entries, x ∈ all) h (fun o s'' h' => ?_) fun s hs o s' h' => ih2 loc it s hs o s' h'
    exact each_keep (P := fun s => ∀ x ∈ s.entries, x ∈ all) _ (fun a s hs o s' h => ih1 a it s hs o s' h)
      { s with entries := (scopes ctx k s.entries).2 } (fun x hx => hs x (scopes_sub ctx k s.entries x hx)) o s'' h'

/-- Results with the same text and related states. -/
def Rel {S S' : Type} (R : S → S' → Prop) (x : Res (Str × S)) (y : Res (Str × S')) : Prop :=
  ∀ o s, x = .ok (o, s) → ∃ s', y = .ok (o, s') ∧ R s s'

theorem Rel.seq {S S' : Type} {R Q : S → S' → Prop} {a : Res (Str × S)} {a' : Res (Str × S')} {f : S → Res (Str × S)}
    {f' : S' → Res (Str × S')} (h : Rel R a a') (hf : ∀ s s', R s s' → Rel Q (f s) (f' s')) :
    Rel Q (Doc.seq a f) (Doc.seq a' f') := by
  intro o s hs
  obtain ⟨o1, s1, o2, h1, h2, rfl⟩ := seq_ok hs
  obtain ⟨s1', h3, h4⟩ := h o1 s1 h1
  obtain ⟨s2', h5, h6⟩ := hf s1 s1' h4 o2 s h2
  exact ⟨s2', by simp only [Doc.seq, h3, Res.bind, h5, Res.map], h6⟩

theorem Rel.each {S S' α : Type} {R : S → S' → Prop} {f : α → S → Res (Str × S)} {f' : α → S' → Res (Str × S')}
    (l : List α) (h : ∀ a ∈ l, ∀ s s', R s s' → Rel R (f a s) (f' a s')) (s : S) (s' : S') (hs : R s s') :
    Rel R (Doc.each f l s) (Doc.each f' l s') := by
  induction l generalizing s s' with
  | nil =>
    intro o s1 h1
    injection h1 with h1
    injection h1 with h1 h2
    subst h1 h2
    exact ⟨s', rfl, hs⟩
  | cons a l ih =>
    exact (h a (by simp) s s' hs).seq fun s s' hs => ih (fun b hb => h b (List.mem_cons_of_mem _ hb)) s s' hs

/-- The entry remembered is one of those given. -/
structure Known (ctx : Ctx L) (all : List (Option L)) (e : Doc.Env G L) (s : Leaky.Env G L) : Prop where
  env : s.env = e
  last : ∀ l, s.last = some l → l ∈ ctx.sources ∨ some l ∈ all
  entries : ∀ x ∈ s.env.entries, x ∈ all

/-- The states outside blocks. -/
structure Fits (ctx : Ctx L) (all : List (Option L)) (used : Prop) (seen : Bool) (e : Doc.Env G L)
    (s : Leaky.Env G L) : Prop extends Known ctx all e s where
  outside : used → s.inside = false
  fresh : seen = false → s.last = none

theorem Fits.mono {ctx : Ctx L} {all : List (Option L)} {used : Prop} {a b : Bool} {e : Doc.Env G L}
    {s : Leaky.Env G L} (h : Fits ctx all used a e s) (hab : b = false → a = false) : Fits ctx all used b e s :=
  ⟨h.toKnown, h.outside, fun hb => h.fresh (hab hb)⟩

theorem Rel.mono {S S' : Type} {R Q : S → S' → Prop} {x : Res (Str × S)} {y : Res (Str × S')} (h : Rel R x y)
    (hq : ∀ s s', R s s' → Q s s') : Rel Q x y := fun o s hs =>
  let ⟨s', h1, h2⟩ := h o s hs
  ⟨s', h1, hq s s' h2⟩

theorem loc_alike {E : Evaluator G L} {ctx : Ctx L} {all : List (Option L)} {used : Prop} {seen : Bool}
    {e : Doc.Env G L} {s : Leaky.Env G L} (h : Fits ctx all used seen e s) {n : Str} (hn : used ∨ Neutral E ctx all n) :
    Alike E s.loc none n := by
  rw [Leaky.Env.loc]
  rcases hn with hu | hn
  · rw [h.outside hu]; exact ⟨fun _ _ => rfl, fun _ => rfl⟩
  · split
    · cases hl : s.last with
      | none => exact ⟨fun _ _ => rfl, fun _ => rfl⟩
      | some l => exact hn l (h.last l hl)
    · exact ⟨fun _ _ => rfl, fun _ => rfl⟩

theorem cond_rel {E : Evaluator G L} {ctx : Ctx L} {all : List (Option L)} {used : Prop} {seen : Bool}
    {e : Doc.Env G L} {s : Leaky.Env G L} (h : Fits ctx all used seen e s) {c : Cond}
    (hn : used ∨ ∀ n ∈ c.names, Neutral E ctx all n)
    {it : Item} {b : Bool} {e' : Doc.Env G L} (hc : c.value E none it e = .ok (b, e')) :
    c.value E s.loc it s.env = .ok (b, e') ∧ Fits ctx all used seen e' { s with env := e' } := by
  rw [h.env, cond_alike (l' := none) fun n hn' => loc_alike h (hn.imp id fun x => x n hn')]
  refine ⟨hc, ⟨⟨rfl, h.last, ?_⟩, h.outside, h.fresh⟩⟩
  have := h.entries
  rw [h.env, ← cond_entries hc] at this
  exact this

/-- One use of a block. -/
theorem use_rel {E : Evaluator G L} {ctx : Ctx L} {all : List (Option L)} {used : Prop} {seen : Bool} {k : Str}
    {body : T} {f : Bool} (hok : Ok true f body)
    (hr : Doc.Plain k → seen = false ∨ Refs (Neutral E ctx all) body)
    {es : List (Option L)} (hes : ∀ x ∈ es, x ∈ all) {l : Option L} (hl : l ∈ (scopes ctx k es).1) {it : Item}
    {e : Doc.Env G L} {s : Leaky.Env G L} (h : Known ctx all e s)
    (hfresh : (seen || decide (¬ Doc.Plain k)) = false → s.last = none) :
    Rel (Fits ctx all used (seen || decide (¬ Doc.Plain k))) (Doc.sem E ctx body l it e)
      ((Leaky.sem E ctx body it (s.enter k l)).map fun (o, s) => (o, s.leave)) := by
  obtain ⟨env, inside, last⟩ := s
  obtain ⟨rfl, hlast, hent⟩ := h
  intro o e' he
  have key : ∀ last' : Option L, Refs (fun n => Alike E last' l n) body →
      (∀ l, last' = some l → l ∈ ctx.sources ∨ some l ∈ all) →
      ((seen || decide (¬ Doc.Plain k)) = false → last' = none) →
      ∃ s', (Leaky.sem E ctx body it ⟨env, true, last'⟩).map (fun (o, s) => (o, s.leave)) = .ok (o, s') ∧
        Fits ctx all used (seen || decide (¬ Doc.Plain k)) e' s' := by
    intro last' hrefs hk hfr
    have := body_eq (E := E) (ctx := ctx) (loc := l) (last := last') (inside := true) hok hrefs it env
    rw [he] at this
    refine ⟨⟨e', false, last'⟩, by rw [this]; rfl, ⟨⟨rfl, hk, ?_⟩, fun _ => rfl, hfr⟩⟩
    exact sem_entries all body l it env hent o e' he
  simp only [Leaky.Env.enter]
  by_cases hk : Doc.Plain k
  · rw [if_pos (show _ ∨ _ from hk)]
    refine key last ?_ hlast hfresh
    rw [scopes_none hk hl]
    rcases hr hk with hseen | hr
    · have hl0 : last = none := hfresh (by simp [hseen, hk])
      exact refs_all (fun n => by rw [hl0]; exact ⟨fun _ _ => rfl, fun _ => rfl⟩) body
    · refine refs_mono (fun n hn => ?_) hr
      cases hq : last with
      | none => exact ⟨fun _ _ => rfl, fun _ => rfl⟩
      | some l' => exact hn l' (hlast l' hq)
  · rw [if_neg (show ¬ (_ ∨ _) from hk)]
    refine key l (refs_all (fun n => ⟨fun _ _ => rfl, fun _ => rfl⟩) body) (fun l' hl' => ?_) (by simp [hk])
    rw [hl'] at hl
    exact (scopes_mem hl).imp id (hes _)

/-- Where nothing leaks the renderer does what is documented. -/
theorem doc_rel {E : Evaluator G L} {ctx : Ctx L} {all : List (Option L)} {used : Prop} (t : T) (f seen : Bool)
    (hok : Ok false f t) (hn : NoLeak ctx (Neutral E ctx all) used seen t) (it : Item) (e : Doc.Env G L)
    (s : Leaky.Env G L) (h : Fits ctx all used seen e s) :
    Rel (Fits ctx all used (seen || shows t)) (Doc.sem E ctx t none it e) (Leaky.sem E ctx t it s) := by
  induction t generalizing f seen it e s with
  | done =>
    intro o e' he
    injection he with he
    injection he with h1 h2
    subst h1 h2
    exact ⟨s, rfl, h.mono (by simp +contextual)⟩
  | text t rest ih =>
    refine Rel.seq (R := Fits ctx all used seen) ?_ fun e s h => ih f seen hok hn it e s h
    intro o e' he
    injection he with he
    injection he with h1 h2
    subst h1 h2
    exact ⟨s, rfl, h⟩
  | var n rest ih =>
    refine Rel.seq (R := Fits ctx all used seen) ?_ fun e s h => ih f seen hok.2 hn.2 it e s h
    intro o e' he
    obtain ⟨⟨v, e1⟩, h1, h2⟩ := map_ok he
    injection h2 with h2 h3
    subst h2 h3
    have hent := h.entries
    rw [h.env, ← value_entries h1] at hent
    refine ⟨{ s with env := e1 }, ?_, ⟨⟨rfl, h.last, hent⟩, h.outside, h.fresh⟩⟩
    rw [h.env, value_alike (loc_alike h hn.1), h1]
    rfl
  | cond c yes rest ih1 ih2 =>
    refine Rel.seq (R := Fits ctx all used (seen || shows yes)) ?_ fun e s h =>
      (ih2 f _ hok.2.2 hn.2.2 it e s h).mono fun _ _ h => h.mono (by simp +contextual [shows])
    intro o e' he
    obtain ⟨⟨v, e1⟩, h1, h2⟩ := bind_ok' he
    obtain ⟨h3, h4⟩ := cond_rel h hn.1 h1
    rw [h3]
    cases v with
    | true => exact ih1 f seen hok.2.1 hn.2.1 it e1 _ h4 o e' h2
    | false =>
      injection h2 with h2
      injection h2 with h2 h5
      subst h2 h5
      exact ⟨_, rfl, h4.mono (by simp +contextual)⟩
  | condElse c yes no rest ih1 ih2 ih3 =>
    refine Rel.seq (R := Fits ctx all used (seen || shows yes || shows no)) ?_ fun e s h =>
      (ih3 f _ hok.2.2.2 hn.2.2.2 it e s h).mono fun _ _ h => h.mono (by simp +contextual [shows])
    intro o e' he
    obtain ⟨⟨v, e1⟩, h1, h2⟩ := bind_ok' he
    obtain ⟨h3, h4⟩ := cond_rel h hn.1 h1
    rw [h3]
    cases v with
    | true =>
      exact (ih1 f seen hok.2.1 hn.2.1 it e1 _ h4).mono (fun _ _ h => h.mono (by simp +contextual)) o e' h2
    | false =>
      exact (ih2 f seen hok.2.2.1 hn.2.2.1 it e1 _ h4).mono
        (fun _ _ h => h.mono (by simp only [Bool.or_eq_false_iff]; exact fun h => ⟨h.1.1, h.2⟩)) o e' h2
  | foreach n body rest ih1 ih2 =>
    refine Rel.seq (R := Fits ctx all used (seen || shows body)) ?_ fun e s h =>
      (ih2 f _ hok.2.2.2 hn.2.2 it e s h).mono fun _ _ h => h.mono (by simp +contextual [shows])
    rw [(loc_alike h hn.1).2, h.env]
    exact Rel.each _ (fun i _ e s h => (ih1 true _ hok.2.2.1 hn.2.1 ⟨some n, some i⟩ e s h).mono
      fun _ _ h => h.mono (by simp +contextual)) e s (h.mono (by simp +contextual))
  | block k body rest ih1 ih2 =>
    refine Rel.seq (R := Fits ctx all used (seen || decide (¬ Doc.Plain k))) ?_ fun e s h =>
      (ih2 f _ hok.2.2.2 hn.2.2 it e s h).mono fun _ _ h => h.mono (by simp +contextual [shows])
    have hes := h.entries
    have hk : Known ctx all { e with entries := (scopes ctx k e.entries).2 }
        { s with env := { s.env with entries := (scopes ctx k s.env.entries).2 }, inside := true } := by
      refine ⟨by simp only [h.env], h.last, fun x hx => hes x (scopes_sub ctx k _ x hx)⟩
    rw [h.env] at hk hes ⊢
    cases hsc : (scopes ctx k e.entries).1 with
    | nil =>
      intro o e' he
      injection he with he
      injection he with h1 h2
      subst h1 h2
      exact ⟨_, rfl, ⟨hk, fun hu => absurd hsc (scopes_used (hn.1 hu)), fun hq => h.fresh (by simp at hq; exact hq.1)⟩⟩
    | cons l ls =>
      have huse : ∀ l' ∈ l :: ls, ∀ e' s', Known ctx all e' s' →
          ((seen || decide (¬ Doc.Plain k)) = false → s'.last = none) →
          Rel (Fits ctx all used (seen || decide (¬ Doc.Plain k))) (Doc.sem E ctx body l' it e')
          ((Leaky.sem E ctx body it (s'.enter k l')).map fun (o, s) => (o, s.leave)) :=
        fun l' hl' e' s' hk' hf => use_rel hok.2.2.1 hn.2.1 hes (by rw [hsc]; exact hl') hk' hf
      refine Rel.seq (huse l (by simp) _ _ hk fun hq => h.fresh (by simp at hq; exact hq.1)) fun e1 s1 h1 => ?_
      exact Rel.each ls (fun l' hl' e' s' h' => huse l' (List.mem_cons_of_mem _ hl') e' s' h'.toKnown h'.fresh) e1 s1 h1

theorem seq_total {S : Type} {a : Res (Str × S)} {f : S → Res (Str × S)} (ha : ∃ r, a = .ok r)
    (hf : ∀ s, ∃ r, f s = .ok r) : ∃ r, Doc.seq a f = .ok r := by
  obtain ⟨⟨o, s⟩, rfl⟩ := ha
  obtain ⟨⟨o', s'⟩, h⟩ := hf s
  exact ⟨(o ++ o', s'), by simp only [Doc.seq, Res.bind, h, Res.map]⟩

theorem each_total {S α : Type} {f : α → S → Res (Str × S)} (hf : ∀ a s, ∃ r, f a s = .ok r) (l : List α) (s : S) :
    ∃ r, Doc.each f l s = .ok r := by
  induction l generalizing s with
  | nil => exact ⟨_, rfl⟩
  | cons a l ih => exact seq_total (hf a s) ih

theorem value_total {E : Evaluator G L} (hE : Total E) (loc : Option L) (it : Item) {n : Str} (hn : n ≠ [])
    (s : Doc.Env G L) : ∃ r, Doc.value E loc it n s = .ok r := by
  obtain ⟨r, hr⟩ := hE s.global loc it n hn
  exact ⟨(r.2, { s with global := r.1 }), by rw [Doc.value, hr]; rfl⟩

theorem cond_total {E : Evaluator G L} (hE : Total E) (loc : Option L) (it : Item) {c : Cond} (hc : c.Ok)
    (s : Doc.Env G L) : ∃ r, c.value E loc it s = .ok r := by
  cases c with
  | defined n =>
    obtain ⟨r, hr⟩ := value_total hE loc it hc s
    exact ⟨_, by rw [Cond.value, hr]; rfl⟩
  | undefined n =>
    obtain ⟨r, hr⟩ := value_total hE loc it hc s
    exact ⟨_, by rw [Cond.value, hr]; rfl⟩
  | compare n op rhs =>
    obtain ⟨r, hr⟩ := value_total hE loc it hc.1 s
    rw [Cond.value, hr]
    cases rhs with
    | text t => exact ⟨_, rfl⟩
    | var m =>
      obtain ⟨r', hr'⟩ := value_total hE loc it hc.2.2.1 r.2
      simp only [Res.bind, Operand.value, hr', Res.map]
      exact ⟨_, rfl⟩

/-- Every template in good form has a meaning. -/
theorem sem_total {E : Evaluator G L} (hE : Total E) (ctx : Ctx L) (t : T) (b f : Bool) (hok : Ok b f t)
    (loc : Option L) (it : Item) (s : Doc.Env G L) : ∃ r, Doc.sem E ctx t loc it s = .ok r := by
  induction t generalizing b f loc it s with
  | done => exact ⟨_, rfl⟩
  | text t rest ih => exact seq_total ⟨_, rfl⟩ (ih b f hok loc it)
  | var n rest ih =>
    refine seq_total ?_ (ih b f hok.2 loc it)
    obtain ⟨r, hr⟩ := value_total hE loc it hok.1 s
    exact ⟨_, by rw [hr]; rfl⟩
  | cond c yes rest ih1 ih2 =>
    refine seq_total ?_ (ih2 b f hok.2.2 loc it)
    obtain ⟨⟨v, s'⟩, hr⟩ := cond_total hE loc it hok.1 s
    rw [hr]
    cases v with
    | true => exact ih1 b f hok.2.1 loc it s'
    | false => exact ⟨_, rfl⟩
  | condElse c yes no rest ih1 ih2 ih3 =>
    refine seq_total ?_ (ih3 b f hok.2.2.2 loc it)
    obtain ⟨⟨v, s'⟩, hr⟩ := cond_total hE loc it hok.1 s
    rw [hr]
    cases v with
    | true => exact ih1 b f hok.2.1 loc it s'
    | false => exact ih2 b f hok.2.2.1 loc it s'
  | foreach n body rest ih1 ih2 =>
    exact seq_total (each_total (fun i s => ih1 b true hok.2.2.1 loc _ s) _ _) (ih2 b f hok.2.2.2 loc it)
  | block k body rest ih1 ih2 =>
    exact seq_total (each_total (fun i s => ih1 true f hok.2.2.1 i it s) _ _) (ih2 b f hok.2.2.2 loc it)

theorem leaky_total {E : Evaluator G L} (hE : Total E) (ctx : Ctx L) (t : T) (b f : Bool) (hok : Ok b f t)
    (it : Item) (s : Leaky.Env G L) : ∃ r, Leaky.sem E ctx t it s = .ok r := by
  induction t generalizing b f it s with
  | done => exact ⟨_, rfl⟩
  | text t rest ih => exact seq_total ⟨_, rfl⟩ (ih b f hok it)
  | var n rest ih =>
    refine seq_total ?_ (ih b f hok.2 it)
    obtain ⟨r, hr⟩ := value_total hE s.loc it hok.1 s.env
    exact ⟨_, by rw [hr]; rfl⟩
  | cond c yes rest ih1 ih2 =>
    refine seq_total ?_ (ih2 b f hok.2.2 it)
    obtain ⟨⟨v, s'⟩, hr⟩ := cond_total hE s.loc it hok.1 s.env
    rw [hr]
    cases v with
    | true => exact ih1 b f hok.2.1 it _
    | false => exact ⟨_, rfl⟩
  | condElse c yes no rest ih1 ih2 ih3 =>
    refine seq_total ?_ (ih3 b f hok.2.2.2 it)
    obtain ⟨⟨v, s'⟩, hr⟩ := cond_total hE s.loc it hok.1 s.env
    rw [hr]
    cases v with
    | true => exact ih1 b f hok.2.1 it _
    | false => exact ih2 b f hok.2.2.1 it _
  | foreach n body rest ih1 ih2 =>
    exact seq_total (each_total (fun i s => ih1 b true hok.2.2.1 _ s) _ _) (ih2 b f hok.2.2.2 it)
  | block k body rest ih1 ih2 =>
    refine seq_total (each_total (fun l s => ?_) _ _) (ih2 b f hok.2.2.2 it)
    obtain ⟨r, hr⟩ := ih1 true f hok.2.2.1 it (s.enter k l)
    exact ⟨_, by rw [hr]; rfl⟩

end Blogc.Render
