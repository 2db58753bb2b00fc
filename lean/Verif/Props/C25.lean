import Verif.Props.C24

/-!
# C25: entry variables are visible only inside entry blocks

A reference sees only global variables if looking it up in an entry could never make a difference.
So the property says: if the names `S` are referred to only outside blocks and in `listing_once` and
`listing_empty` blocks, the output is the same when these names are never looked up in any entry
(`hide S E`). It holds for well-nested templates in which every block is used and no `listing_once`
block follows a block that shows entries (`hidden_partial`). It fails after a block that is left out
(`skipped_violated`), in a `listing_once` block after a listing (`listing_once_violated`) and in
templates where iterators and conditionals overlap (`overlap_violated`).
-/

namespace Blogc.C25

open Blogc Blogc.Template Blogc.Render Blogc.Doc

variable {G L : Type}

theorem hide_alike {S : Str → Prop} {E : Evaluator G L} {l : Option L} {n : Str} (h : ¬ S n ∨ l = none) (g : G) (it : Item) :
    (hide S E).value g l it n = E.value g l it n ∧ (hide S E).list g l n = E.list g l n := by
  rcases h with h | h
  · simp [hide, h]
  · simp [hide, h]

theorem hide_value {S : Str → Prop} {E : Evaluator G L} {l : Option L} {n : Str} (h : ¬ S n ∨ l = none) (it : Item)
    (e : Doc.Env G L) : Doc.value (hide S E) l it n e = Doc.value E l it n e := by
  rw [Doc.value, Doc.value, (hide_alike h e.global it).1]

theorem hide_cond {S : Str → Prop} {E : Evaluator G L} {l : Option L} {c : Cond} (h : ∀ n ∈ c.names, ¬ S n ∨ l = none)
    (it : Item) (e : Doc.Env G L) : c.value (hide S E) l it e = c.value E l it e := by
  cases c with
  | defined n => simp only [Cond.value, hide_value (h n (by simp [Cond.names]))]
  | undefined n => simp only [Cond.value, hide_value (h n (by simp [Cond.names]))]
  | compare n op rhs =>
    simp only [Cond.value]
    rw [hide_value (h n (by cases rhs <;> simp [Cond.names]))]
    congr 1
    funext ⟨a, s⟩
    cases rhs with
    | text t => rfl
    | var m => simp only [Operand.value, hide_value (h m (by simp [Cond.names]))]

/-- The documented meaning does not look up such names in entries. -/
theorem hide_sem {S : Str → Prop} {E : Evaluator G L} {ctx : Ctx L} (t : T) (b f : Bool) (hok : Ok b f t)
    (l : Option L) (h : l = none ∨ Refs (fun n => ¬ S n) t) (hw : b = false → Within (fun n => ¬ S n) t) (it : Item) :
    Doc.sem (hide S E) ctx t l it = Doc.sem E ctx t l it := by
  induction t generalizing b f l it with
  | done => rfl
  | text s rest ih =>
    funext e
    simp only [Doc.sem, ih b f hok l h hw it]
  | var n rest ih =>
    funext e
    simp only [Doc.sem, ih b f hok.2 l (h.imp id And.right) hw it]
    rw [hide_value (h.symm.imp And.left id)]
  | cond c yes rest ih1 ih2 =>
    funext e
    simp only [Doc.sem, ih1 b f hok.2.1 l (h.imp id fun x => x.2.1) (fun hb => (hw hb).1) it,
      ih2 b f hok.2.2 l (h.imp id fun x => x.2.2) (fun hb => (hw hb).2) it]
    rw [hide_cond fun n hn => h.symm.imp (fun x => x.1 n hn) id]
  | condElse c yes no rest ih1 ih2 ih3 =>
    funext e
    simp only [Doc.sem, ih1 b f hok.2.1 l (h.imp id fun x => x.2.1) (fun hb => (hw hb).1) it,
      ih2 b f hok.2.2.1 l (h.imp id fun x => x.2.2.1) (fun hb => (hw hb).2.1) it,
      ih3 b f hok.2.2.2 l (h.imp id fun x => x.2.2.2) (fun hb => (hw hb).2.2) it]
    rw [hide_cond fun n hn => h.symm.imp (fun x => x.1 n hn) id]
  | foreach n body rest ih1 ih2 =>
    funext e
    simp only [Doc.sem, ih1 b true hok.2.2.1 l (h.imp id fun x => x.2.1) (fun hb => (hw hb).1),
      ih2 b f hok.2.2.2 l (h.imp id fun x => x.2.2) (fun hb => (hw hb).2) it]
    rw [(hide_alike (h.symm.imp And.left id) e.global it).2]
  | block k body rest ih1 ih2 =>
    funext e
    obtain ⟨_, hb, hbody, hrest⟩ := hok
    have hw := hw hb
    simp only [Doc.sem, ih2 b f hrest l (h.imp id fun x => x.2) (fun _ => hw.2) it]
    congr 1
    have : ∀ ls : List (Option L), (∀ x ∈ ls, x ∈ (scopes ctx k e.entries).1) → ∀ e' : Doc.Env G L,
        each (fun l => Doc.sem (hide S E) ctx body l it) ls e' = each (fun l => Doc.sem E ctx body l it) ls e' := by
      intro ls hls
      induction ls with
      | nil => exact fun _ => rfl
      | cons x ls ih =>
        intro e'
        simp only [each]
        rw [ih1 true f hbody x ?_ (fun h => (nomatch h)) it]
        · congr 1
          funext s
          exact ih (fun y hy => hls y (List.mem_cons_of_mem _ hy)) s
        · by_cases hk : Doc.Plain k
          · exact .inl (scopes_none hk (hls x (by simp)))
          · exact .inr (hw.1 hk)
    exact this _ (fun _ hx => hx) _

theorem hide_noLeak {S : Str → Prop} {E : Evaluator G L} {ctx : Ctx L} {entries : List (Option L)} {used : Prop}
    {seen : Bool} {t : T} (h : NoLeak ctx (Neutral E ctx entries) used seen t) :
    NoLeak ctx (Neutral (hide S E) ctx entries) used seen t := by
  have hn : ∀ n, Neutral E ctx entries n → Neutral (hide S E) ctx entries n := by
    intro n hn l hl
    obtain ⟨h1, h2⟩ := hn l hl
    by_cases hs : S n
    · simp [hide, hs]
    · simp only [hide, hs, if_false]; exact ⟨h1, h2⟩
  induction t generalizing seen with
  | done => trivial
  | text s rest ih => exact ih h
  | var n rest ih => exact ⟨h.1.imp id (hn n), ih h.2⟩
  | cond c yes rest ih1 ih2 => exact ⟨h.1.imp id fun x n hx => hn n (x n hx), ih1 h.2.1, ih2 h.2.2⟩
  | condElse c yes no rest ih1 ih2 ih3 =>
    exact ⟨h.1.imp id fun x n hx => hn n (x n hx), ih1 h.2.1, ih2 h.2.2.1, ih3 h.2.2.2⟩
  | foreach n body rest ih1 ih2 => exact ⟨h.1.imp id (hn n), ih1 h.2.1, ih2 h.2.2⟩
  | block k body rest ih1 ih2 => exact ⟨h.1, fun hk => (h.2.1 hk).imp id (refs_mono hn), ih2 h.2.2⟩

/-- For a well-nested template in which the names `S` are not referred to within blocks that show
entries: if every block is used, and no `listing_once` or `listing_empty` block comes after a block
that shows entries, then the output is what it would be if no entry had a variable called `S`. -/
theorem hidden_partial (E : Evaluator G L) (hE : Total E) (S : Str → Prop) (t : T) (hok : Ok false false t)
    (hS : Within (fun n => ¬ S n) t) (ctx : Ctx L) (entries : List (Option L)) (g : G)
    (hn : NoLeak ctx (fun _ => False) True false t) (tmpl : List Node) (ht : tmpl.map bare = nodes t) :
    ∃ out n, ∀ m, n ≤ m →
      render E m tmpl ctx entries g = .ok out ∧ render (hide S E) m tmpl ctx entries g = .ok out := by
  have mono : ∀ (N : Str → Prop) (seen : Bool) (t : T), NoLeak ctx (fun _ => False) True seen t →
      NoLeak ctx N True seen t := by
    intro N seen t h
    induction t generalizing seen with
    | done => trivial
    | text s rest ih => exact ih _ h
    | var n rest ih => exact ⟨.inl trivial, ih _ h.2⟩
    | cond c yes rest ih1 ih2 => exact ⟨.inl trivial, ih1 _ h.2.1, ih2 _ h.2.2⟩
    | condElse c yes no rest ih1 ih2 ih3 => exact ⟨.inl trivial, ih1 _ h.2.1, ih2 _ h.2.2.1, ih3 _ h.2.2.2⟩
    | foreach n body rest ih1 ih2 => exact ⟨.inl trivial, ih1 _ h.2.1, ih2 _ h.2.2⟩
    | block k body rest ih1 ih2 =>
      exact ⟨h.1, fun hk => (h.2.1 hk).imp id (refs_mono fun _ h => h.elim), ih2 _ h.2.2⟩
  have hE' : Total (hide S E) := fun g l it n hne => hE g _ it n hne
  obtain ⟨o1, n1, h1, h2⟩ := C24.documented_partial E hE t hok ctx entries g True (mono _ _ t hn) tmpl ht
  obtain ⟨o2, n2, h3, h4⟩ := C24.documented_partial (hide S E) hE' t hok ctx entries g True (mono _ _ t hn) tmpl ht
  rw [Doc.text, hide_sem t false false hok none (.inl rfl) (fun _ => hS)] at h3
  rw [Doc.text, h3] at h1
  injection h1 with h1
  subst h1
  exact ⟨o2, max n1 n2, fun m hm => ⟨h2 m (by omega), h4 m (by omega)⟩⟩

/-- The same for any template, if the names in places where no entry should be visible do not depend
on the sources. -/
theorem neutral_partial (E : Evaluator G L) (hE : Total E) (S : Str → Prop) (t : T) (hok : Ok false false t)
    (hS : Within (fun n => ¬ S n) t) (ctx : Ctx L) (entries : List (Option L)) (g : G) (used : Prop)
    (hn : NoLeak ctx (Neutral E ctx entries) used false t) (tmpl : List Node) (ht : tmpl.map bare = nodes t) :
    ∃ out n, ∀ m, n ≤ m →
      render E m tmpl ctx entries g = .ok out ∧ render (hide S E) m tmpl ctx entries g = .ok out := by
  have hE' : Total (hide S E) := fun g l it n hne => hE g _ it n hne
  obtain ⟨o1, n1, h1, h2⟩ := C24.documented_partial E hE t hok ctx entries g used hn tmpl ht
  obtain ⟨o2, n2, h3, h4⟩ := C24.documented_partial (hide S E) hE' t hok ctx entries g used (hide_noLeak hn) tmpl ht
  rw [Doc.text, hide_sem t false false hok none (.inl rfl) (fun _ => hS)] at h3
  rw [Doc.text, h3] at h1
  injection h1 with h1
  subst h1
  exact ⟨o2, max n1 n2, fun m hm => ⟨h2 m (by omega), h4 m (by omega)⟩⟩

/-- `{% block listing %}{% endblock %}{% block entry %}{% endblock %}{{ T }}`: the variable of the last
entry is shown outside blocks. No source defines a global `T`. -/
theorem skipped_violated (m : Nat) :
    render (evaluator C27.bare) (m + 8) (nodes C24.leak) ⟨[C24.one b!"T" b!"x"], true⟩ [] (Trie.inserts []).1 = .ok b!"x" :=
  rfl

/-- `{% block listing %}{% endblock %}{% block listing_once %}{{ T }}{% endblock %}` -/
def once : T := .block b!"listing" .done (.block b!"listing_once" (.var b!"T" .done) .done)

/-- The variable of the last entry is shown in a `listing_once` block. -/
theorem listing_once_violated (m : Nat) :
    render (evaluator C27.bare) (m + 8) (nodes once) ⟨[C24.one b!"T" b!"x"], true⟩ [] (Trie.inserts []).1 = .ok b!"x" :=
  rfl

/-- An iterator that overlaps a conditional. -/
def overlap : Str :=
  b!"{{ T }}{% foreach A %}{{ T }}{% ifdef B %}{% endforeach %}{% endif %}{% block entry %}{% foreach A %}{% endforeach %}{% endblock %}"

def overlapNodes : List Node :=
  [⟨.variable, .none, some b!"T", none⟩, ⟨.foreach, .none, some b!"A", none⟩, ⟨.variable, .none, some b!"T", none⟩,
   ⟨.ifdef, .none, some b!"B", none⟩, ⟨.endforeach, .none, none, none⟩, ⟨.endif, .none, none, none⟩,
   ⟨.block, .none, some b!"entry", none⟩, ⟨.foreach, .none, some b!"A", none⟩, ⟨.endforeach, .none, none, none⟩,
   ⟨.endblock, .none, none, none⟩]

/-- It is accepted, and rendered as a page it goes back from within the block to the iterator before
it, where the variable of the source is then visible. -/
theorem overlap_violated :
    (∃ ns, parse overlap = .ok (.ok ns) ∧ ns.map bare = overlapNodes) ∧
    render (evaluator C27.bare) 40 overlapNodes ⟨[C24.one b!"T" b!"x"], false⟩ [] (C24.one b!"A" b!"1 2") = .ok b!"x" := by
  refine ⟨?_, rfl⟩
  have : (parse overlap).map (fun r => r.map (List.map bare)) = .ok (.ok overlapNodes) := by decide +kernel
  cases hp : parse overlap with
  | ub => rw [hp] at this; cases this
  | ok r =>
    cases r with
    | error e => rw [hp] at this; cases this
    | ok ns =>
      rw [hp] at this
      injection this with this
      injection this with this
      exact ⟨ns, rfl, this⟩

/-- A listing with a heading and a footer. -/
def sample : T :=
  .var b!"T" (.block b!"listing_once" (.var b!"T" .done) (.block b!"listing" (.var b!"U" .done) (.var b!"T" .done)))

example : Ok false false sample := by simp [sample, Ok, blockTypes]
example : Within (fun n => ¬ n = b!"T") sample := by simp [sample, Within, Refs, Doc.Plain]
example : NoLeak (L := Table) ⟨[C24.one b!"T" b!"x"], true⟩ (fun _ => False) True false sample := by
  simp [sample, NoLeak, Used, Doc.Plain]
example : render (evaluator C27.bare) 40 (nodes sample) ⟨[(Trie.inserts [(b!"T", b!"x"), (b!"U", b!"y")]).1], true⟩ []
    (C24.one b!"T" b!"g") = .ok b!"ggyg" := by decide +kernel

end Blogc.C25
