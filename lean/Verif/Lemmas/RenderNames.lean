import Verif.Lemmas.RenderCongr
import Verif.Lemmas.Render
import Verif.Spec.Reads

/-!
# The renderer depends on the variables its template names only
-/

namespace Blogc.Render.Nam

open Blogc Blogc.Template Blogc.Render
open Blogc.Spec (All2 Opt2 AgreeOn)

variable {G L : Type}

/-- A node asks only for words in `S` and goes only over lists in `F`. -/
def Fits (S F : Str → Prop) (n : Node) : Prop :=
  (∀ w, Spec.Asks n w → S w) ∧ ∀ w, Spec.Iterates n w → F w

structure Rels (G L : Type) where
  RG : G → G → Prop
  RL : L → L → Prop
  S : Str → Prop
  F : Str → Prop

inductive StRel (X : Rels G L) : St G L → St G L → Prop
  | mk {tmp : List Node} {out : Str} {cs cs' : List L} {ls : Option (List Node)} {ts ts' : Option L} {ic : Nat}
      {fn : Option Str} {fv fvs : List Str} {fs : Option (List Node)} {ib ve : Bool}
      {en en' : List (Option L)} {g g' : G}
      (hcs : All2 X.RL cs cs') (hts : Opt2 X.RL ts ts') (hen : All2 (Opt2 X.RL) en en') (hg : X.RG g g')
      (ht : ∀ n ∈ tmp, Fits X.S X.F n) (hls : ∀ l, ls = some l → ∀ n ∈ l, Fits X.S X.F n)
      (hfs : ∀ l, fs = some l → ∀ n ∈ l, Fits X.S X.F n) (hfn : ∀ f, fn = some f → X.F f) :
      StRel X ⟨tmp, out, cs, ls, ts, ic, fn, fv, fvs, fs, ib, ve, en, g⟩
        ⟨tmp, out, cs', ls, ts', ic, fn, fv, fvs, fs, ib, ve, en', g'⟩

def OutRel (X : Rels G L) : Run (St G L ⊕ Str) → Run (St G L ⊕ Str) → Prop
  | .ok (.inl a), .ok (.inl b) => StRel X a b
  | .ok (.inr a), .ok (.inr b) => a = b
  | .ub, .ub => True
  | .out, .out => True
  | _, _ => False

/-- The evaluation of the named variables is the same. -/
structure Respects (X : Rels G L) (E : Evaluator G L) : Prop where
  value : ∀ g g' l l' it n, X.RG g g' → Opt2 X.RL l l' → (∀ f, it.name = some f → X.F f) → X.S n →
    ValRel X.RG (E.value g l it n) (E.value g' l' it n)
  list : ∀ g g' l l' n, X.RG g g' → Opt2 X.RL l l' → X.F n → E.list g l n = E.list g' l' n

variable {X : Rels G L}

theorem next_rel {a b : St G L} (h : StRel X a b) {rest : List Node} (hr : ∀ n ∈ rest, Fits X.S X.F n) :
    OutRel X (next a rest) (next b rest) := by
  cases h; constructor <;> assumption

theorem skipTo_mem (k : NodeType) (l r : List Node) (h : skipTo k l = .ok r) : ∀ n ∈ r, n ∈ l := by
  induction l with
  | nil => cases h
  | cons m l ih =>
    rw [skipTo] at h
    split at h
    · cases h; intro n hn; exact List.mem_cons_of_mem _ hn
    · intro n hn; exact List.mem_cons_of_mem _ (ih h n hn)

theorem skip_rel {a b : St G L} (h : StRel X a b) (k : NodeType) {rest : List Node}
    (hr : ∀ n ∈ rest, Fits X.S X.F n) : OutRel X (skip k a rest) (skip k b rest) := by
  unfold skip
  cases e : skipTo k rest with
  | ok l => exact next_rel h fun n hn => hr n (skipTo_mem k _ _ e n hn)
  | ub => trivial

theorem listingEntry_rel {s s' : List L} {li : Bool} {a b : St G L} (h : StRel X a b) {rest : List Node}
    (hr : ∀ n ∈ rest, Fits X.S X.F n) :
    OutRel X (listingEntry ⟨s, li⟩ a rest) (listingEntry ⟨s', li⟩ b rest) := by
  cases h with
  | @mk tmp out cs cs' ls ts ts' ic fn fv fvs fs ib ve en en' g g' hcs hts hen hg ht hls hfs hfn =>
  unfold listingEntry
  match en, en', hen with
  | [], [], _ => exact skip_rel (by constructor <;> assumption) _ hr
  | none :: en, none :: en', hen => exact skip_rel (StRel.mk hcs hts hen.2 hg ht hls hfs hfn) _ hr
  | some e :: en, some e' :: en', hen =>
    simp only
    split
    · exact skip_rel (StRel.mk hcs hts hen.2 hg ht hls hfs hfn) _ hr
    · exact next_rel (StRel.mk (show All2 X.RL [] [] from trivial) (show Opt2 X.RL (some e) (some e') from hen.1) hen.2 hg ht hls hfs hfn) hr

theorem listingBlock_rel {s s' : List L} (hs : All2 X.RL s s') {li : Bool} {a b : St G L} (h : StRel X a b)
    {rest : List Node} (hr : ∀ n ∈ rest, Fits X.S X.F n) :
    OutRel X (listingBlock ⟨s, li⟩ a rest) (listingBlock ⟨s', li⟩ b rest) := by
  cases h with
  | @mk tmp out cs cs' ls ts ts' ic fn fv fvs fs ib ve en en' g g' hcs hts hen hg ht hls hfs hfn =>
  unfold listingBlock
  match s, s', hs with
  | [], [], _ => exact skip_rel (by constructor <;> assumption) _ hr
  | x :: s, x' :: s', hs =>
    match cs, cs', hcs with
    | [], [], _ =>
      exact next_rel (StRel.mk hs (show Opt2 X.RL (some x) (some x') from hs.1) hen hg ht (fun l e => by cases e; exact ht) hfs hfn) hr
    | c :: cs, c' :: cs', hcs => exact next_rel (StRel.mk hcs (show Opt2 X.RL (some c) (some c') from hcs.1) hen hg ht hls hfs hfn) hr

theorem _root_.Blogc.Spec.All2.head {α : Type} {R : α → α → Prop} {l l' : List α} (h : All2 R l l') : Opt2 R l.head? l'.head? := by
  match l, l', h with
  | [], [], _ => trivial
  | _ :: _, _ :: _, h => exact h.1

theorem _root_.Blogc.Spec.All2.isEmpty {α : Type} {R : α → α → Prop} {l l' : List α} (h : All2 R l l') :
    l.isEmpty = l'.isEmpty := by
  match l, l', h with
  | [], [], _ => rfl
  | _ :: _, _ :: _, _ => rfl

theorem block_rel {s s' : List L} (hs : All2 X.RL s s') {li : Bool} {a b : St G L} (h : StRel X a b)
    (node : Node) {rest : List Node} (hr : ∀ n ∈ rest, Fits X.S X.F n) :
    OutRel X (block ⟨s, li⟩ a node rest) (block ⟨s', li⟩ b node rest) := by
  unfold block
  cases node.data0 with
  | none => trivial
  | some t =>
    have h : StRel X { a with insideBlock := true, ifCount := 0 } { b with insideBlock := true, ifCount := 0 } := by
      cases h; constructor <;> assumption
    show OutRel X (blockOf _ { a with insideBlock := true, ifCount := 0 } rest t)
      (blockOf _ { b with insideBlock := true, ifCount := 0 } rest t)
    revert h
    generalize ({ a with insideBlock := true, ifCount := 0 } : St G L) = a
    generalize ({ b with insideBlock := true, ifCount := 0 } : St G L) = b
    intro h
    unfold blockOf
    simp only [hs.isEmpty]
    repeat' split
    · exact skip_rel h _ hr
    · refine next_rel ?_ hr
      cases h with
      | mk hcs hts hen hg ht hls hfs hfn => exact StRel.mk hs hs.head hen hg ht hls hfs hfn
    · exact listingEntry_rel h hr
    · exact skip_rel h _ hr
    · exact next_rel h hr
    · exact skip_rel h _ hr
    · exact listingBlock_rel hs h hr
    · exact next_rel h hr
    · exact next_rel h hr

theorem endblock_rel {a b : St G L} (h : StRel X a b) {rest : List Node} (hr : ∀ n ∈ rest, Fits X.S X.F n) :
    OutRel X (endblock a rest) (endblock b rest) := by
  cases h with
  | @mk tmp out cs cs' ls ts ts' ic fn fv fvs fs ib ve en en' g g' hcs hts hen hg ht hls hfs hfn =>
  unfold endblock
  match ls, cs, cs', hcs with
  | none, [], [], _ => exact next_rel (StRel.mk (show All2 X.RL [] [] from trivial) hts hen hg ht hls hfs hfn) hr
  | none, _ :: _, _ :: _, hcs => exact next_rel (StRel.mk hcs hts hen hg ht hls hfs hfn) hr
  | some _, [], [], _ => exact next_rel (StRel.mk (show All2 X.RL [] [] from trivial) hts hen hg ht hls hfs hfn) hr
  | some _, [_], [_], _ =>
    exact next_rel (StRel.mk (show All2 X.RL [] [] from trivial) hts hen hg ht (fun l e => by cases e) hfs hfn) hr
  | some start, _ :: _ :: _, _ :: _ :: _, hcs =>
    exact StRel.mk hcs.2 hts hen hg (hls _ rfl) hls hfs hfn

theorem local_rel {a b : St G L} (h : StRel X a b) : Opt2 X.RL a.local b.local := by
  cases h with
  | @mk tmp out cs cs' ls ts ts' ic fn fv fvs fs ib ve en en' g g' hcs hts hen hg ht hls hfs hfn =>
  unfold St.local
  cases ib
  · trivial
  · exact hts

theorem valueOf_rel {E : Evaluator G L} (hE : Respects X E) {a b : St G L} (h : StRel X a b)
    (name : Option Str) (hn : ∀ w, name = some w → X.S w) : ValRel X.RG (valueOf E a name) (valueOf E b name) := by
  have hl := local_rel h
  cases h with
  | @mk tmp out cs cs' ls ts ts' ic fn fv fvs fs ib ve en en' g g' hcs hts hen hg ht hls hfs hfn =>
  cases name with
  | none => exact ⟨hg, rfl⟩
  | some n => exact hE.value _ _ _ _ _ n hg hl (fun f hf => hfn f hf) (hn n rfl)

theorem variableNode_rel {E : Evaluator G L} (hE : Respects X E) {a b : St G L} (h : StRel X a b) {node : Node}
    (hn : Fits X.S X.F node) (ht : node.type = .variable) {rest : List Node}
    (hr : ∀ n ∈ rest, Fits X.S X.F n) :
    OutRel X (variableNode E a node rest) (variableNode E b node rest) := by
  have hv := valueOf_rel hE h node.data0 fun w hw => hn.1 w (.inl ⟨.inl ht, hw⟩)
  unfold variableNode
  revert hv
  generalize valueOf E a node.data0 = x
  generalize valueOf E b node.data0 = y
  intro hv
  match x, y, hv with
  | .ub, .ub, _ => trivial
  | .ok (g, v), .ok (g', v'), hv =>
    obtain ⟨hg, e⟩ := hv
    simp only at e hg
    subst e
    refine next_rel ?_ hr
    cases h; constructor <;> assumption

theorem quoted_text (d : Str) (h : quoted d = none) : ¬ Spec.IsText d := by
  rintro ⟨t, rfl⟩
  unfold quoted at h
  split at h
  · cases h
  · rename_i hc
    apply hc
    refine ⟨by simp, by simp, ?_⟩
    rw [List.getLast?_append]; rfl

theorem operand_rel {E : Evaluator G L} (hE : Respects X E) {a b : St G L} (h : StRel X a b) (d : Option Str)
    (hn : ∀ w, d = some w → ¬ Spec.IsText w → X.S w) : ValRel X.RG (operand E a d) (operand E b d) := by
  have hg : X.RG a.global b.global := by cases h; assumption
  unfold operand
  cases d with
  | none => exact ⟨hg, rfl⟩
  | some d =>
    simp only
    cases e : quoted d with
    | some s => exact ⟨hg, rfl⟩
    | none => exact valueOf_rel hE h _ fun w hw => by cases hw; exact hn d rfl (quoted_text d e)

theorem condition_rel {E : Evaluator G L} (hE : Respects X E) {a b : St G L} (h : StRel X a b) {node : Node}
    (hn : Fits X.S X.F node) (hty : node.type = .ifdef ∨ node.type = .ifndef ∨ node.type = .if_) :
    ValRel X.RG (condition E a node) (condition E b node) := by
  unfold condition
  refine bind_rel (valueOf_rel hE h _ fun w hw => hn.1 w (.inl ⟨.inr hty, hw⟩)) fun g1 g2 v hg => ?_
  simp only
  split
  · exact ⟨hg, rfl⟩
  · refine bind_rel (operand_rel hE ?_ _ fun w hw ht => hn.1 w (.inr ⟨hty, hw, ht⟩))
      fun g1 g2 v hg => ⟨hg, rfl⟩
    cases h; constructor <;> assumption

theorem skipIf_mem (s : Bool) (l : List Node) (c : Nat) (r : List Node) (c' : Nat)
    (h : skipIf s l c = .ok (r, c')) : ∀ n ∈ r, n ∈ l := by
  induction l generalizing c with
  | nil => cases h
  | cons m l ih =>
    rw [skipIf.eq_def] at h
    simp only at h
    split at h
    · intro n hn; exact List.mem_cons_of_mem _ (ih _ h n hn)
    · split at h
      · cases h; exact fun n hn => hn
      · split at h
        · split at h
          · cases h; exact fun n hn => hn
          · intro n hn; exact List.mem_cons_of_mem _ (ih _ h n hn)
        · intro n hn; exact List.mem_cons_of_mem _ (ih _ h n hn)

theorem branch_rel {a b : St G L} (h : StRel X a b) {rest : List Node} (hr : ∀ n ∈ rest, Fits X.S X.F n)
    (v : Bool) : OutRel X (branch a rest v) (branch b rest v) := by
  unfold branch
  split
  · refine next_rel ?_ hr
    cases h; constructor <;> assumption
  · cases e : skipIf true rest 0 with
    | ub => trivial
    | ok r =>
      obtain ⟨r, c⟩ := r
      cases r with
      | nil => trivial
      | cons n after =>
        have hm := skipIf_mem _ _ _ _ _ e
        simp only
        split
        · refine next_rel ?_ fun m h => hr m (hm m (List.mem_cons_of_mem _ h))
          cases h; constructor <;> assumption
        · refine next_rel ?_ fun m h => hr m (hm m (List.mem_cons_of_mem _ h))
          cases h; constructor <;> assumption

theorem ifNode_rel {E : Evaluator G L} (hE : Respects X E) {a b : St G L} (h : StRel X a b) {node : Node}
    (hn : Fits X.S X.F node) (ht : node.type = .ifdef ∨ node.type = .ifndef ∨ node.type = .if_) {rest : List Node} (hr : ∀ n ∈ rest, Fits X.S X.F n) :
    OutRel X (ifNode E a node rest) (ifNode E b node rest) := by
  have hc := condition_rel hE h hn ht
  unfold ifNode
  revert hc
  generalize condition E a node = x
  generalize condition E b node = y
  intro hc
  match x, y, hc with
  | .ub, .ub, _ => trivial
  | .ok (g, v), .ok (g', v'), hc =>
    obtain ⟨hg, e⟩ := hc
    simp only at e hg
    subst e
    refine branch_rel ?_ hr v
    cases h; constructor <;> assumption

theorem elseNode_rel {a b : St G L} (h : StRel X a b) {rest : List Node} (hr : ∀ n ∈ rest, Fits X.S X.F n) :
    OutRel X (elseNode a rest) (elseNode b rest) := by
  have hv : a.validElse = b.validElse := by cases h; rfl
  unfold elseNode
  rw [hv]
  split
  · refine next_rel ?_ hr
    cases h; constructor <;> assumption
  · cases e : skipIf false rest 0 with
    | ub => trivial
    | ok r =>
      obtain ⟨r, c⟩ := r
      cases r with
      | nil => trivial
      | cons n after =>
        have hm := skipIf_mem _ _ _ _ _ e
        refine next_rel ?_ fun m h => hr m (hm m (List.mem_cons_of_mem _ h))
        cases h; constructor <;> assumption

theorem listOf_rel {E : Evaluator G L} (hE : Respects X E) {a b : St G L} (h : StRel X a b) (name : Option Str)
    (hn : ∀ w, name = some w → X.F w) : listOf E a name = listOf E b name := by
  have hl := local_rel h
  have hg : X.RG a.global b.global := by cases h; assumption
  cases name with
  | none => rfl
  | some n => exact hE.list _ _ _ _ n hg hl (hn n rfl)

theorem foreachNode_rel {E : Evaluator G L} (hE : Respects X E) {a b : St G L} (h : StRel X a b) {node : Node}
    (hn : Fits X.S X.F node) (hty : node.type = .foreach) {rest : List Node}
    (hr : ∀ n ∈ rest, Fits X.S X.F n) :
    OutRel X (foreachNode E a node rest) (foreachNode E b node rest) := by
  have hname : ∀ w, node.data0 = some w → X.F w := fun w hw => hn.2 w ⟨hty, hw⟩
  have he := listOf_rel hE h node.data0 hname
  unfold foreachNode
  rw [he]
  clear he
  cases h with
  | @mk tmp out cs cs' ls ts ts' ic fn fv fvs fs ib ve en en' g g' hcs hts hen hg ht hls hfs hfn =>
  cases fvs with
  | nil =>
    simp only
    split
    · exact skip_rel (StRel.mk hcs hts hen hg ht hls hfs hfn) _ hr
    · exact next_rel (StRel.mk hcs hts hen hg ht hls (fun l e => by cases e; exact ht) hname) hr
  | cons i is =>
    cases fv with
    | nil => exact next_rel (StRel.mk hcs hts hen hg ht hls (fun l e => by cases e; exact ht) hname) hr
    | cons _ _ => exact next_rel (StRel.mk hcs hts hen hg ht hls hfs hfn) hr

theorem endForeach_rel {a b : St G L} (h : StRel X a b) {rest : List Node} (hr : ∀ n ∈ rest, Fits X.S X.F n) :
    OutRel X (endForeach a rest) (endForeach b rest) := by
  cases h with
  | @mk tmp out cs cs' ls ts ts' ic fn fv fvs fs ib ve en en' g g' hcs hts hen hg ht hls hfs hfn =>
  unfold endForeach
  cases fv with
  | nil => exact next_rel (StRel.mk hcs hts hen hg ht hls (fun l e => by cases e) (fun f e => by cases e)) hr
  | cons _ _ =>
    cases fvs with
    | nil => exact next_rel (StRel.mk hcs hts hen hg ht hls (fun l e => by cases e) (fun f e => by cases e)) hr
    | cons _ _ => trivial

theorem endforeachNode_rel {a b : St G L} (h : StRel X a b) {rest : List Node}
    (hr : ∀ n ∈ rest, Fits X.S X.F n) : OutRel X (endforeachNode a rest) (endforeachNode b rest) := by
  have h0 := h
  cases h with
  | @mk tmp out cs cs' ls ts ts' ic fn fv fvs fs ib ve en en' g g' hcs hts hen hg ht hls hfs hfn =>
  unfold endforeachNode
  match fs, fv with
  | none, _ => exact endForeach_rel h0 hr
  | some _, [] => exact endForeach_rel h0 hr
  | some _, [_] => exact endForeach_rel (StRel.mk hcs hts hen hg ht hls hfs hfn) hr
  | some start, _ :: _ :: _ => exact StRel.mk hcs hts hen hg (hfs _ rfl) hls hfs hfn

theorem step_rel {E : Evaluator G L} (hE : Respects X E) {s s' : List L} (hs : All2 X.RL s s') {li : Bool}
    {a b : St G L} (h : StRel X a b) : OutRel X (step E ⟨s, li⟩ a) (step E ⟨s', li⟩ b) := by
  have h0 := h
  cases h with
  | @mk tmp out cs cs' ls ts ts' ic fn fv fvs fs ib ve en en' g g' hcs hts hen hg ht hls hfs hfn =>
  unfold step
  cases tmp with
  | nil => rfl
  | cons node rest =>
    have hn := ht node (by simp)
    have hr : ∀ n ∈ rest, Fits X.S X.F n := fun n hn => ht n (List.mem_cons_of_mem _ hn)
    simp only
    split
    · exact next_rel (StRel.mk hcs hts hen hg ht hls hfs hfn) hr
    · exact block_rel hs h0 _ hr
    · exact variableNode_rel hE h0 hn ‹_› hr
    · exact endblock_rel h0 hr
    · exact ifNode_rel hE h0 hn (.inl ‹_›) hr
    · exact ifNode_rel hE h0 hn (.inr (.inl ‹_›)) hr
    · exact ifNode_rel hE h0 hn (.inr (.inr ‹_›)) hr
    · exact elseNode_rel h0 hr
    · exact next_rel (StRel.mk hcs hts hen hg ht hls hfs hfn) hr
    · exact foreachNode_rel hE h0 hn ‹_› hr
    · exact endforeachNode_rel h0 hr

theorem runL_rel {f f' : St G L → Run (St G L ⊕ Str)}
    (hf : ∀ a b, StRel X a b → OutRel X (f a) (f' b)) (n : Nat) (a b : St G L) (h : StRel X a b) :
    runL f n a = runL f' n b := by
  induction n generalizing a b with
  | zero => rfl
  | succ n ih =>
    have := hf a b h
    rw [runL, runL]
    revert this
    generalize f a = x
    generalize f' b = y
    intro h
    rcases x with (a | a) | _ | _ <;> rcases y with (b | b) | _ | _ <;> try (exact h.elim)
    · exact ih a b h
    · exact congrArg Run.ok h
    · rfl
    · rfl

theorem render_rel {E : Evaluator G L} (hE : Respects X E) (fuel : Nat) {tmpl : List Node}
    (ht : ∀ n ∈ tmpl, Fits X.S X.F n) {s s' : List L} (hs : All2 X.RL s s') (li : Bool)
    {en en' : List (Option L)} (hen : All2 (Opt2 X.RL) en en') {g g' : G} (hg : X.RG g g') :
    render E fuel tmpl ⟨s, li⟩ en g = render E fuel tmpl ⟨s', li⟩ en' g' :=
  runL_rel (fun _ _ h => step_rel hE hs h) fuel _ _
    (StRel.mk (show All2 X.RL [] [] from trivial) (show Opt2 X.RL none none from trivial) hen hg ht
      (fun l e => by cases e) (fun l e => by cases e) (fun l e => by cases e))

/-! ## The tables of blogc -/

theorem agreeOn_insert {P : Str → Prop} {g g' : Table} (h : AgreeOn P g g') (k v : Str) (hk : NulFree k) :
    AgreeOn P (g.insert k v).1 (g'.insert k v).1 := by
  intro x hx
  have hc := nulFree_cut x
  have := h x hx
  rw [lookup_cut g, lookup_cut g'] at this
  rw [lookup_cut (g.insert k v).1, lookup_cut (g'.insert k v).1, Trie.lookup_insert g k _ v hk hc,
    Trie.lookup_insert g' k _ v hk hc, this]

theorem agreeOn_insertAll {P : Str → Prop} {g g' : Table} (h : AgreeOn P g g') (l : List (Str × Str))
    (hl : ∀ kv ∈ l, NulFree kv.1) : AgreeOn P (insertAll g l) (insertAll g' l) := by
  induction l generalizing g g' with
  | nil => exact h
  | cons kv l ih =>
    obtain ⟨k, v⟩ := kv
    exact ih (agreeOn_insert h k v (hl (k, v) (by simp))) fun kv hkv => hl kv (by simp [hkv])

theorem funcvars_agree (sys : Sys) {P : Str → Prop} {g g' : Table} (h : AgreeOn P g g') {name : Str}
    (hn : P name) : AgreeOn P (funcvarsEval sys g name) (funcvarsEval sys g' name) := by
  unfold funcvarsEval
  rw [h name hn]
  split
  · exact h
  · exact agreeOn_insertAll h _ (injected_keys sys name)

theorem getVariable_agree {P : Str → Prop} {g g' : Table} (h : AgreeOn P g g') {l l' : Option Table}
    (hl : Opt2 (AgreeOn P) l l') {name : Str} (hn : P name) : getVariable name g l = getVariable name g' l' := by
  match l, l', hl with
  | none, none, _ => exact h name hn
  | some l, some l', hl =>
    unfold getVariable
    simp only
    rw [h name hn, hl name hn]

/-- All that a reference to the word looks at is in `P`. -/
def Looks (P : Str → Prop) (w : Str) : Prop :=
  (∀ n, Spec.StandsFor w n → P n) ∧ ((∃ r, w = b!"DATE_" ++ r) → P b!"DATE_FORMAT")

/-- The list and what is mapped to its items is in `P`. -/
def LooksList (P : Str → Prop) (f : Str) : Prop := P f ∧ ∀ item, P (foreachValueVariable f item)

theorem foreachValue_agree {P : Str → Prop} {g g' : Table} (h : AgreeOn P g g') {l l' : Option Table}
    (hl : Opt2 (AgreeOn P) l l') (it : Item) (hi : ∀ f, it.name = some f → LooksList P f) :
    foreachValue g l it = foreachValue g' l' it := by
  unfold foreachValue
  split
  · rename_i n i e1 e2
    exact getVariable_agree h hl ((hi n e1).2 i)
  · rfl

theorem startsWith_append {s pre : Str} (h : startsWith s pre = true) : ∃ r, s = pre ++ r := by
  unfold startsWith at h
  split at h
  · cases h
  · refine ⟨s.drop pre.length, ?_⟩
    have : s.take pre.length = pre := by simpa using h
    conv_lhs => rw [← List.take_append_drop pre.length s, this]

theorem endsWith_append {s suf : Str} (h : endsWith s suf = true) :
    s = s.take (s.length - suf.length) ++ suf := by
  unfold endsWith at h
  split at h
  · cases h
  · have : s.drop (s.length - suf.length) = suf := by simpa using h
    conv_lhs => rw [← List.take_append_drop (s.length - suf.length) s, this]

theorem dress_agree (sys : Sys) {P : Str → Prop} {g g' : Table} (h : AgreeOn P g g') {l l' : Option Table}
    (hl : Opt2 (AgreeOn P) l l') {name : Str} (hn : Looks P name) (value : Str) (fmt : Bool) (len : Int) :
    dress sys g l name value fmt len = dress sys g' l' name value fmt len := by
  unfold dress
  cases fmt with
  | false => rfl
  | true =>
    cases hs : startsWith name b!"DATE_" with
    | false => rfl
    | true =>
      simp only [Bool.and_self, if_true]
      unfold formatDate
      rw [getVariable_agree h hl (hn.2 (startsWith_append hs))]

theorem baseValue_agree (sys : Sys) {P : Str → Prop} {g g' : Table} (h : AgreeOn P g g') {l l' : Option Table}
    (hl : Opt2 (AgreeOn P) l l') (it : Item) (hi : ∀ f, it.name = some f → LooksList P f) {var : Str}
    (hv : P var) : AgreeOn P (baseValue sys g l it var).1 (baseValue sys g' l' it var).1 ∧
      (baseValue sys g l it var).2 = (baseValue sys g' l' it var).2 := by
  have h1 := funcvars_agree sys h hv
  unfold baseValue
  split
  · split
    · exact ⟨h, rfl⟩
    · split
      · exact ⟨h, foreachValue_agree h hl it hi⟩
      · exact ⟨h1, getVariable_agree h1 hl hv⟩
  · exact ⟨h1, getVariable_agree h1 hl hv⟩

/-- The loop stops before digits. -/
theorem walk_all (var : Str) (i : Nat) : ∀ j, walk var i < j → j ≤ i → ∃ c, var[j]? = some c ∧ isDigit c = true := by
  induction i with
  | zero => intro j h1 h2; omega
  | succ i ih =>
    intro j h1 h2
    rw [walk] at h1
    split at h1
    · rename_i c hc
      split at h1
      · by_cases hj : j = i + 1
        · exact ⟨c, by rw [hj, hc], ‹_›⟩
        · exact ih j h1 (by omega)
      · omega
    · omega

theorem splitSize_cases {w var : Str} {len : Int} (h : splitSize w = .ok (var, len)) :
    var = w ∨ ∃ ds, Spec.Digits ds ∧ w = var ++ c!"_" :: ds := by
  unfold splitSize at h
  split at h
  · cases h
  · simp only at h
    split at h
    · rename_i hl hc
      cases h
      obtain ⟨h1, h2⟩ := hc
      have hw := walk_all w (w.length - 1)
      generalize walk w (w.length - 1) = i at h1 h2 hw ⊢
      refine .inr ⟨w.drop (i + 1), ⟨?_, ?_⟩, ?_⟩
      · intro e; rw [List.drop_eq_nil_iff] at e; omega
      · intro c hc
        obtain ⟨j, hj, e⟩ := List.mem_iff_getElem.1 hc
        rw [List.length_drop] at hj
        obtain ⟨d, hd1, hd2⟩ := hw (i + 1 + j) (by omega) (by omega)
        rw [List.getElem_drop] at e
        rw [List.getElem?_eq_getElem (by omega), e] at hd1
        cases hd1
        exact (isDigit_iff c).1 hd2
      · have hi : i < w.length := by omega
        rw [List.getElem?_eq_getElem hi] at h1
        conv_lhs => rw [← List.take_append_drop i w, List.drop_eq_getElem_cons hi, Option.some.inj h1]
    · cases h; exact .inl rfl

theorem base_standsFor {w var : Str} {len : Int} (h : splitSize w = .ok (var, len)) :
    Spec.StandsFor w (splitFormatted var).1 := by
  unfold splitFormatted
  split
  · rename_i hf
    have e := endsWith_append hf
    have e2 : b!"_FORMATTED".length = 10 := by decide
    rw [e2] at e
    rcases splitSize_cases h with rfl | ⟨ds, hd, rfl⟩
    · conv => arg 1; rw [e]
      exact .formatted _
    · conv => arg 1; rw [e]
      exact .formattedSized _ ds hd
  · rcases splitSize_cases h with rfl | ⟨ds, hd, rfl⟩
    · exact .plain _
    · exact .sized _ ds hd

theorem derived_agree (sys : Sys) {P : Str → Prop} {g g' : Table} (h : AgreeOn P g g') {l l' : Option Table}
    (hl : Opt2 (AgreeOn P) l l') (it : Item) (hi : ∀ f, it.name = some f → LooksList P f) {name : Str}
    (hn : Looks P name) : ValRel (AgreeOn P) (derived sys g l it name) (derived sys g' l' it name) := by
  unfold derived
  cases e : splitSize name with
  | ub => trivial
  | ok r =>
    obtain ⟨var, len⟩ := r
    have key : ∀ (x y : Table × Option Str) (f : Bool), AgreeOn P x.1 y.1 ∧ x.2 = y.2 →
        ValRel (AgreeOn P) (.ok (x.1, x.2.map fun v => dress sys x.1 l name v f len))
          (.ok (y.1, y.2.map fun v => dress sys y.1 l' name v f len)) := by
      rintro ⟨x1, x2⟩ ⟨y1, y2⟩ f ⟨h1, h2⟩
      simp only at h1 h2
      subst h2
      refine ⟨h1, ?_⟩
      show x2.map _ = x2.map _
      congr 1
      funext v
      exact dress_agree sys h1 hl hn _ _ _
    exact key _ _ (splitFormatted var).2 (baseValue_agree sys h hl it hi (hn.1 _ (base_standsFor e)))

def rels (P : Str → Prop) : Rels Table Table := ⟨AgreeOn P, AgreeOn P, Looks P, LooksList P⟩

theorem formatVariable_agree (sys : Sys) {P : Str → Prop} {g g' : Table} (h : AgreeOn P g g')
    {l l' : Option Table} (hl : Opt2 (AgreeOn P) l l') (it : Item)
    (hi : ∀ f, it.name = some f → LooksList P f) {n : Str} (hn : Looks P n) :
    ValRel (AgreeOn P) (formatVariable sys g l it n) (formatVariable sys g' l' it n) := by
  unfold formatVariable
  rw [getVariable_agree h hl (hn.1 n (.plain n))]
  split
  · exact ⟨h, rfl⟩
  · split
    · exact ⟨h, rfl⟩
    · split
      · exact ⟨h, foreachValue_agree h hl it hi⟩
      · exact derived_agree sys h hl it hi hn

theorem evaluator_respects (sys : Sys) (P : Str → Prop) : Respects (rels P) (evaluator sys) where
  value g g' l l' it n h hl hi hn := formatVariable_agree sys h hl it hi hn
  list g g' l l' n h hl hn := by
    show splitListVariable n g l = splitListVariable n g' l'
    unfold splitListVariable
    rw [getVariable_agree h hl hn.1]

theorem valueByte_eq (c : Byte) : valueByte c = Spec.nameByte c := by
  have : ∀ i : Fin 256, valueByte (UInt8.ofNat i) = Spec.nameByte (UInt8.ofNat i) := by decide +kernel
  have h := this ⟨c.toNat, c.toNat_lt⟩
  simpa using h

theorem foreachValueVariable_eq (name item : Str) :
    foreachValueVariable name item = (name ++ b!"__" ++ item).map Spec.nameByte := by
  unfold foreachValueVariable
  exact List.map_congr_left fun c _ => valueByte_eq c

/-- A template fits the variables it names. -/
theorem fits_names (P : Str → Prop) (tmpl : List Node) (h : ∀ k, Spec.Names tmpl k → P k) :
    ∀ n ∈ tmpl, Fits (Looks P) (LooksList P) n := by
  intro n hn
  refine ⟨fun w hw => ⟨fun x hx => h x (.asked hn hw hx), ?_⟩, fun w hw => ⟨h w (.list hn hw), fun item => ?_⟩⟩
  · rintro ⟨r, rfl⟩
    exact h _ (.dates hn hw)
  · rw [foreachValueVariable_eq]
    exact h _ (.mapped item hn hw)

end Blogc.Render.Nam
