import Verif.Spec.Text
import Verif.Props.C37
import Verif.Props.C38

/-!
# C39: plain text
-/

namespace Blogc.C39

open Blogc Blogc.Content Blogc.Spec

/-- The state of the parser when `n` spaces have been read and not written. -/
def Pending (n : Nat) (st : ISt) : Prop :=
  (n = 0 ∧ st.state = .start) ∨ (n = 1 ∧ st.state = .lineBreakStart) ∨
    (2 ≤ n ∧ st.state = .lineBreak ∧ st.count = n)

theorem spaceEntity : entity c!" " = b!" " := by decide

theorem nlEntity (c : Byte) (h : c = c!"\n" ∨ c = c!"\r") : entity c = [c] := by
  rcases h with rfl | rfl <;> decide

theorem replicate_two (n : Nat) : List.replicate (n + 2) c!" " = b!"  " ++ List.replicate n c!" " := by
  rw [Nat.add_comm, ← List.replicate_append_replicate]; rfl

/-- Some number of iterations lead to the result for the rest of the text. -/
def Leads (rec : Str → Nat → Run Str) (mem : Str) (st : ISt) (out : Str) : Prop :=
  ∃ k, ∀ n, runL (inlineStep rec mem mem.length) (n + k) st = .ok out

theorem Leads.step {rec : Str → Nat → Run Str} {mem : Str} {st st' : ISt} {out : Str}
    (h : inlineStep rec mem mem.length st = .ok (.inl st')) (h' : Leads rec mem st' out) :
    Leads rec mem st out := by
  obtain ⟨k, hk⟩ := h'
  refine ⟨k + 1, fun n => ?_⟩
  rw [← Nat.add_assoc, runL, h]
  exact hk n

theorem Leads.done {rec : Str → Nat → Run Str} {mem : Str} {st : ISt} {out : Str}
    (h : inlineStep rec mem mem.length st = .ok (.inr out)) : Leads rec mem st out :=
  ⟨1, fun n => by rw [runL, h]⟩

theorem leads_end (rec : Str → Nat → Run Str) (pre : Str) (st : ISt)
    (hcur : st.current = pre.length) (hs : st.state = .start) : Leads rec pre st st.rv := by
  refine Leads.done ?_
  unfold inlineStep
  rw [if_neg (by omega)]
  simp [inlineEnd, hs]

/-- In the start state, one ordinary character is escaped and written. -/
theorem start_ordinary (rec : Str → Nat → Run Str) (pre rest : Str) (c : Byte) (st : ISt)
    (hcur : st.current = pre.length) (hs : st.state = .start) (hm : c ∉ markup)
    (hsp : c ≠ c!" ") :
    inlineStep rec (pre ++ c :: rest) (pre ++ c :: rest).length st =
      .ok (.inl { st with current := st.current + 1, rv := st.rv ++ entity c }) := by
  simp only [markup, List.mem_cons, List.not_mem_nil, or_false, not_or] at hm
  obtain ⟨m1, m2, m3, m4, m5, m6, m7⟩ := hm
  have hg : (pre ++ c :: rest)[st.current]? = some c := by rw [hcur]; simp
  unfold inlineStep
  rw [if_pos (by simp [hcur]), hg]
  simp only [hs, inlineStart, if_neg m1, if_neg m2, if_neg m3, if_neg m4, if_neg m5, if_neg m6,
    if_neg m7, if_neg hsp, ite_self]
  simp [ISt.brk, ISt.add, hs]

theorem leads_plain (rec : Str → Nat → Run Str) (mem : Str) (hm : ∀ c ∈ mem, c ∉ markup) :
    ∀ (rest pre : Str) (n : Nat) (st : ISt), mem = pre ++ rest → st.current = pre.length →
      Pending n st → (rest = [] → n = 0) → Leads rec mem st (st.rv ++ plainFrom n rest) := by
  intro rest
  induction rest with
  | nil =>
    intro pre n st he hcur hp h0
    have h0 := h0 rfl
    subst h0
    simp only [List.append_nil] at he
    subst he
    have hs : st.state = .start := by rcases hp with h | h | h <;> first | exact h.2 | omega
    simpa [plainFrom] using leads_end rec mem st hcur hs
  | cons c rest ih =>
    intro pre n st he hcur hp _
    have hmc : c ∉ markup := hm c (by rw [he]; simp)
    have hg : mem[st.current]? = some c := by rw [he, hcur]; simp
    have hlt : st.current < mem.length := by rw [he, hcur]; simp
    have he' : mem = (pre ++ [c]) ++ rest := by rw [he]; simp
    have hlast : (st.current == mem.length - 1) = rest.isEmpty := by
      rw [he, hcur]
      cases rest <;> simp <;> omega
    by_cases hsp : c = c!" "
    · subst hsp
      rw [plainFrom, if_pos rfl]
      cases rest with
      | nil =>
        -- the last character is a space
        rcases hp with ⟨rfl, hs⟩ | ⟨rfl, hs⟩ | ⟨h2, hs, hcn⟩
        · have e : inlineStep rec mem mem.length st =
              .ok (.inl { st with current := st.current + 1, rv := st.rv ++ b!" " }) := by
            unfold inlineStep
            rw [if_pos hlt, hg]
            simp [hs, inlineStart, hlast, ISt.brk, ISt.add, spaceEntity]
          refine Leads.step e ?_
          simp only [List.append_nil] at he'
          exact leads_end rec mem _ (by rw [he', hcur]; simp) hs
        · have e : inlineStep rec mem mem.length st =
              .ok (.inl { st with current := st.current + 1, rv := st.rv ++ b!"<br />", state := .start }) := by
            unfold inlineStep
            rw [if_pos hlt, hg]
            simp [hs, inlineDash, hlast, ISt.brk, ISt.add, ISt.goto]
          refine Leads.step e ?_
          simp only [List.append_nil] at he'
          exact leads_end rec mem _ (by rw [he', hcur]; simp) rfl
        · have e : inlineStep rec mem mem.length st =
              .ok (.inl { st with current := st.current + 1, rv := st.rv ++ b!"<br />", state := .start }) := by
            unfold inlineStep
            rw [if_pos hlt, hg]
            simp [hs, inlineDash, hlast, ISt.brk, ISt.add, ISt.goto]
          refine Leads.step e ?_
          simp only [List.append_nil] at he'
          have := leads_end rec mem { st with current := st.current + 1, rv := st.rv ++ b!"<br />", state := .start } (by rw [he', hcur]; simp) rfl
          rw [plainFrom, if_pos (by omega)]
          exact this
      | cons d rest =>
        have hcur' : st.current + 1 = (pre ++ [c!" "]).length := by simp [hcur]
        rcases hp with ⟨rfl, hs⟩ | ⟨rfl, hs⟩ | ⟨h2, hs, hcn⟩
        · have e : inlineStep rec mem mem.length st =
              .ok (.inl { st with current := st.current + 1, state := .lineBreakStart }) := by
            unfold inlineStep
            rw [if_pos hlt, hg]
            simp [hs, inlineStart, hlast, ISt.brk, ISt.goto]
          exact Leads.step e (ih (pre ++ [c!" "]) 1 _ he' hcur' (.inr (.inl ⟨rfl, rfl⟩)) (by simp))
        · have e : inlineStep rec mem mem.length st =
              .ok (.inl { st with current := st.current + 1, state := .lineBreak, count := 2 }) := by
            unfold inlineStep
            rw [if_pos hlt, hg]
            simp [hs, inlineDash, hlast, ISt.brk]
          exact Leads.step e (ih (pre ++ [c!" "]) 2 _ he' hcur'
            (.inr (.inr ⟨by omega, rfl, rfl⟩)) (by simp))
        · have e : inlineStep rec mem mem.length st =
              .ok (.inl { st with current := st.current + 1, count := st.count + 1 }) := by
            unfold inlineStep
            rw [if_pos hlt, hg]
            simp [hs, inlineDash, hlast, ISt.brk]
          exact Leads.step e (ih (pre ++ [c!" "]) (n + 1) _ he' hcur'
            (.inr (.inr ⟨by omega, hs, by simp [hcn]⟩)) (by simp))
    · rw [plainFrom, if_neg hsp]
      have hcur' : st.current + 1 = (pre ++ [c]).length := by simp [hcur]
      -- from the start state on
      have hstart : ∀ r, Leads rec mem { st with rv := r, state := .start }
          (r ++ (entity c ++ plainFrom 0 rest)) := by
        intro r
        have e := start_ordinary rec pre rest c { st with rv := r, state := .start } hcur rfl hmc hsp
        rw [← he] at e
        refine Leads.step e ?_
        have := ih (pre ++ [c]) 0 { st with current := st.current + 1, rv := r ++ entity c, state := .start }
          he' hcur' (.inl ⟨rfl, rfl⟩) (by simp)
        simpa [List.append_assoc] using this
      rcases hp with ⟨rfl, hs⟩ | ⟨rfl, hs⟩ | ⟨h2, hs, hcn⟩
      · rw [if_neg (by omega)]
        have := hstart st.rv
        have e : { st with rv := st.rv, state := IState.start } = st := by cases st; simp_all
        rw [e] at this
        simpa [List.append_assoc] using this
      · rw [if_neg (by omega)]
        have e : inlineStep rec mem mem.length st =
            .ok (.inl { st with rv := st.rv ++ b!" ", state := .start }) := by
          unfold inlineStep
          rw [if_pos hlt, hg]
          simp [hs, inlineDash, hsp, ISt.cont, ISt.add, ISt.goto]
        refine Leads.step e ?_
        have := hstart (st.rv ++ b!" ")
        simpa [List.append_assoc] using this
      · split
        next hnl =>
          have e : inlineStep rec mem mem.length st =
              .ok (.inl { st with current := st.current + 1, rv := st.rv ++ (b!"<br />" ++ [c]), state := .start }) := by
            unfold inlineStep
            rw [if_pos hlt, hg]
            simp [hs, inlineDash, hsp, hnl.2, ISt.brk, ISt.add, ISt.goto]
          refine Leads.step e ?_
          have := ih (pre ++ [c]) 0 { st with current := st.current + 1, rv := st.rv ++ (b!"<br />" ++ [c]), state := .start }
            he' hcur' (.inl ⟨rfl, rfl⟩) (by simp)
          simpa [List.append_assoc] using this
        next hnl =>
          have hnl : ¬ (c = c!"\n" ∨ c = c!"\r") := fun h => hnl ⟨h2, h⟩
          have e : inlineStep rec mem mem.length st =
              .ok (.inl { st with rv := st.rv ++ List.replicate n c!" ", state := .start }) := by
            unfold inlineStep
            rw [if_pos hlt, hg]
            simp only [hs, inlineDash, if_neg hsp, if_neg hnl]
            rw [← hcn]
            rfl
          refine Leads.step e ?_
          have := hstart (st.rv ++ List.replicate n c!" ")
          simpa [List.append_assoc] using this

/-- Text without markup characters is written as it is, escaped, with line breaks for
two or more spaces at the end of a line. -/
theorem plain_text (s : Str) (hm : ∀ c ∈ s, c ∉ markup) :
    parseInline s = .ok (plain s) := by
  have ht := C38.terminates s
  obtain ⟨k, hk⟩ := leads_plain (inlineInternal s.length) s hm s [] 0 ISt.init rfl rfl
    (.inl ⟨rfl, rfl⟩) (by simp)
  unfold parseInline at ht ⊢
  rw [inlineInternal] at ht ⊢
  rw [← runL_mono _ k _ ht]
  exact hk _

theorem plainFrom_single : ∀ (s : Str) (n : Nat), n ≤ 1 →
    (∀ a b, List.replicate n c!" " ++ s ≠ a ++ b!"  " ++ b) →
    plainFrom n s = List.replicate n c!" " ++ htmlentities s := by
  intro s
  induction s with
  | nil => intro n hn _; rw [plainFrom, if_neg (by omega)]; simp [htmlentities]
  | cons c s ih =>
    intro n hn h
    rw [plainFrom, C37.htmlentities_cons]
    have hs : ∀ a b, s ≠ a ++ b!"  " ++ b := by
      intro a b hab
      exact h (List.replicate n c!" " ++ c :: a) b (by rw [hab]; simp)
    split
    next hc =>
      subst hc
      have hn0 : n = 0 := by
        rcases Nat.lt_or_ge n 1 with h0 | h0
        · omega
        · have : n = 1 := by omega
          subst this
          exact absurd rfl (h [] s)
      subst hn0
      rw [ih 1 (by omega) (by intro a b hab; exact h a b (by simpa using hab))]
      simp [spaceEntity]
    · rw [if_neg (by omega), ih 0 (by omega) (by simpa using hs)]
      simp

/-- Without two spaces in a row, plain text is only escaped; so a browser shows exactly
the text that was written. -/
theorem plain_text_single (s : Str) (hm : ∀ c ∈ s, c ∉ markup)
    (hs : ∀ a b, s ≠ a ++ b!"  " ++ b) :
    parseInline s = .ok (htmlentities s) ∧ decode (htmlentities s) = s := by
  refine ⟨?_, C37.decode_escaped s⟩
  rw [plain_text s hm, plain, plainFrom_single s 0 (by omega) (by simpa using hs)]
  rfl

example : parseInline b!"a <b> & c  \nd   e" = .ok b!"a &lt;b&gt; &amp; c<br />\nd   e" := by
  rw [plain_text _ (by decide)]
  decide

end Blogc.C39
