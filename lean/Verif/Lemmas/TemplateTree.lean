import Verif.Lemmas.TemplateRound

/-!
# The counters accept well-nested templates
-/

namespace Blogc.Template

open Blogc Blogc.Doc

theorem brRun_append (br : Br) (xs ys : List NodeType) :
    brRun br (xs ++ ys) = (brRun br xs).bind (brRun · ys) := by
  induction xs generalizing br with
  | nil => rfl
  | cons k ks ih =>
    simp only [List.cons_append, brRun]
    cases brNext br k with
    | none => rfl
    | some b => simp only [Option.bind_some]; exact ih b

/-- The counters are as expected inside a block (or not) and inside an iterator (or not). -/
structure Fit (inBlock inForeach : Bool) (br : Br) : Prop where
  blk : br.blockOpen = inBlock
  fe : br.foreachOpen = inForeach
  ifs : inBlock = true → br.blockIfCount ≤ br.ifCount
  held : inBlock = true → inForeach = false → br.blockForeachOpen = false

/-- The counters after well-nested statements: as before, as far as they matter. -/
structure Same (br br' : Br) : Prop where
  blk : br'.blockOpen = br.blockOpen
  fe : br'.foreachOpen = br.foreachOpen
  ifs : br'.ifCount = br.ifCount
  base : br.blockOpen = true → br'.blockIfCount = br.blockIfCount
  held : br.blockOpen = true → br'.blockForeachOpen = br.blockForeachOpen
  els : br.elseOpen = false → br'.elseOpen = false

theorem Same.refl (br : Br) : Same br br := ⟨rfl, rfl, rfl, fun _ => rfl, fun _ => rfl, id⟩

theorem Same.trans {a b c : Br} (h : Same a b) (g : Same b c) : Same a c :=
  ⟨g.blk.trans h.blk, g.fe.trans h.fe, g.ifs.trans h.ifs,
    fun hb => (g.base (h.blk.trans hb)).trans (h.base hb),
    fun hb => (g.held (h.blk.trans hb)).trans (h.held hb), fun he => g.els (h.els he)⟩

theorem Fit.of_same {i f : Bool} {a b : Br} (h : Fit i f a) (s : Same a b) : Fit i f b := by
  refine ⟨s.blk.trans h.blk, s.fe.trans h.fe, fun hi => ?_, fun hi hf => ?_⟩
  · rw [s.base (h.blk.trans hi), s.ifs]; exact h.ifs hi
  · rw [s.held (h.blk.trans hi)]; exact h.held hi hf

theorem cond_type (c : Cond) : c.node.type = .ifdef ∨ c.node.type = .ifndef ∨ c.node.type = .if_ := by
  cases c <;> simp [Cond.node]

theorem brNext_cond (c : Cond) (br : Br) :
    brNext br c.node.type = some { br with ifCount := br.ifCount + 1, elseOpen := false } := by
  rcases cond_type c with h | h | h <;> rw [h] <;> rfl

/-- A conditional that has been opened is open. -/
theorem ifOpen_of {i f : Bool} {br b : Br} (h : Fit i f br)
    (s : Same { br with ifCount := br.ifCount + 1, elseOpen := false } b) : b.ifOpen := by
  rw [Br.ifOpen]
  have h1 := s.ifs
  have h2 := s.blk
  simp only at h1 h2
  cases hi : br.blockOpen with
  | true =>
    refine Or.inl ⟨h2.trans hi, ?_⟩
    have h3 : b.blockIfCount = br.blockIfCount := s.base hi
    have h4 := h.ifs (h.blk ▸ hi)
    omega
  | false => exact Or.inr ⟨h2.trans hi, by omega⟩

theorem tree_run (t : T) : ∀ (i f : Bool) (br : Br), Doc.Ok i f t → Fit i f br →
    ∃ br', brRun br ((nodes t).map Node.type) = some br' ∧ Same br br' := by
  induction t with
  | done => intro i f br _ _; exact ⟨br, rfl, Same.refl br⟩
  | text s rest ih => intro i f br hok hfit; exact ih i f br hok hfit
  | var n rest ih => intro i f br hok hfit; exact ih i f br hok.2 hfit
  | cond c yes rest ihy ihr =>
    intro i f br hok hfit
    obtain ⟨_, hy, hr⟩ := hok
    have hfit1 : Fit i f { br with ifCount := br.ifCount + 1, elseOpen := false } :=
      ⟨hfit.blk, hfit.fe, fun hi => Nat.le_succ_of_le (hfit.ifs hi), hfit.held⟩
    obtain ⟨b1, e1, s1⟩ := ihy i f _ hy hfit1
    have hopen := ifOpen_of hfit s1
    have s2 : Same br { b1 with ifCount := b1.ifCount - 1, elseOpen := false } :=
      ⟨s1.blk, s1.fe, by simp [s1.ifs], s1.base, s1.held, fun _ => rfl⟩
    obtain ⟨b2, e2, s3⟩ := ihr i f _ hr (hfit.of_same s2)
    refine ⟨b2, ?_, s2.trans s3⟩
    simp only [nodes, List.cons_append, List.map_cons, List.map_append, brRun, brNext_cond, Option.bind_some, mark]
    rw [brRun_append, e1, Option.bind_some]
    simp only [brRun, brNext]
    rw [if_pos hopen, Option.bind_some, e2]
  | condElse c yes no rest ihy ihn ihr =>
    intro i f br hok hfit
    obtain ⟨_, hy, hn, hr⟩ := hok
    have hfit1 : Fit i f { br with ifCount := br.ifCount + 1, elseOpen := false } :=
      ⟨hfit.blk, hfit.fe, fun hi => Nat.le_succ_of_le (hfit.ifs hi), hfit.held⟩
    obtain ⟨b1, e1, s1⟩ := ihy i f _ hy hfit1
    have hopen := ifOpen_of hfit s1
    have hfit2 : Fit i f { b1 with elseOpen := true } := by
      have := hfit1.of_same s1
      exact ⟨this.blk, this.fe, this.ifs, this.held⟩
    obtain ⟨b2, e2, s2⟩ := ihn i f _ hn hfit2
    have s12 : Same { br with ifCount := br.ifCount + 1, elseOpen := true } b2 := by
      refine Same.trans (b := { b1 with elseOpen := true }) ?_ s2
      exact ⟨s1.blk, s1.fe, s1.ifs, s1.base, s1.held, fun h => nomatch h⟩
    have hopen2 : b2.ifOpen := by
      have h1 := s12.ifs
      have h2 := s12.blk
      simp only at h1 h2
      rw [Br.ifOpen]
      cases hi : br.blockOpen with
      | true =>
        refine Or.inl ⟨h2.trans hi, ?_⟩
        have h3 : b2.blockIfCount = br.blockIfCount := s12.base hi
        have h4 := hfit.ifs (hfit.blk ▸ hi)
        omega
      | false => exact Or.inr ⟨h2.trans hi, by omega⟩
    have s3 : Same br { b2 with ifCount := b2.ifCount - 1, elseOpen := false } :=
      ⟨s12.blk, s12.fe, by simp [s12.ifs], s12.base, s12.held, fun _ => rfl⟩
    obtain ⟨b3, e3, s4⟩ := ihr i f _ hr (hfit.of_same s3)
    refine ⟨b3, ?_, s3.trans s4⟩
    simp only [nodes, List.cons_append, List.append_assoc, List.map_cons, List.map_append, brRun, brNext_cond,
      Option.bind_some, mark]
    rw [brRun_append, e1, Option.bind_some]
    simp only [brRun, brNext]
    rw [if_pos ⟨hopen, s1.els rfl⟩, Option.bind_some, brRun_append, e2, Option.bind_some]
    simp only [brRun, brNext]
    rw [if_pos hopen2, Option.bind_some, e3]
  | foreach n body rest ihb ihr =>
    intro i f br hok hfit
    obtain ⟨_, rfl, hb, hr⟩ := hok
    have hfit1 : Fit i true { br with foreachOpen := true } :=
      ⟨hfit.blk, rfl, hfit.ifs, fun _ h => nomatch h⟩
    obtain ⟨b1, e1, s1⟩ := ihb i true _ hb hfit1
    have hin : b1.foreachIn := by
      rw [Br.foreachIn]
      cases hi : br.blockOpen with
      | true => exact Or.inl ⟨s1.blk.trans hi, (s1.held hi).trans (hfit.held (hfit.blk ▸ hi) rfl), s1.fe⟩
      | false => exact Or.inr ⟨s1.blk.trans hi, s1.fe⟩
    have s2 : Same br { b1 with foreachOpen := false } :=
      ⟨s1.blk, hfit.fe.symm, s1.ifs, s1.base, s1.held, s1.els⟩
    obtain ⟨b2, e2, s3⟩ := ihr i false _ hr (hfit.of_same s2)
    refine ⟨b2, ?_, s2.trans s3⟩
    simp only [nodes, List.cons_append, List.map_cons, List.map_append, brRun, brNext, mark]
    rw [if_pos hfit.fe, Option.bind_some, brRun_append, e1, Option.bind_some]
    simp only [brRun, brNext]
    rw [if_pos hin, Option.bind_some, e2]
  | block k body rest ihb ihr =>
    intro i f br hok hfit
    obtain ⟨_, rfl, hb, hr⟩ := hok
    have hfit1 : Fit true f
        { br with blockIfCount := br.ifCount, blockForeachOpen := br.foreachOpen, blockOpen := true } :=
      ⟨rfl, hfit.fe, fun _ => Nat.le_refl _, fun _ hf => hfit.fe.trans hf⟩
    obtain ⟨b1, e1, s1⟩ := ihb true f _ hb hfit1
    have hbi : b1.blockIfCount = br.ifCount := s1.base rfl
    have hbf : b1.blockForeachOpen = br.foreachOpen := s1.held rfl
    have s2 : Same br { b1 with blockOpen := false } :=
      ⟨hfit.blk.symm, s1.fe, s1.ifs, fun h => absurd h (by simp [hfit.blk]), fun h => absurd h (by simp [hfit.blk]),
        s1.els⟩
    obtain ⟨b2, e2, s3⟩ := ihr false f _ hr (hfit.of_same s2)
    refine ⟨b2, ?_, s2.trans s3⟩
    simp only [nodes, List.cons_append, List.map_cons, List.map_append, brRun, brNext, mark]
    rw [if_pos hfit.blk, Option.bind_some, brRun_append, e1, Option.bind_some]
    simp only [brRun, brNext]
    have hcond : b1.blockOpen = true ∧ b1.ifCount = b1.blockIfCount ∧
        ¬ (b1.blockForeachOpen = false ∧ b1.foreachOpen = true) := by
      refine ⟨s1.blk, s1.ifs.trans hbi.symm, ?_⟩
      rintro ⟨h1, h2⟩
      rw [hbf] at h1
      rw [s1.fe] at h2
      simp only at h2
      rw [h1] at h2
      cases h2
    rw [if_pos hcond, Option.bind_some, e2]

/-- The counters accept well-nested templates, and all is closed at the end. -/
theorem tree_accepted {t : T} (h : Doc.Ok false false t) :
    ∃ br', brRun {} ((nodes t).map Node.type) = some br' ∧ br'.ifCount = 0 ∧ br'.blockOpen = false ∧
      br'.foreachOpen = false := by
  obtain ⟨br', e, s⟩ := tree_run t false false {} h ⟨rfl, rfl, fun h => (nomatch h), fun h => (nomatch h)⟩
  exact ⟨br', e, s.ifs, s.blk, s.fe⟩

end Blogc.Template
