import Verif.Props.C15b

/-!
# C16: no configuration value is silently lost
-/

namespace Blogc.C16

open Blogc Blogc.Spec Blogc.Spec.Config Blogc.Config

/-- What a parse answers to a query. -/
def getOf (src : Str) (lists : List Str) (sec key : Str) : Option Str :=
  match parse src lists with
  | some (.ok (.ok c)) => c.get sec key
  | _ => none

def getListOf (src : Str) (lists : List Str) (sec : Str) : Option (List Str) :=
  match parse src lists with
  | some (.ok (.ok c)) => c.getList sec
  | _ => none

/-- The property is false. A list item of one character on a last line without a
line end is dropped without an error. -/
theorem last_item_lost_violated : getListOf b!"[posts]\nab\nc" [b!"posts"] b!"posts" = some [b!"ab"] := by
  decide

/-- So is the pair of a last line `key = ` (with a blank after the equals sign). -/
theorem last_empty_value_lost_violated :
    (∃ c, parse b!"[a]\nx = 1\ny = " [] = some (.ok (.ok c))) ∧
    getOf b!"[a]\nx = 1\ny = " [] b!"a" b!"x" = some b!"1" ∧
    getOf b!"[a]\nx = 1\ny = " [] b!"a" b!"y" = none := by
  refine ⟨⟨_, rfl⟩, by decide, by decide⟩

/-- So is a value whose closing quote is missing, without an error. -/
theorem unterminated_quote_lost_violated :
    (∃ c, parse b!"[a]\nx = 1\ny = \"abc\nz = 2\n" [] = some (.ok (.ok c))) ∧
    getOf b!"[a]\nx = 1\ny = \"abc\nz = 2\n" [] b!"a" b!"x" = some b!"1" ∧
    getOf b!"[a]\nx = 1\ny = \"abc\nz = 2\n" [] b!"a" b!"y" = none ∧
    getOf b!"[a]\nx = 1\ny = \"abc\nz = 2\n" [] b!"a" b!"z" = none := by
  refine ⟨⟨_, rfl⟩, by decide, by decide, by decide⟩

/-- An escaped first character loses the white space after it. -/
theorem escape_loses_blank_violated : getOf b!"[a]\nx = \\a b\n" [] b!"a" b!"x" = some b!"ab" := by
  decide

variable {src : Str} {lists : List Str} {H : Hist} {start : Nat}

/-- A last line that the parser keeps although it has no line end. -/
def KeptLast : Line → Prop
  | .pair _ v q => q = true ∨ v ≠ []
  | .item v q => q = true ∨ 2 ≤ v.length
  | _ => True

theorem plain_split (v : Str) (hne : v ≠ []) : ∃ w c, v = w ++ [c] :=
  ⟨v.dropLast, v.getLast hne, (List.dropLast_append_getLast hne).symm⟩

theorem isBlank_false {c : Byte} (h : ¬ White c) : isBlank c = false := by
  cases hb : isBlank c with
  | false => rfl
  | true => exact absurd (isBlank_white hb) h

/-- A plain value that ends the input. -/
theorem run_plain_last {n : Str} {t : Trie Str} (k v pre : Str) (hsrc : src = pre ++ v)
    (hv : PlainOk v) (hne : v ≠ []) (htk : Trimmed k) :
    Reach (step src lists)
      (mid (H ++ [(n, .map t)]) pre.length start .valueStart (some (k ++ b!" ")) (some []))
      (mid (H ++ [(n, .map (t.insert k v).1)]) src.length start .start none none) := by
  obtain ⟨hnul, hnl, hbs, htrim, hq⟩ := hv
  obtain ⟨w, c, rfl⟩ := plain_split v hne
  have hcn : isNl c = false :=
    isNl_false_of (fun e => hnl.1 (by simp [← e])) (fun e => hnl.2 (by simp [← e]))
  have hcbs : c ≠ c!"\\" := fun e => hbs (by simp [← e])
  have hlast : src = (pre ++ w) ++ c :: [] := by simp [hsrc]
  have hlen : src.length = (pre ++ w).length + 1 := by simp [hlast]; omega
  have hreach : Reach (step src lists)
      (mid (H ++ [(n, .map t)]) pre.length start .valueStart (some (k ++ b!" ")) (some []))
      (mid (H ++ [(n, .map t)]) (pre ++ w).length start .value (some (k ++ b!" ")) (some w)) := by
    cases w with
    | nil =>
      refine Reach.one ?_
      have hg : src[pre.length]? = some c := by simpa using get_at hlast
      rw [step_mid hg _ _ _ (Or.inr hcbs)]
      have hcb := isBlank_false (htrim.1 c rfl)
      have hcq : (c == c!"\"") = false := by
        have : c ≠ c!"\"" := by simpa using hq
        simp [this]
      have : pre.length + 1 = src.length := by simp [hlen]
      simp [dispatch, mid, hcb, hcq, this]
    | cons c0 w =>
      have hs1 : src = pre ++ c0 :: (w ++ [c]) := by simp [hsrc]
      have hcb := isBlank_false (htrim.1 c0 rfl)
      have hcq : (c0 == c!"\"") = false := by
        have : c0 ≠ c!"\"" := by simpa using hq
        simp [this]
      have hcn0 : isNl c0 = false :=
        isNl_false_of (fun e => hnl.1 (by simp [← e])) (fun e => hnl.2 (by simp [← e]))
      have hlt := lt_at hs1 (by simp)
      refine Reach.head (b := mid (H ++ [(n, .map t)]) (pre.length + 1) start .value
        (some (k ++ b!" ")) (some [c0])) ?_ ?_
      · rw [step_mid (get_at hs1) _ _ _ (Or.inr (fun e => hbs (by simp [← e])))]
        have : pre.length + 1 ≠ src.length := by omega
        simp [dispatch, mid, hcb, hcq, hcn0, this, St.push, advO, adv]
      · have := walk_push (src := src) (lists := lists) (H := H ++ [(n, .map t)])
          (start := start) .value (some (k ++ b!" "))
          (fun c => c ≠ c!"\\" ∧ isNl c = false)
          (by
            intro cur c v hc hlt hP
            rw [step_mid hc _ _ _ (Or.inr hP.1)]
            have : cur + 1 ≠ src.length := by omega
            simp [dispatch, mid, adv, advO, St.push, hP.2, this])
          w (pre ++ [c0]) [c] [c0] (by simp [hsrc]) (by simp)
          (by
            intro x hx
            exact ⟨fun e => hbs (by simp [← e, hx]),
              isNl_false_of (fun e => hnl.1 (by simp [← e, hx]))
                (fun e => hnl.2 (by simp [← e, hx]))⟩)
        simpa using this
  refine hreach.trans (Reach.one ?_)
  rw [step_mid (get_at hlast) _ _ _ (Or.inr hcbs)]
  have hi := insertValue_mid H n t (pre ++ w).length start .value
    (k ++ b!" ") (some (w ++ [c])) (w ++ [c])
  have e5 : (mid (H ++ [(n, .map t)]) (pre ++ w).length start .value
    (some (k ++ b!" ")) (some w)).state = .value := rfl
  have e7 : (mid (H ++ [(n, .map t)]) (pre ++ w).length start .value
    (some (k ++ b!" ")) (some w)).current = (pre ++ w).length := rfl
  have e8 : (mid (H ++ [(n, .map t)]) (pre ++ w).length start .value
    (some (k ++ b!" ")) (some w)).push c = some (mid (H ++ [(n, .map t)]) (pre ++ w).length start
      .value (some (k ++ b!" ")) (some (w ++ [c]))) := rfl
  have e9 : (mid (H ++ [(n, .map t)]) (pre ++ w).length start .value
    (some (k ++ b!" ")) (some (w ++ [c]))).value = some (w ++ [c]) := rfl
  simp only [dispatch, e5, e7, hcn, hlen, beq_self_eq_true, Bool.or_true, if_true, endValue,
    lastPush, Bool.false_eq_true, if_false, e8, Option.bind_eq_bind, Option.bind_some, e9,
    cstr_of_nulFree _ hnul, rstrip_trimmed _ htrim, hi, strip_key k htk]
  simp [mid, advO, adv]

theorem run_plain_item_last {n : Str} {l : List Str} (v pre : Str) (hsrc : src = pre ++ v)
    (hv : PlainOk v) (hf : FirstOk v) (hlen2 : 2 ≤ v.length) :
    Reach (step src lists)
      (mid (H ++ [(n, .list l)]) pre.length start .start none none)
      (mid (H ++ [(n, .list (l ++ [v]))]) src.length pre.length .start none none) := by
  obtain ⟨hnul, hnl, hbs, htrim, hq⟩ := hv
  obtain ⟨hne, f1, f2, f3⟩ := hf
  obtain ⟨w, c, rfl⟩ := plain_split v hne
  have hcn : isNl c = false :=
    isNl_false_of (fun e => hnl.1 (by simp [← e])) (fun e => hnl.2 (by simp [← e]))
  have hcbs : c ≠ c!"\\" := fun e => hbs (by simp [← e])
  have hlast : src = (pre ++ w) ++ c :: [] := by simp [hsrc]
  have hlen : src.length = (pre ++ w).length + 1 := by simp [hlast]; omega
  have hreach : Reach (step src lists)
      (mid (H ++ [(n, .list l)]) pre.length start .start none none)
      (mid (H ++ [(n, .list l)]) (pre ++ w).length pre.length .list none (some w)) := by
    cases w with
    | nil => simp at hlen2
    | cons c0 w =>
      have hs1 : src = pre ++ c0 :: (w ++ [c]) := by simp [hsrc]
      have hcb := isBlank_false (htrim.1 c0 rfl)
      have hcq : (c0 == c!"\"") = false := by
        have : c0 ≠ c!"\"" := by simpa using hq
        simp [this]
      refine Reach.head (step_start_list (get_at hs1) (by simpa using f1)
        (by simpa using f2) (by simpa using f3) (htrim.1 c0 rfl)) ?_
      refine Reach.head (b := mid (H ++ [(n, .list l)]) (pre.length + 1) pre.length .list
        none (some [c0])) ?_ ?_
      · rw [step_mid (get_at hs1) _ _ _ (Or.inr (fun e => hbs (by simp [← e])))]
        simp [dispatch, mid, hcb, hcq, St.push, advO, adv]
      · have := walk_push (src := src) (lists := lists) (H := H ++ [(n, .list l)])
          (start := pre.length) .list none
          (fun c => c ≠ c!"\\" ∧ isNl c = false)
          (by
            intro cur c v hc hlt hP
            rw [step_mid hc _ _ _ (Or.inr hP.1)]
            have : cur + 1 ≠ src.length := by omega
            simp [dispatch, mid, adv, advO, St.push, hP.2, this])
          w (pre ++ [c0]) [c] [c0] (by simp [hsrc]) (by simp)
          (by
            intro x hx
            exact ⟨fun e => hbs (by simp [← e, hx]),
              isNl_false_of (fun e => hnl.1 (by simp [← e, hx]))
                (fun e => hnl.2 (by simp [← e, hx]))⟩)
        simpa using this
  refine hreach.trans (Reach.one ?_)
  rw [step_mid (get_at hlast) _ _ _ (Or.inr hcbs)]
  have hi := appendItem_mid H n l (pre ++ w).length pre.length .list none (some (w ++ [c])) (w ++ [c])
  have e5 : (mid (H ++ [(n, .list l)]) (pre ++ w).length pre.length .list none (some w)).state =
    .list := rfl
  have e7 : (mid (H ++ [(n, .list l)]) (pre ++ w).length pre.length .list none (some w)).current =
    (pre ++ w).length := rfl
  have e8 : (mid (H ++ [(n, .list l)]) (pre ++ w).length pre.length .list none (some w)).push c =
    some (mid (H ++ [(n, .list l)]) (pre ++ w).length pre.length .list none (some (w ++ [c]))) := rfl
  have e9 : (mid (H ++ [(n, .list l)]) (pre ++ w).length pre.length .list none
    (some (w ++ [c]))).value = some (w ++ [c]) := rfl
  have hst : strip (w ++ [c]) = w ++ [c] := by
    have := strip_pad [] (w ++ [c]) [] htrim (by simp) (by simp)
    simpa using this
  simp only [dispatch, e5, e7, hcn, hlen, beq_self_eq_true, Bool.or_true, if_true, endItem,
    lastPush, Bool.false_eq_true, if_false, e8, Option.bind_eq_bind, Option.bind_some, e9,
    cstr_of_nulFree _ hnul, hst, hi]
  simp [mid, advO, adv]

/-- A quoted value that ends the input. -/
theorem run_quoted_last {n : Str} {t : Trie Str} (k v pre : Str)
    (hsrc : src = pre ++ (b!"\"" ++ esc v ++ b!"\"")) (hv : NulFree v) (htk : Trimmed k) :
    Reach (step src lists)
      (mid (H ++ [(n, .map t)]) pre.length start .valueStart (some (k ++ b!" ")) (some []))
      (mid (H ++ [(n, .map (t.insert k v).1)]) src.length start .valuePostQuoted none none) := by
  have hs1 : src = pre ++ c!"\"" :: (esc v ++ b!"\"") := by simp [hsrc]
  have hlen : src.length = pre.length + 1 + (esc v).length + 1 := by simp [hsrc]; omega
  refine Reach.head (b := mid (H ++ [(n, .map t)]) (pre.length + 1) start
    .valueQuote (some (k ++ b!" ")) (some [])) ?_ ?_
  · rw [step_mid (get_at hs1) _ _ _ (Or.inr (by decide))]
    simp [dispatch, mid, adv, isBlank]
  have hw := walk_esc (src := src) (lists := lists) (H := H ++ [(n, .map t)])
    (start := start) .valueQuote (some (k ++ b!" ")) (Or.inl rfl) v [] (pre ++ b!"\"")
    b!"\"" (by simp [hs1])
  simp only [List.length_append, List.length_singleton, List.nil_append] at hw
  refine hw.trans (Reach.one ?_)
  have hs2 : src = (pre ++ b!"\"" ++ esc v) ++ c!"\"" :: [] := by simp [hs1]
  have hg := get_at hs2
  simp only [List.length_append, List.length_singleton] at hg
  rw [step_mid hg _ _ _ (Or.inr (by decide)), hlen]
  have hi := insertValue_mid H n t (pre.length + 1 + (esc v).length) start .valueQuote
    (k ++ b!" ") (some v) v
  have e4 : (mid (H ++ [(n, .map t)]) (pre.length + 1 + (esc v).length) start .valueQuote
    (some (k ++ b!" ")) (some v)).value = some v := rfl
  have e5 : (mid (H ++ [(n, .map t)]) (pre.length + 1 + (esc v).length) start .valueQuote
    (some (k ++ b!" ")) (some v)).state = .valueQuote := rfl
  simp only [dispatch, e4, e5, cstr_of_nulFree v hv, hi, strip_key k htk]
  rfl

theorem run_quoted_item_last {n : Str} {l : List Str} (v pre : Str)
    (hsrc : src = pre ++ (b!"\"" ++ esc v ++ b!"\"")) (hv : NulFree v) :
    Reach (step src lists)
      (mid (H ++ [(n, .list l)]) pre.length start .start none none)
      (mid (H ++ [(n, .list (l ++ [v]))]) src.length pre.length .listPostQuoted none none) := by
  have hs1 : src = pre ++ c!"\"" :: (esc v ++ b!"\"") := by simp [hsrc]
  have hlen : src.length = pre.length + 1 + (esc v).length + 1 := by simp [hsrc]; omega
  refine Reach.head (step_start_list (get_at hs1) (by decide) (by decide) (by decide)
    (by simp [White])) ?_
  refine Reach.head (b := mid (H ++ [(n, .list l)]) (pre.length + 1) pre.length
    .listQuote none (some [])) ?_ ?_
  · rw [step_mid (get_at hs1) _ _ _ (Or.inr (by decide))]
    simp [dispatch, mid, adv, isBlank]
  have hw := walk_esc (src := src) (lists := lists) (H := H ++ [(n, .list l)])
    (start := pre.length) .listQuote none (Or.inr rfl) v [] (pre ++ b!"\"")
    b!"\"" (by simp [hs1])
  simp only [List.length_append, List.length_singleton, List.nil_append] at hw
  refine hw.trans (Reach.one ?_)
  have hs2 : src = (pre ++ b!"\"" ++ esc v) ++ c!"\"" :: [] := by simp [hs1]
  have hg := get_at hs2
  simp only [List.length_append, List.length_singleton] at hg
  rw [step_mid hg _ _ _ (Or.inr (by decide)), hlen]
  have hi := appendItem_mid H n l (pre.length + 1 + (esc v).length) pre.length .listQuote
    none (some v) v
  have e4 : (mid (H ++ [(n, .list l)]) (pre.length + 1 + (esc v).length) pre.length .listQuote
    none (some v)).value = some v := rfl
  have e5 : (mid (H ++ [(n, .list l)]) (pre.length + 1 + (esc v).length) pre.length .listQuote
    none (some v)).state = .listQuote := rfl
  simp only [dispatch, e4, e5, cstr_of_nulFree v hv, hi]
  rfl

theorem parse_at_end {H : Hist} {start : Nat} {state : State}
    (hr : Reach (step src lists) St.init (mid H src.length start state none none)) :
    parse src lists = some (.ok (.ok (C14.cfgOf H))) :=
  C15.parse_of_reach hr (by simp [step, mid, C14.cfgOf])

/-- The true part: nothing of a well-formed document is lost when the line end
of its last line is missing, provided that this line is a quoted value, a
non-empty value, or an item of at least two characters. -/
theorem last_line_kept_partial (ss : List Section) (pre : List Line) (n : Str) (ls : List Line)
    (l : Line) (hd : (Doc.mk pre (ss ++ [⟨n, ls ++ [l]⟩])).Ok lists)
    (hl : (∃ k v q, l = .pair k v q) ∨ (∃ v q, l = .item v q)) (hk : KeptLast l) :
    ∃ cfg, parse ((Doc.mk pre (ss ++ [⟨n, ls⟩])).render ++ l.render) lists = some (.ok (.ok cfg)) ∧
      C14.Answers cfg (Doc.mk pre (ss ++ [⟨n, ls ++ [l]⟩])) lists := by
  have hd' : (Doc.mk pre (ss ++ [⟨n, ls⟩])).Ok lists := by
    refine ⟨hd.1, ?_⟩
    intro s hs
    simp only [List.mem_append, List.mem_singleton] at hs
    rcases hs with hs | rfl
    · exact hd.2 s (by simp [hs])
    · obtain ⟨h1, h2⟩ := hd.2 ⟨n, ls ++ [l]⟩ (by simp)
      exact ⟨h1, fun x hx => h2 x (by simp [hx])⟩
  have hlok : l.Ok (decide (n ∈ lists)) := (hd.2 ⟨n, ls ++ [l]⟩ (by simp)).2 l (by simp)
  refine ⟨C14.cfgOf (C14.hist lists (ss ++ [⟨n, ls ++ [l]⟩])), ?_, C14.cfgOf_answers _ lists hd⟩
  generalize hsrc : (Doc.mk pre (ss ++ [⟨n, ls⟩])).render ++ l.render = src
  obtain ⟨start, hr⟩ := C14.run_doc (src := src) _ hd' l.render hsrc.symm
  have hH : C14.hist lists (ss ++ [⟨n, ls⟩]) =
      C14.hist lists ss ++ [(n, C14.secOf lists ⟨n, ls⟩)] := by simp [C14.hist]
  have hH' : C14.hist lists (ss ++ [⟨n, ls ++ [l]⟩]) =
      C14.hist lists ss ++ [(n, C14.secOf lists ⟨n, ls ++ [l]⟩)] := by simp [C14.hist]
  rw [hH] at hr
  rw [hH']
  generalize (Doc.mk pre (ss ++ [⟨n, ls⟩])).render = p at hr hsrc
  generalize C14.hist lists ss = H at hr
  rcases hl with ⟨k, v, q, rfl⟩ | ⟨v, q, rfl⟩
  · obtain ⟨h0, h1, h2⟩ := hlok
    have hn : n ∉ lists := by simpa using h0
    have e1 : C14.secOf lists ⟨n, ls⟩ = .map (Trie.inserts (Section.mk n ls).pairs).1 := by
      simp [C14.secOf, hn]
    have e2 : C14.secOf lists ⟨n, ls ++ [.pair k v q]⟩ =
        .map ((Trie.inserts (Section.mk n ls).pairs).1.insert k v).1 := by
      simp only [C14.secOf, hn, if_false, C14.pairs_append]
      rw [show (Section.mk n [Line.pair k v q]).pairs = [(k, v)] from rfl, Trie.inserts_append]
    rw [e1] at hr
    rw [e2]
    have hne : renderValue v q ≠ [] := by
      cases q with
      | true => simp [renderValue]
      | false =>
        rcases hk with h | h
        · cases h
        · simpa [renderValue] using h
    have rk := run_key (src := src) (lists := lists) (H := H) (start := start) (n := n)
      (t := (Trie.inserts (Section.mk n ls).pairs).1) k p (renderValue v q)
      (by simp [← hsrc, Line.render]) hne h1
    cases q with
    | true =>
      exact parse_at_end (hr.trans (rk.trans (run_quoted_last k v _
        (by simp [← hsrc, Line.render, renderValue]) h2 h1.2.2.2.1)))
    | false =>
      have hv : v ≠ [] := by
        rcases hk with h | h
        · cases h
        · exact h
      exact parse_at_end (hr.trans (rk.trans (run_plain_last k v _
        (by simp [← hsrc, Line.render, renderValue]) h2 hv h1.2.2.2.1)))
  · obtain ⟨h0, h1, h2⟩ := hlok
    have hn : n ∈ lists := by simpa using h0
    have e1 : C14.secOf lists ⟨n, ls⟩ = .list (Section.mk n ls).items := by
      simp [C14.secOf, hn]
    have e2 : C14.secOf lists ⟨n, ls ++ [.item v q]⟩ = .list ((Section.mk n ls).items ++ [v]) := by
      simp only [C14.secOf, hn, if_true, C14.items_append]
      rfl
    rw [e1] at hr
    rw [e2]
    cases q with
    | true =>
      exact parse_at_end (hr.trans (run_quoted_item_last v p
        (by simp [← hsrc, Line.render, renderValue]) h1))
    | false =>
      have hv : 2 ≤ v.length := by
        rcases hk with h | h
        · cases h
        · exact h
      exact parse_at_end (hr.trans (run_plain_item_last v p
        (by simp [← hsrc, Line.render, renderValue]) h1 (h2 rfl) hv))

/-! Non-vacuity: last lines without line end. -/

example : KeptLast (.pair b!"y" b!"v" false) ∧ KeptLast (.item b!"ab" false) ∧
    KeptLast (.pair b!"y" b!"" true) := ⟨Or.inr (by decide), Or.inr (by decide), Or.inl rfl⟩
example : getOf b!"[a]\nx = 1\ny = v" [] b!"a" b!"y" = some b!"v" := by decide
example : getListOf b!"[posts]\na\nbc" [b!"posts"] b!"posts" = some [b!"a", b!"bc"] := by decide

end Blogc.C16
