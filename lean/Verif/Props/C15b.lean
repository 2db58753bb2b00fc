import Verif.Props.C14

/-!
# C15, second part: malformed lines are reported
-/

namespace Blogc.C15

open Blogc Blogc.Spec Blogc.Spec.Config Blogc.Config

variable {lists : List Str}

theorem parse_of_reach {src : Str} {st : St} {r : Result} (h : Reach (step src lists) St.init st)
    (hd : step src lists st = .done r) : parse src lists = some (.ok r) := by
  obtain ⟨r', hp⟩ := parse_total src lists
  rw [hp, runM_of_reach h hd hp]

theorem step_done_pos {src : Str} {st : St} {e : Err} {p : Nat}
    (h : step src lists st = .done (.error (e, p))) : p < src.length := by
  unfold step at h
  split at h
  · simp at h
  rename_i c hc
  have hlt : st.current < src.length := (List.getElem?_eq_some_iff.1 hc).1
  have hadv : ∀ s : St, adv s ≠ .done (.error (e, p)) := by simp [adv]
  have hadvO : ∀ o : Option St, advO o ≠ .done (.error (e, p)) := by
    intro o; cases o <;> simp [advO, adv]
  have key : st.current = p → p < src.length := fun h => h ▸ hlt
  split at h
  · exact absurd h (hadvO _)
  split at h
  · exact absurd h (hadv _)
  unfold dispatch at h
  simp only at h
  split at h <;> repeat' split at h
  all_goals first
    | exact absurd h (hadv _)
    | exact absurd h (hadvO _)
    | (simp only [Step.done.injEq, Except.error.injEq, Prod.mk.injEq, reduceCtorEq] at h;
       try exact key h.2)

/-- The position of an error is a position of the input. -/
theorem error_in_source (src : Str) (lists : List Str) (e : Err) (p : Nat)
    (h : parse src lists = some (.ok (.error (e, p)))) : p < src.length := by
  obtain ⟨a, ha, hp⟩ := runM_safe (step := step src lists) (Inv src.length)
    (fun r => ∀ e p, r = .error (e, p) → p < src.length)
    (fun s s' hi hn => by
      have := step_good src lists s hi
      rw [hn] at this
      exact this.1)
    (fun s hi hub => by
      have := step_good src lists s hi
      rw [hub] at this
      exact this)
    (fun s r _ hd e p he => step_done_pos (lists := lists) (st := s) (e := e) (by rw [hd, he]))
    _ _ _ (init_inv _) h
  exact hp e p (by simpa using ha.symm)

/-- A section name that is not closed on its line is an error at the line end.
Whatever follows does not matter. -/
theorem section_newline_reported (d : Doc) (hd : d.Ok lists) (x nl : Byte) (w post : Str)
    (hw : NoNl w ∧ c!"]" ∉ w) (hnl : nl = c!"\n" ∨ nl = c!"\r") :
    parse (d.render ++ (c!"[" :: x :: w) ++ nl :: post) lists =
      some (.ok (.error (.sectionNewline, d.render.length + w.length + 2))) := by
  generalize hsrc : d.render ++ (c!"[" :: x :: w) ++ nl :: post = src
  obtain ⟨start, hr⟩ := C14.run_doc (src := src) d hd (c!"[" :: x :: w ++ nl :: post)
    (by simp [← hsrc])
  generalize C14.hist lists d.sections = H at hr
  have h1 : src = d.render ++ c!"[" :: (x :: w ++ nl :: post) := by simp [← hsrc]
  have h2 : src = (d.render ++ b!"[") ++ x :: (w ++ nl :: post) := by simp [← hsrc]
  have r1 : Reach (step src lists) (mid H d.render.length start .start none none)
      (mid H (d.render.length + 2) (d.render.length + 1) .section none none) := by
    refine Reach.head (b := mid H (d.render.length + 1) start .sectionStart none none) ?_
      (Reach.one ?_)
    · rw [step_mid (get_at h1) _ _ _ (Or.inl rfl)]
      simp [dispatch, mid, adv, isNl]
    · have := get_at h2
      simp only [List.length_append, List.length_singleton] at this
      rw [step_mid this _ _ _ (Or.inl rfl)]
      simp [dispatch, mid, adv]
  have r2 := walk_adv (src := src) (lists := lists) (H := H) (start := d.render.length + 1) .section
    none none (fun c => c ≠ c!"]" ∧ isNl c = false)
    (by
      intro cur c hc _ hP
      rw [step_mid hc _ _ _ (Or.inl rfl)]
      simp [dispatch, mid, adv, hP.1, hP.2])
    w (d.render ++ b!"[" ++ [x]) (nl :: post) (by simp [← hsrc]) (by simp)
    (fun c hc => ⟨fun e => hw.2 (e ▸ hc), isNl_false_of (fun e => hw.1.1 (e ▸ hc))
      (fun e => hw.1.2 (e ▸ hc))⟩)
  have h3 : src = (d.render ++ b!"[" ++ [x] ++ w) ++ nl :: post := by simp [← hsrc]
  have e1 : (d.render ++ b!"[" ++ [x]).length = d.render.length + 2 := by simp
  have e2 : (d.render ++ b!"[" ++ [x] ++ w).length = d.render.length + w.length + 2 := by
    simp; omega
  rw [e1, e2] at r2
  refine parse_of_reach (hr.trans (r1.trans r2)) ?_
  have hg := get_at h3
  rw [e2] at hg
  rw [step_mid hg _ _ _ (Or.inl rfl)]
  rcases hnl with rfl | rfl <;> simp [dispatch, mid, isNl]

/-- A line of a key/value section that has no `=` is an error. -/
theorem key_without_value_reported (d : Doc) (hd : d.Ok lists) (s : Section)
    (hs : d.sections.getLast? = some s) (hmap : s.name ∉ lists) (k post : Str) (nl : Byte)
    (hk : KeyOk k) (hnl : nl = c!"\n" ∨ nl = c!"\r") :
    parse (d.render ++ k ++ nl :: post) lists =
      some (.ok (.error (.keyWithoutValue k, d.render.length + k.length))) := by
  generalize hsrc : d.render ++ k ++ nl :: post = src
  obtain ⟨start, hr⟩ := C14.run_doc (src := src) d hd (k ++ nl :: post) (by simp [← hsrc])
  obtain ⟨ss, hss⟩ : ∃ ss, d.sections = ss ++ [s] := by
    have := List.dropLast_append_getLast? s hs
    exact ⟨_, this.symm⟩
  have hH : C14.hist lists d.sections =
      C14.hist lists ss ++ [(s.name, .map (Trie.inserts s.pairs).1)] := by
    simp [hss, C14.hist, C14.secOf, hmap]
  rw [hH] at hr
  generalize C14.hist lists ss = H at hr
  obtain ⟨hnul, hnlk, heq, htrim, hne, f1, f2, f3⟩ := hk
  obtain ⟨c, k', hck⟩ : ∃ c k', k = c :: k' := by
    cases k with
    | nil => exact absurd rfl hne
    | cons c k' => exact ⟨c, k', rfl⟩
  have h1 : src = d.render ++ c :: (k' ++ nl :: post) := by simp [← hsrc, hck]
  have r1 := step_start_map (lists := lists) (H := H) (start := start) (n := s.name)
    (t := (Trie.inserts s.pairs).1) (get_at h1) (by simpa [hck] using f1)
    (by simpa [hck] using f2) (by simpa [hck] using f3) (htrim.1 c (by simp [hck]))
  have r2 := walk_adv (src := src) (lists := lists)
    (H := H ++ [(s.name, .map (Trie.inserts s.pairs).1)]) (start := d.render.length) .key
    none none (fun c => c ≠ c!"=" ∧ isNl c = false)
    (by
      intro cur c hc hlt hP
      rw [step_mid hc _ _ _ (Or.inl rfl)]
      have : cur + 1 ≠ src.length := by omega
      simp [dispatch, mid, adv, hP.1, hP.2, this])
    k d.render (nl :: post) hsrc.symm (by simp)
    (fun c hc => ⟨fun e => heq (e ▸ hc), isNl_false_of (fun e => hnlk.1 (e ▸ hc))
      (fun e => hnlk.2 (e ▸ hc))⟩)
  refine parse_of_reach (hr.trans (Reach.head r1 r2)) ?_
  have h3 : src = (d.render ++ k) ++ nl :: post := by simp [← hsrc]
  rw [step_mid (get_at h3) _ _ _ (Or.inl rfl)]
  have hsl : slice src d.render.length (d.render ++ k).length = k := slice_at hsrc.symm
  have hn : isNl nl = true := by rcases hnl with rfl | rfl <;> rfl
  have he : (nl == c!"=") = false := by rcases hnl with rfl | rfl <;> decide
  simp only [dispatch, mid, hn, he, Bool.not_true, Bool.and_false, Bool.false_and,
    Bool.false_eq_true, if_false, hsl, cstr_of_nulFree k hnul]
  simp

/-- Text before the first section is an error at its first character. -/
theorem text_before_section_reported (pre : List Line) (hpre : ∀ l ∈ pre, l.OkPre) (c : Byte)
    (post : Str) (hc : ¬ White c ∧ c ≠ c!"#" ∧ c ≠ c!";" ∧ c ≠ c!"[") :
    parse (renderLines pre ++ c :: post) lists =
      some (.ok (.error (.mustStartWithSection, (renderLines pre).length))) := by
  have hr := C14.run_pre (src := renderLines pre ++ c :: post) (lists := lists) [] pre 0 []
    (c :: post) (by simp) hpre
  have h0 : mid [] ([] : Str).length 0 .start none none = St.init := rfl
  rw [h0] at hr
  refine parse_of_reach hr ?_
  simp only [List.nil_append]
  rw [step_mid (get_at rfl) _ _ _ (Or.inl rfl)]
  have e2 : (c == c!" " || c == c!"\t" || isNl c) = false := by
    have := hc.1
    unfold White at this
    simp [isNl]; grind
  have e1 : (c == c!"#" || c == c!";") = false := by simp [hc.2.1, hc.2.2.1]
  have e3 : (c == c!"[") = false := by simp [hc.2.2.2]
  simp only [dispatch, mid, e1, e2, e3, if_true, Bool.false_eq_true, if_false]

/-! Non-vacuity: the three kinds of error. -/

def errOf (src : Str) : Option (Err × Nat) :=
  match parse src [] with
  | some (.ok (.error e)) => some e
  | _ => none

example : errOf b!"[a\nb]" = some (.sectionNewline, 2) := by decide
example : errOf b!"[a]\nfoo\n" = some (.keyWithoutValue b!"foo", 7) := by decide
example : errOf b!"# c\nfoo" = some (.mustStartWithSection, 4) := by decide
example : errOf b!"[a]\nfoo = \"bar\" baz\n" = some (.afterQuotedValue, 16) := by decide

end Blogc.C15
