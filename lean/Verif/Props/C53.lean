import Verif.Model.MakeFileName
import Verif.Lemmas.Path
import Verif.Lemmas.Numbers

/-!
# C53: output paths are distinct and below the output directory
-/

namespace Blogc.C53

open Blogc Blogc.Make Blogc.Path

/-- Non-empty pieces of a path, each after a slash. -/
def slashed : List (Option Str) → Str
  | [] => []
  | s :: l => (if have? s then c!"/" :: text s else []) ++ slashed l

/-- The page is the index page of a site where pages are directories. -/
def IsIndex (pre : Option Str) (slug : Str) (ext : Option Str) : Prop :=
  slug = b!"index" ∧ slashFirst ext = true ∧ have? pre = false

instance (pre : Option Str) (slug : Str) (ext : Option Str) : Decidable (IsIndex pre slug ext) :=
  inferInstanceAs (Decidable (_ ∧ _ ∧ _))

/-- The path meant for a slug: the directory, the prefixes and the slug, joined
by slashes, and the extension. The index page is in the directory itself. -/
def pathOf (dir : Str) (gprefix pre : Option Str) (slug : Str) (ext : Option Str) : Str :=
  dir ++ slashed (if IsIndex pre slug ext then [gprefix] else [gprefix, pre, some slug]) ++ text ext

theorem text_of_not_have (s : Option Str) (h : have? s = false) : text s = [] := by
  rcases s with _ | _ | _ <;> first | rfl | simp [have?] at h

theorem text_some (f : Str) : text (some f) = f := rfl

theorem have_some (f : Str) (h : f ≠ []) : have? (some f) = true := by
  cases f
  · exact absurd rfl h
  · rfl

theorem have_of_slashFirst (e : Option Str) (h : slashFirst e = true) : have? e = true := by
  rcases e with _ | _ | _ <;> first | rfl | simp [slashFirst] at h

/-- The name generated for a slug, whatever its first byte. -/
theorem generated (dir : Str) (g pre : Option Str) (f : Str) (ext : Option Str) (hf : f ≠ []) :
    generateFilename (some dir) g pre (some f) ext = some (
      dir ++ slashed [g] ++
      (if IsIndex pre f ext then [] else
        c!"/" :: text pre ++ (if have? pre && !slashFirst (some f) then b!"/" else []) ++ f) ++ text ext) := by
  have h1 := have_some f hf
  have he : (if have? ext = true then text ext else []) = text ext := by
    cases h : have? ext
    · simp [text_of_not_have _ h]
    · simp
  have hp : (if have? pre = true then text pre else []) = text pre := by
    cases h : have? pre
    · simp [text_of_not_have _ h]
    · simp
  have happ : ∀ (b : Bool) (x y : Str), (if b = true then x ++ y else x) = x ++ (if b = true then y else []) := by
    intro b x y; cases b <;> simp
  have happ' : ∀ (b : Bool) (x y : Str), (if (!b) = true then x ++ y else x) =
      x ++ (if b = true then [] else y) := by
    intro b x y; cases b <;> simp
  unfold generateFilename
  have hidx : (have? (some f) && have? ext && (some f == some b!"index" && slashFirst ext) && !have? pre) =
      decide (IsIndex pre f ext) := by
    by_cases hi : IsIndex pre f ext
    · obtain ⟨rfl, a, b⟩ := hi
      simp [IsIndex, a, b, have_of_slashFirst _ a, h1]
    · simp only [hi, decide_false]
      simp only [IsIndex] at hi
      cases a : slashFirst ext <;> cases b : have? pre <;> simp [a, b, h1] at hi ⊢
      intro _
      simpa using hi
  simp only [hidx]
  simp only [h1, Option.isSome_some, Bool.or_true, Bool.true_or, Bool.and_true, Bool.true_and, if_true]
  by_cases hi : IsIndex pre f ext
  · have hb := hi.2.2
    simp only [hi, decide_true, if_true, Bool.not_true, Bool.false_eq_true, if_false, hb, Bool.false_and]
    have hx := have_of_slashFirst _ hi.2.1
    have hne : text ext ≠ [] := by
      have := hi.2.1
      rcases ext with _ | _ | _ <;> simp_all [slashFirst, text]
    simp only [hx, if_true, slashed, List.append_nil]
    rw [if_neg]
    · congr 1
      cases have? g <;> simp [text]
    · cases have? g <;> simp [hne]
  · simp only [hi, decide_false, if_false, Bool.not_false, if_true]
    simp only [happ, slashed, he, hp]
    rw [if_neg]
    · congr 1
      cases have? g <;> cases have? pre <;> cases slashFirst (some f) <;> simp [text]
    · simp [hf]

/-- The generated name is the path meant, when the slug has no slash in front. -/
theorem as_meant (dir : Str) (g pre : Option Str) (f : Str) (ext : Option Str) (hf : f ≠ [])
    (hs : have? pre = true → slashFirst (some f) = false) :
    generateFilename (some dir) g pre (some f) ext = some (pathOf dir g pre f ext) := by
  rw [generated dir g pre f ext hf]
  congr 1
  unfold pathOf
  by_cases hi : IsIndex pre f ext
  · simp [hi]
  · simp only [hi, if_false, slashed, have_some f hf, if_true, List.append_nil]
    cases hp : have? pre
    · simp [text_of_not_have _ hp, text_some]
    · simp [hs hp, text_some]

/-- Every output path starts with the output directory and a slash. -/
theorem starts_with_dir (dir : Str) (g pre : Option Str) (f : Str) (ext : Option Str) (hf : f ≠ []) :
    ∃ rest, generateFilename (some dir) g pre (some f) ext = some (dir ++ c!"/" :: rest) := by
  rw [generated dir g pre f ext hf]
  by_cases hi : IsIndex pre f ext
  · have h := hi.2.1
    cases hg : have? g
    · rcases ext with _ | _ | ⟨c, e⟩ <;> simp only [slashFirst, Bool.false_eq_true, beq_iff_eq] at h
      subst h
      exact ⟨e, by simp [hi, slashed, hg, text]⟩
    · exact ⟨text g ++ text ext, by simp [hi, slashed, hg]⟩
  · cases hg : have? g
    · exact ⟨_, by simp only [hi, if_false, slashed, hg, Bool.false_eq_true, List.append_nil, List.nil_append,
        List.cons_append, List.append_assoc]; rfl⟩
    · exact ⟨_, by simp only [hi, if_false, slashed, hg, if_true, List.append_nil, List.nil_append,
        List.cons_append, List.append_assoc]; rfl⟩

/-- Two slugs lead to the same path exactly if they are the same, or if there is
a prefix and they differ just by a slash in front of one of them. -/
theorem same_path_iff (dir : Str) (g pre : Option Str) (f f' : Str) (ext : Option Str) (hf : f ≠ [])
    (hf' : f' ≠ []) :
    generateFilename (some dir) g pre (some f) ext = generateFilename (some dir) g pre (some f') ext ↔
      f = f' ∨ have? pre = true ∧
        (f' = c!"/" :: f ∧ slashFirst (some f) = false ∨ f = c!"/" :: f' ∧ slashFirst (some f') = false) := by
  rw [generated dir g pre f ext hf, generated dir g pre f' ext hf', Option.some.injEq,
    List.append_cancel_right_eq, List.append_cancel_left_eq]
  by_cases hi : IsIndex pre f ext <;> by_cases hi' : IsIndex pre f' ext
  · simp [hi.1, hi'.1]
  · simp only [hi, hi', if_true, if_false]
    have hne : f ≠ f' := by
      rintro rfl; exact hi' hi
    have := hi.2.2
    simp [hne, this]
  · simp only [hi, hi', if_true, if_false]
    have hne : f ≠ f' := by
      rintro rfl; exact hi hi'
    have := hi'.2.2
    simp [hne, this]
  · simp only [hi, hi', if_false, List.cons_append, List.cons.injEq, true_and, List.append_assoc,
      List.append_cancel_left_eq]
    cases hp : have? pre with
    | false => simp
    | true =>
      cases hs : slashFirst (some f) <;> cases hs' : slashFirst (some f') <;>
        simp only [Bool.true_and, Bool.not_false, Bool.not_true, if_true, Bool.false_eq_true, if_false,
          List.cons_append, List.nil_append, List.cons.injEq, true_and, and_true, and_false, or_false,
          false_or, Bool.true_eq_false]
      · constructor
        · exact Or.inl
        · rintro (h | h | h)
          · exact h
          · rw [h] at hs'; simp [slashFirst] at hs'
          · rw [h] at hs; simp [slashFirst] at hs
      · constructor
        · intro h; exact Or.inr h.symm
        · rintro (h | h)
          · rw [h, hs'] at hs; simp at hs
          · exact h.symm
      · constructor
        · intro h; exact Or.inr h
        · rintro (h | h)
          · rw [h, hs'] at hs; simp at hs
          · exact h

/-- The property's first half, for slugs without a slash in front: different
slugs have different paths. -/
theorem distinct_partial (dir : Str) (g pre : Option Str) (f f' : Str) (ext : Option Str) (hf : f ≠ [])
    (hf' : f' ≠ []) (hs : slashFirst (some f) = false) (hs' : slashFirst (some f') = false) (hne : f ≠ f') :
    generateFilename (some dir) g pre (some f) ext ≠ generateFilename (some dir) g pre (some f') ext := by
  rw [Ne, same_path_iff dir g pre f f' ext hf hf']
  rintro (h | ⟨-, ⟨h, -⟩ | ⟨h, -⟩⟩)
  · exact hne h
  · rw [h] at hs'; simp [slashFirst] at hs'
  · rw [h] at hs; simp [slashFirst] at hs

/-- The first half fails in general: the posts `foo` and `/foo` are written to
the same file. -/
theorem distinct_violated : ∃ (dir : Str) (pre ext : Option Str) (f f' : Str), f ≠ [] ∧ f' ≠ [] ∧ f ≠ f' ∧
    generateFilename (some dir) none pre (some f) ext = generateFilename (some dir) none pre (some f') ext :=
  ⟨b!"_build", some b!"post", some b!"/index.html", b!"foo", b!"/foo", by decide⟩

/-- The property's second half, for paths without `..`: the path is inside the
output directory. -/
theorem inside_partial (dir : Str) (g pre : Option Str) (f : Str) (ext : Option Str) (hf : f ≠ [])
    (hd : ∀ rest, generateFilename (some dir) g pre (some f) ext = some (dir ++ c!"/" :: rest) →
      b!".." ∉ comps rest) :
    ∃ path, generateFilename (some dir) g pre (some f) ext = some path ∧ Inside dir path := by
  obtain ⟨rest, h⟩ := starts_with_dir dir g pre f ext hf
  exact ⟨_, h, inside_of_staysBelow dir rest (staysBelow_of_no_dotdot _ _ (hd rest h))⟩

/-- The second half fails in general: a slug can lead out of the output
directory. -/
theorem inside_violated : ∃ (dir : Str) (pre ext : Option Str) (f path : Str), f ≠ [] ∧
    generateFilename (some dir) none pre (some f) ext = some path ∧ ¬ Inside dir path :=
  ⟨b!"/srv/_build", some b!"post", some b!"/index.html", b!"../../../x", b!"/srv/_build/post/../../../x/index.html",
    by decide⟩

/-! ## Pages of tags -/

theorem last_slash {a b x y : Str} (ha : c!"/" ∉ a) (hb : c!"/" ∉ b)
    (h : x ++ c!"/" :: a = y ++ c!"/" :: b) : x = y ∧ a = b := by
  have h' : a.reverse ++ c!"/" :: x.reverse = b.reverse ++ c!"/" :: y.reverse := by
    have := congrArg List.reverse h
    simpa using this
  have key : ∀ (a b x y : Str), c!"/" ∉ a → c!"/" ∉ b → a ++ c!"/" :: x = b ++ c!"/" :: y → a = b ∧ x = y := by
    intro a
    induction a with
    | nil =>
      intro b x y _ hb h
      cases b with
      | nil => simpa using h
      | cons d b =>
        simp only [List.nil_append, List.cons_append, List.cons.injEq] at h
        exact absurd (by simp [← h.1]) hb
    | cons d a ih =>
      intro b x y ha hb h
      cases b with
      | nil =>
        simp only [List.nil_append, List.cons_append, List.cons.injEq] at h
        exact absurd (by simp [h.1]) ha
      | cons e b =>
        simp only [List.cons_append, List.cons.injEq] at h
        simp only [List.mem_cons, not_or] at ha hb
        obtain ⟨h1, h2⟩ := ih b x y ha.2 hb.2 h.2
        exact ⟨by rw [h.1, h1], h2⟩
  obtain ⟨h1, h2⟩ := key _ _ _ _ (by simpa using ha) (by simpa using hb) h'
  exact ⟨List.reverse_inj.1 h2, List.reverse_inj.1 h1⟩

theorem slash_not_decNat (n : Nat) : c!"/" ∉ decNat n := by
  intro h
  have := decNat_digits n _ h
  revert this
  decide

theorem decNat_inj {n m : Nat} (h : decNat n = decNat m) : n = m := by
  have h1 := readDigits_decNat n
  rw [h, readDigits_decNat m] at h1
  exact (Prod.mk.inj h1).1.symm

theorem slashFirst_decNat (n : Nat) : slashFirst (some (decNat n)) = false := by
  cases h : decNat n with
  | nil => rfl
  | cons c r =>
    have : c ≠ c!"/" := by
      rintro rfl
      exact slash_not_decNat n (by rw [h]; simp)
    simp [slashFirst, this]

/-- The path meant for a page of a tag. -/
def tagPathOf (dir : Str) (g tagPre pagPre : Option Str) (tag : Str) (n : Nat) (ext : Option Str) : Str :=
  dir ++ slashed [g, tagPre, some tag, pagPre, some (decNat n)] ++ text ext

theorem tagPage_eq (dir : Str) (g tagPre pagPre ext : Option Str) (tag : Str) (n : Nat) (ht : tag ≠ []) :
    tagPage (some dir) g tagPre pagPre ext tag n = some (tagPathOf dir g tagPre pagPre tag n ext) := by
  unfold tagPage generateFilename2
  have h1 := have_some tag ht
  simp only [h1, Bool.true_or, Bool.true_and, Bool.and_true, if_true]
  have hne : ∀ x y : Str, have? (some (x ++ tag ++ y)) = true := by
    intro x y
    apply have_some
    simp [ht]
  rw [generated _ _ _ _ _ (decNat_ne_nil n)]
  have hni : ¬ IsIndex (some (if have? pagPre = true then
      (if have? pagPre = true then (if have? tagPre = true then
        (if have? tagPre = true then text tagPre else []) ++ b!"/" else
        (if have? tagPre = true then text tagPre else [])) ++ text (some tag) ++ b!"/" else
        (if have? tagPre = true then (if have? tagPre = true then text tagPre else []) ++ b!"/" else
        (if have? tagPre = true then text tagPre else [])) ++ text (some tag)) ++ text pagPre else
      (if have? pagPre = true then (if have? tagPre = true then
        (if have? tagPre = true then text tagPre else []) ++ b!"/" else
        (if have? tagPre = true then text tagPre else [])) ++ text (some tag) ++ b!"/" else
        (if have? tagPre = true then (if have? tagPre = true then text tagPre else []) ++ b!"/" else
        (if have? tagPre = true then text tagPre else [])) ++ text (some tag)))) (decNat n) ext := by
    rintro ⟨-, -, h⟩
    revert h
    cases have? pagPre
    · simp only [Bool.false_eq_true, if_false]
      rw [show ∀ x : Str, x ++ text (some tag) = x ++ tag ++ [] by simp [text], hne]
      simp
    · simp only [if_true, List.append_assoc]
      rw [show ∀ x y : Str, x ++ (text (some tag) ++ y) = x ++ tag ++ y by simp [text], hne]
      simp
  rw [if_neg hni]
  congr 1
  unfold tagPathOf slashed
  have hd := have_some _ (decNat_ne_nil n)
  simp only [slashed, h1, hd, if_true, slashFirst_decNat, Bool.not_false, Bool.and_true]
  cases hp : have? pagPre <;> cases ht' : have? tagPre <;>
    simp only [Bool.false_eq_true, if_false, if_true]
  · rw [show have? (some ([] ++ text (some tag))) = true from by simpa [text] using h1]
    simp [text]
  · rw [show have? (some (text tagPre ++ b!"/" ++ text (some tag))) = true from by
      have := hne (text tagPre ++ b!"/") []; simpa [text] using this]
    simp [text]
  · rw [show have? (some ([] ++ text (some tag) ++ b!"/" ++ text pagPre)) = true from by
      have := hne [] (b!"/" ++ text pagPre); simpa [text] using this]
    simp [text]
  · rw [show have? (some (text tagPre ++ b!"/" ++ text (some tag) ++ b!"/" ++ text pagPre)) = true from by
      have := hne (text tagPre ++ b!"/") (b!"/" ++ text pagPre); simpa [text] using this]
    simp [text]

/-- Pages of tags: different tags or different numbers have different paths. -/
theorem tag_pages_distinct (dir : Str) (g tagPre pagPre ext : Option Str) (tag tag' : Str) (n n' : Nat)
    (ht : tag ≠ []) (ht' : tag' ≠ []) :
    tagPage (some dir) g tagPre pagPre ext tag n = tagPage (some dir) g tagPre pagPre ext tag' n' ↔
      tag = tag' ∧ n = n' := by
  constructor
  · intro h
    rw [tagPage_eq _ _ _ _ _ _ _ ht, tagPage_eq _ _ _ _ _ _ _ ht', Option.some.injEq] at h
    unfold tagPathOf at h
    rw [List.append_cancel_right_eq, List.append_cancel_left_eq] at h
    have hd := have_some _ (decNat_ne_nil n)
    have hd' := have_some _ (decNat_ne_nil n')
    simp only [slashed, have_some _ ht, have_some _ ht', hd, hd', if_true, List.append_nil] at h
    have h2 := last_slash (x := slashed [g, tagPre, some tag, pagPre])
      (y := slashed [g, tagPre, some tag', pagPre]) (slash_not_decNat n) (slash_not_decNat n')
      (by simpa [slashed, have_some _ ht, have_some _ ht', text] using h)
    refine ⟨?_, decNat_inj h2.2⟩
    have h3 := h2.1
    simp only [slashed, have_some _ ht, have_some _ ht', if_true, List.append_nil,
      List.append_cancel_left_eq] at h3
    simpa [text] using h3
  · rintro ⟨rfl, rfl⟩; rfl

/-! ## Samples -/

example : generateFilename (some b!"_build") (some b!"blog") (some b!"post") (some b!"foo") (some b!"/index.html") =
    some b!"_build/blog/post/foo/index.html" := by decide
example : generateFilename (some b!"_build") none none (some b!"index") (some b!"/index.html") =
    some b!"_build/index.html" := by decide
example : tagPage (some b!"_build") none (some b!"tag") (some b!"page") (some b!"/index.html") b!"c" 12 =
    some b!"_build/tag/c/page/12/index.html" := by decide
example : slashFirst (some b!"foo") = false ∧ slashFirst (some b!"bar") = false := by decide
example : b!".." ∉ comps b!"blog/post/foo/index.html" := by decide

end Blogc.C53
