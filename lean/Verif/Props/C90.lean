import Verif.Spec.Feed
import Verif.Model.MakeAtom
import Verif.Props.C22
import Verif.Props.C33
import Verif.Props.C76

/-!
# C90: the default feed
-/

namespace Blogc.C90

open Blogc Blogc.Make Blogc.Template Blogc.Render Blogc.Doc Blogc.Tokens
open Blogc.Spec.Feed (Literal feedPath postPath shown feed entry)

/-! ## The template as its author sees it -/

/-- Text, if any. -/
def txt (s : Str) (k : List Tok) : List Tok := if s = [] then k else .text s :: k

def var (n : Str) : Tok := .var b!" " n b!" "

def st (s : Stmt) : Tok := .stmt false b!" " s false

/-- The URL of the feed without its extension. -/
def urlToks (pre : Str) (index : Bool) (k : List Tok) : List Tok :=
  txt pre (st (.ifdef b!" " b!"FILTER_TAG" b!" ") :: .text b!"/" :: var b!"FILTER_TAG" ::
    ((if index then [st (.else_ b!" "), .text b!"/index"] else []) ++ st (.endif b!" ") :: k))

/-- The items of a post. -/
def entryToks (link ext : Str) (k : List Tok) : List Tok :=
  .text b!"\n  <entry>\n    <title type=\"text\">" :: var b!"TITLE" ::
  .text b!"</title>\n    <id>" :: var b!"BASE_DOMAIN" :: var b!"BASE_URL" ::
  .text (link ++ b!"/") :: var b!"FILENAME" :: .text (ext ++ b!"</id>\n    <updated>") :: var b!"DATE_FORMATTED" ::
  .text b!"</updated>\n    <published>" :: var b!"DATE_FORMATTED" ::
  .text b!"</published>\n    <link href=\"" :: var b!"BASE_DOMAIN" :: var b!"BASE_URL" ::
  .text (link ++ b!"/") :: var b!"FILENAME" ::
  .text (ext ++ b!"\" />\n    <author>\n      <name>") :: var b!"AUTHOR_NAME" ::
  .text b!"</name>\n      <email>" :: var b!"AUTHOR_EMAIL" ::
  .text b!"</email>\n    </author>\n    <content type=\"html\"><![CDATA[" :: var b!"CONTENT" ::
  .text b!"]]></content>\n  </entry>\n  " :: k

/-- The items of the feed. -/
def toks (pre : Str) (index : Bool) (aext link hext : Str) : List Tok :=
  .text (b!"<?xml version=\"1.0\" encoding=\"utf-8\"?>\n" ++ b!"<feed xmlns=\"http://www.w3.org/2005/Atom\">\n" ++
    b!"  <title type=\"text\">") :: var b!"SITE_TITLE" ::
  st (.ifdef b!" " b!"FILTER_TAG" b!" ") :: .text b!" - " :: var b!"FILTER_TAG" :: st (.endif b!" ") ::
  .text b!"</title>\n  <id>" :: var b!"BASE_DOMAIN" :: var b!"BASE_URL" ::
  urlToks pre index (
  .text (aext ++ b!"</id>\n  <updated>") :: var b!"DATE_FIRST_FORMATTED" ::
  .text b!"</updated>\n  <link href=\"" :: var b!"BASE_DOMAIN" :: var b!"BASE_URL" ::
  .text b!"/\" />\n  <link href=\"" :: var b!"BASE_DOMAIN" :: var b!"BASE_URL" ::
  urlToks pre index (
  .text (aext ++ b!"\" rel=\"self\" />\n  <author>\n    <name>") :: var b!"AUTHOR_NAME" ::
  .text b!"</name>\n    <email>" :: var b!"AUTHOR_EMAIL" ::
  .text b!"</email>\n  </author>\n  <subtitle type=\"text\">" :: var b!"SITE_TAGLINE" ::
  .text b!"</subtitle>\n  " :: .stmt true b!" " (.block b!" " b!"listing" b!" ") false ::
  entryToks link hext (
  .stmt true b!" " (.endblock b!" ") false ::
  .text b!"\n</feed>\n" :: [])))

/-! ## The template as a tree -/

def txtT (s : Str) (k : T) : T := if s = [] then k else .text s k

def urlT (pre : Str) (index : Bool) (k : T) : T :=
  txtT pre (if index then
    .condElse (.defined b!"FILTER_TAG") (.text b!"/" (.var b!"FILTER_TAG" .done)) (.text b!"/index" .done) k
    else .cond (.defined b!"FILTER_TAG") (.text b!"/" (.var b!"FILTER_TAG" .done)) k)

def entryT (link ext : Str) : T :=
  .text b!"\n  <entry>\n    <title type=\"text\">" (.var b!"TITLE" (
  .text b!"</title>\n    <id>" (.var b!"BASE_DOMAIN" (.var b!"BASE_URL" (
  .text (link ++ b!"/") (.var b!"FILENAME" (.text (ext ++ b!"</id>\n    <updated>") (.var b!"DATE_FORMATTED" (
  .text b!"</updated>\n    <published>" (.var b!"DATE_FORMATTED" (
  .text b!"</published>\n    <link href=\"" (.var b!"BASE_DOMAIN" (.var b!"BASE_URL" (
  .text (link ++ b!"/") (.var b!"FILENAME" (
  .text (ext ++ b!"\" />\n    <author>\n      <name>") (.var b!"AUTHOR_NAME" (
  .text b!"</name>\n      <email>" (.var b!"AUTHOR_EMAIL" (
  .text b!"</email>\n    </author>\n    <content type=\"html\"><![CDATA[" (.var b!"CONTENT" (
  .text b!"]]></content>\n  </entry>" .done))))))))))))))))))))))

def tree (pre : Str) (index : Bool) (aext link hext : Str) : T :=
  .text (b!"<?xml version=\"1.0\" encoding=\"utf-8\"?>\n" ++ b!"<feed xmlns=\"http://www.w3.org/2005/Atom\">\n" ++
    b!"  <title type=\"text\">") (.var b!"SITE_TITLE" (
  .cond (.defined b!"FILTER_TAG") (.text b!" - " (.var b!"FILTER_TAG" .done)) (
  .text b!"</title>\n  <id>" (.var b!"BASE_DOMAIN" (.var b!"BASE_URL" (
  urlT pre index (
  .text (aext ++ b!"</id>\n  <updated>") (.var b!"DATE_FIRST_FORMATTED" (
  .text b!"</updated>\n  <link href=\"" (.var b!"BASE_DOMAIN" (.var b!"BASE_URL" (
  .text b!"/\" />\n  <link href=\"" (.var b!"BASE_DOMAIN" (.var b!"BASE_URL" (
  urlT pre index (
  .text (aext ++ b!"\" rel=\"self\" />\n  <author>\n    <name>") (.var b!"AUTHOR_NAME" (
  .text b!"</name>\n    <email>" (.var b!"AUTHOR_EMAIL" (
  .text b!"</email>\n  </author>\n  <subtitle type=\"text\">" (.var b!"SITE_TAGLINE" (
  .text b!"</subtitle>" (.block b!"listing" (entryT link hext) (
  .text b!"\n</feed>\n" .done))))))))))))))))))))))))

/-! ## The items can be written and mean the tree -/

theorem literal_append {a b : Str} (ha : Literal a) (hb : Literal b) : Literal (a ++ b) := by
  refine ⟨fun c hc => ?_, fun h => ?_⟩
  · rcases List.mem_append.1 hc with h | h
    · exact ha.1 c h
    · exact hb.1 c h
  · rcases List.mem_append.1 h with h | h
    · exact ha.2 h
    · exact hb.2 h

instance (s : Str) : Decidable (Literal s) := by unfold Literal NulFree; infer_instance

theorem textOk {s : Str} (h : Literal s) (hne : s ≠ []) : TextOk s := by
  refine ⟨hne, h.1, ?_, ?_⟩
  · rintro ⟨a, b, rfl⟩
    exact h.2 (by simp)
  · rintro ⟨a, b, rfl⟩
    exact h.2 (by simp)

theorem last_ne {s : Str} (h : Literal s) : s.getLast? ≠ some c!"{" := by
  intro e
  exact h.2 (List.mem_of_getLast? e)

theorem ok_text {s : Str} (h : Literal s) (hne : s ≠ []) {t : Tok} {k : List Tok} (ht : ∀ x, t ≠ .text x)
    (hk : Tokens.Ok (t :: k)) : Tokens.Ok (.text s :: t :: k) := by
  refine ⟨textOk h hne, ?_, hk⟩
  cases t with
  | text x => exact absurd rfl (ht x)
  | var => exact last_ne h
  | stmt => exact last_ne h

theorem ok_txt {s : Str} (h : Literal s) {t : Tok} {k : List Tok} (ht : ∀ x, t ≠ .text x)
    (hk : Tokens.Ok (t :: k)) : Tokens.Ok (txt s (t :: k)) := by
  unfold txt
  by_cases e : s = []
  · rw [if_pos e]; exact hk
  · rw [if_neg e]; exact ok_text h e ht hk

/-- A name that can be written. -/
def isNameB (s : Str) : Bool :=
  (match s with
    | [] => false
    | c :: _ => isUpper c) && s.all isName

theorem isName_of {s : Str} (h : isNameB s = true) : IsName s := by
  unfold isNameB at h
  rw [Bool.and_eq_true, List.all_eq_true] at h
  refine ⟨?_, fun c hc => (isName_iff c).1 (h.2 c hc)⟩
  cases s with
  | nil => exact absurd h.1 (by simp)
  | cons c r => exact ⟨c, r, rfl, (isUpper_iff c).1 h.1⟩

theorem ok_var {n : Str} (h : isNameB n = true) {k : List Tok} (hk : Tokens.Ok k) : Tokens.Ok (var n :: k) :=
  ⟨by unfold Blank; decide, isName_of h, by unfold Blank; decide, hk⟩

theorem gap : Gap b!" " := by unfold Gap Blank; decide

theorem ok_st {s : Stmt} (h : s.Ok) {l : Bool} {k : List Tok} (hk : Tokens.Ok k) :
    Tokens.Ok (.stmt l b!" " s false :: k) := by
  refine ⟨gap.1, h, ?_, hk⟩
  intro h
  cases h

theorem ok_ifdef {k : List Tok} (hk : Tokens.Ok k) :
    Tokens.Ok (st (.ifdef b!" " b!"FILTER_TAG" b!" ") :: k) :=
  ok_st (s := .ifdef b!" " b!"FILTER_TAG" b!" ") ⟨gap, isName_of (by decide +kernel), gap⟩ hk

theorem ok_else {k : List Tok} (hk : Tokens.Ok k) : Tokens.Ok (st (.else_ b!" ") :: k) :=
  ok_st (s := .else_ b!" ") gap hk

theorem ok_endif {k : List Tok} (hk : Tokens.Ok k) : Tokens.Ok (st (.endif b!" ") :: k) :=
  ok_st (s := .endif b!" ") gap hk

theorem ok_block {k : List Tok} (hk : Tokens.Ok k) :
    Tokens.Ok (.stmt true b!" " (.block b!" " b!"listing" b!" ") false :: k) :=
  ok_st (s := .block b!" " b!"listing" b!" ") ⟨gap, by decide +kernel, gap⟩ hk

theorem ok_endblock {k : List Tok} (hk : Tokens.Ok k) :
    Tokens.Ok (.stmt true b!" " (.endblock b!" ") false :: k) :=
  ok_st (s := .endblock b!" ") gap hk

theorem ok_url {pre : Str} (h : Literal pre) (index : Bool) {k : List Tok} (hk : Tokens.Ok k) :
    Tokens.Ok (urlToks pre index k) := by
  unfold urlToks
  refine ok_txt h (by intro x; simp [st]) (ok_ifdef
    (ok_text (by decide) (by decide) (by intro x; simp [var]) (ok_var (by decide +kernel) ?_)))
  cases index with
  | false => exact ok_endif hk
  | true =>
    exact ok_else (ok_text (by decide) (by decide) (by intro x; simp [st]) (ok_endif hk))

theorem toks_ok {pre aext link hext : Str} (index : Bool) (h1 : Literal pre) (h2 : Literal aext) (h3 : Literal link)
    (h4 : Literal hext) : Tokens.Ok (toks pre index aext link hext) := by
  have v : ∀ n x, var n ≠ .text x := by intro n x; simp [var]
  have s : ∀ l a q r x, Tok.stmt l a q r ≠ .text x := by intro l a q r x; simp
  have ne : ∀ a b : Str, b ≠ [] → a ++ b ≠ [] := by intro a b hb; simp [hb]
  have app : ∀ {a b : Str}, Literal a → Literal b → Literal (a ++ b) := literal_append
  unfold toks entryToks
  refine ok_text (by decide +kernel) (by decide) (v _) (ok_var (by decide +kernel) (ok_ifdef
    (ok_text (by decide +kernel) (by decide) (v _) (ok_var (by decide +kernel) (ok_endif
    (ok_text (by decide +kernel) (by decide) (v _) (ok_var (by decide +kernel) (ok_var (by decide +kernel)
    (ok_url h1 index ?_)))))))))
  refine ok_text (app h2 (by decide +kernel)) (ne _ _ (by decide)) (v _) (ok_var (by decide +kernel)
    (ok_text (by decide +kernel) (by decide) (v _) (ok_var (by decide +kernel) (ok_var (by decide +kernel)
    (ok_text (by decide +kernel) (by decide) (v _) (ok_var (by decide +kernel) (ok_var (by decide +kernel)
    (ok_url h1 index ?_))))))))
  refine ok_text (app h2 (by decide +kernel)) (ne _ _ (by decide)) (v _) (ok_var (by decide +kernel)
    (ok_text (by decide +kernel) (by decide) (v _) (ok_var (by decide +kernel)
    (ok_text (by decide +kernel) (by decide) (v _) (ok_var (by decide +kernel)
    (ok_text (by decide +kernel) (by decide) (s _ _ _ _) (ok_block ?_)))))))
  refine ok_text (by decide +kernel) (by decide) (v _) (ok_var (by decide +kernel)
    (ok_text (by decide +kernel) (by decide) (v _) (ok_var (by decide +kernel) (ok_var (by decide +kernel)
    (ok_text (app h3 (by decide +kernel)) (ne _ _ (by decide)) (v _) (ok_var (by decide +kernel)
    (ok_text (app h4 (by decide +kernel)) (ne _ _ (by decide)) (v _) (ok_var (by decide +kernel)
    (ok_text (by decide +kernel) (by decide) (v _) (ok_var (by decide +kernel)
    (ok_text (by decide +kernel) (by decide) (v _) (ok_var (by decide +kernel) (ok_var (by decide +kernel)
    (ok_text (app h3 (by decide +kernel)) (ne _ _ (by decide)) (v _) (ok_var (by decide +kernel)
    ?_)))))))))))))))
  refine ok_text (app h4 (by decide +kernel)) (ne _ _ (by decide)) (v _) (ok_var (by decide +kernel)
    (ok_text (by decide +kernel) (by decide) (v _) (ok_var (by decide +kernel)
    (ok_text (by decide +kernel) (by decide) (v _) (ok_var (by decide +kernel)
    (ok_text (by decide +kernel) (by decide) (s _ _ _ _) (ok_endblock ?_)))))))
  refine ⟨textOk (by decide +kernel) (by decide), ?_, trivial⟩
  intro p c e
  have : c!"{" ∈ b!"\n</feed>\n" := by rw [e]; simp
  revert this
  decide

theorem strip1 : rstrip b!"</subtitle>\n  " = b!"</subtitle>" := by decide +kernel
theorem strip2 : rstrip b!"]]></content>\n  </entry>\n  " = b!"]]></content>\n  </entry>" := by decide +kernel

theorem meaning_text (s : Str) (t : Tok) (k : List Tok) (ht : trims (t :: k) = false) :
    meaning false (.text s :: t :: k) = ⟨.content, .none, some s, none⟩ :: meaning false (t :: k) := by
  rw [meaning, ht]
  rfl

theorem meaning_trim (s a : Str) (q : Stmt) (k : List Tok) :
    meaning false (.text s :: .stmt true a q false :: k) =
      ⟨.content, .none, some (rstrip s), none⟩ :: q.node :: meaning false k := rfl

theorem meaning_url (pre : Str) (index : Bool) (k : List Tok) (t : T) (h : meaning false k = nodes t) :
    meaning false (urlToks pre index k) = nodes (urlT pre index t) := by
  unfold urlToks urlT txt txtT
  by_cases e : pre = []
  · rw [if_pos e, if_pos e]
    cases index <;> simp [meaning, nodes, st, var, h, trims, trim, Stmt.node, Cond.node, mark]
  · rw [if_neg e, if_neg e]
    cases index <;> simp [meaning, nodes, st, var, h, trims, trim, Stmt.node, Cond.node, mark]

theorem toks_meaning (pre : Str) (index : Bool) (aext link hext : Str) :
    meaning false (toks pre index aext link hext) = nodes (tree pre index aext link hext) := by
  unfold toks tree entryToks entryT
  have t0 : ∀ n k, trims (var n :: k) = false := fun _ _ => rfl
  have t1 : ∀ s k, trims (st s :: k) = false := fun _ _ => rfl
  have v : ∀ n k, meaning false (var n :: k) = ⟨.variable, .none, some n, none⟩ :: meaning false k := fun _ _ => rfl
  have s : ∀ q k, meaning false (st q :: k) = q.node :: meaning false k := fun _ _ => rfl
  simp only [meaning_text _ _ _ (t0 _ _), meaning_text _ _ _ (t1 _ _), v, s, nodes, Stmt.node, List.cons_append,
    List.nil_append]
  rw [meaning_url _ _ _ (.text (aext ++ b!"</id>\n  <updated>") (.var b!"DATE_FIRST_FORMATTED" (
  .text b!"</updated>\n  <link href=\"" (.var b!"BASE_DOMAIN" (.var b!"BASE_URL" (
  .text b!"/\" />\n  <link href=\"" (.var b!"BASE_DOMAIN" (.var b!"BASE_URL" (
  urlT pre index (
  .text (aext ++ b!"\" rel=\"self\" />\n  <author>\n    <name>") (.var b!"AUTHOR_NAME" (
  .text b!"</name>\n    <email>" (.var b!"AUTHOR_EMAIL" (
  .text b!"</email>\n  </author>\n  <subtitle type=\"text\">" (.var b!"SITE_TAGLINE" (
  .text b!"</subtitle>" (.block b!"listing" (entryT link hext) (
  .text b!"\n</feed>\n" .done))))))))))))))))))]
  · rfl
  simp only [meaning_text _ _ _ (t0 _ _), v, nodes]
  rw [meaning_url _ _ _ (.text (aext ++ b!"\" rel=\"self\" />\n  <author>\n    <name>") (.var b!"AUTHOR_NAME" (
  .text b!"</name>\n    <email>" (.var b!"AUTHOR_EMAIL" (
  .text b!"</email>\n  </author>\n  <subtitle type=\"text\">" (.var b!"SITE_TAGLINE" (
  .text b!"</subtitle>" (.block b!"listing" (entryT link hext) (
  .text b!"\n</feed>\n" .done)))))))))]
  simp only [meaning_text _ _ _ (t0 _ _), v, nodes, entryT, meaning_trim, strip1, strip2, Stmt.node, List.cons_append,
    List.nil_append]
  rfl

/-! ## What the template is -/

theorem print_cons (t : Tok) (k : List Tok) : print (t :: k) = t.print ++ print k := rfl
theorem print_text (s : Str) : Tok.print (.text s) = s := rfl
theorem print_append (a b : List Tok) : print (a ++ b) = print a ++ print b := by
  induction a with
  | nil => rfl
  | cons t a ih => rw [List.cons_append, print_cons, print_cons, ih, List.append_assoc]

theorem print_url (pre : Str) (index : Bool) (k : List Tok) : print (urlToks pre index k) =
    pre ++ b!"{% ifdef FILTER_TAG %}/{{ FILTER_TAG }}" ++ (if index then b!"{% else %}/index" else []) ++
      b!"{% endif %}" ++ print k := by
  have h : ∀ k, print (txt pre k) = pre ++ print k := by
    intro k
    unfold txt
    by_cases e : pre = []
    · rw [if_pos e, e]; rfl
    · rw [if_neg e]; rfl
  unfold urlToks
  rw [h]
  cases index <;> simp [print, Tok.print, st, var, Stmt.print, dash]

def headToks : List Tok :=
  [.text (b!"<?xml version=\"1.0\" encoding=\"utf-8\"?>\n" ++ b!"<feed xmlns=\"http://www.w3.org/2005/Atom\">\n" ++
    b!"  <title type=\"text\">"), var b!"SITE_TITLE",
  st (.ifdef b!" " b!"FILTER_TAG" b!" "), .text b!" - ", var b!"FILTER_TAG", st (.endif b!" "),
  .text b!"</title>\n  <id>", var b!"BASE_DOMAIN", var b!"BASE_URL"]

def selfToks : List Tok :=
  [var b!"DATE_FIRST_FORMATTED",
  .text b!"</updated>\n  <link href=\"", var b!"BASE_DOMAIN", var b!"BASE_URL",
  .text b!"/\" />\n  <link href=\"", var b!"BASE_DOMAIN", var b!"BASE_URL"]

def authorToks : List Tok :=
  [var b!"AUTHOR_NAME",
  .text b!"</name>\n    <email>", var b!"AUTHOR_EMAIL",
  .text b!"</email>\n  </author>\n  <subtitle type=\"text\">", var b!"SITE_TAGLINE",
  .text b!"</subtitle>\n  ", .stmt true b!" " (.block b!" " b!"listing" b!" ") false,
  .text b!"\n  <entry>\n    <title type=\"text\">", var b!"TITLE",
  .text b!"</title>\n    <id>", var b!"BASE_DOMAIN", var b!"BASE_URL"]

def linkToks : List Tok :=
  [var b!"DATE_FORMATTED",
  .text b!"</updated>\n    <published>", var b!"DATE_FORMATTED",
  .text b!"</published>\n    <link href=\"", var b!"BASE_DOMAIN", var b!"BASE_URL"]

def endToks : List Tok :=
  [var b!"AUTHOR_NAME",
  .text b!"</name>\n      <email>", var b!"AUTHOR_EMAIL",
  .text b!"</email>\n    </author>\n    <content type=\"html\"><![CDATA[", var b!"CONTENT",
  .text b!"]]></content>\n  </entry>\n  ",
  .stmt true b!" " (.endblock b!" ") false,
  .text b!"\n</feed>\n"]

theorem head_print : atomHead = print headToks := by decide +kernel
theorem self_print : atomSelf = b!"</id>\n  <updated>" ++ print selfToks := by decide +kernel
theorem author_print : atomEntry = b!"\" rel=\"self\" />\n  <author>\n    <name>" ++ print authorToks := by decide +kernel
theorem link_print : atomLink = b!"</id>\n    <updated>" ++ print linkToks := by decide +kernel
theorem end_print : atomEnd = b!"\" />\n    <author>\n      <name>" ++ print endToks := by decide +kernel
theorem filename_print : Tok.print (var b!"FILENAME") = b!"{{ FILENAME }}" := by decide +kernel

theorem toks_print (pre : Str) (index : Bool) (aext link hext : Str) :
    print (toks pre index aext link hext) =
      let url := pre ++ b!"{% ifdef FILTER_TAG %}/{{ FILTER_TAG }}" ++ (if index then b!"{% else %}/index" else []) ++
        b!"{% endif %}" ++ aext
      let post := link ++ b!"/" ++ b!"{{ FILENAME }}" ++ hext
      atomHead ++ url ++ atomSelf ++ url ++ atomEntry ++ post ++ atomLink ++ post ++ atomEnd := by
  rw [head_print, self_print, author_print, link_print, end_print]
  show print (headToks ++ urlToks pre index (.text (aext ++ b!"</id>\n  <updated>") :: (selfToks ++
    urlToks pre index (.text (aext ++ b!"\" rel=\"self\" />\n  <author>\n    <name>") :: (authorToks ++
    .text (link ++ b!"/") :: var b!"FILENAME" :: .text (hext ++ b!"</id>\n    <updated>") :: (linkToks ++
    .text (link ++ b!"/") :: var b!"FILENAME" :: .text (hext ++ b!"\" />\n    <author>\n      <name>") ::
      endToks)))))) = _
  generalize headToks = t1
  generalize selfToks = t2
  generalize authorToks = t3
  generalize linkToks = t4
  generalize endToks = t5
  simp only [print_append, print_url, print_cons, print_text, filename_print, List.append_assoc]

theorem formatText_plain (s : Str) (h : c!"%" ∉ s) : formatText s = .ok s := by
  induction s using formatText.induct with
  | case1 => rfl
  | case2 => exact absurd (by simp) h
  | case3 c hc => rw [formatText, if_neg hc]
  | case4 => exact absurd (by simp) h
  | case5 => exact absurd (by simp) h
  | case6 c d r hc ih =>
    rw [formatText, if_neg hc, ih (fun hm => h (by simp [List.mem_cons] at hm ⊢; tauto))]
    rfl

theorem generate_none (g pre f e : Option Str) : generateFilename none g pre f e = generateFilename (some []) g pre f e := by
  have h : ∀ b : Bool, (if (some ([] : Str)).isSome && b then Make.text (some []) else []) = ([] : Str) := by
    intro b; cases b <;> rfl
  have h' : ∀ b : Bool, (if (none : Option Str).isSome && b then Make.text none else []) = ([] : Str) := by
    intro b; cases b <;> rfl
  unfold generateFilename
  simp only [h, h']

/-- The URL of the feed up to the tag. -/
def feedPre (get : Str → Option Str) : Str :=
  C53.slashed [get b!"blog_prefix", get b!"atom_prefix"]

def isIndex (get : Str → Option Str) : Bool :=
  !have? (get b!"atom_prefix") && !slashFirst (get b!"atom_ext")

def postPre (get : Str → Option Str) : Str :=
  C53.slashed [get b!"blog_prefix", get b!"post_prefix"]

theorem slashed_some (s : Str) (l : List (Option Str)) (h : s ≠ []) :
    C53.slashed (some s :: l) = c!"/" :: s ++ C53.slashed l := by
  rw [C53.slashed, if_pos (C53.have_some s h)]
  rfl

theorem slashed_literal (l : List (Option Str)) (h : ∀ s, some s ∈ l → Literal s) : Literal (C53.slashed l) := by
  induction l with
  | nil => exact (by decide : Literal [])
  | cons s l ih =>
    have ih := ih fun s hs => h s (by simp [hs])
    unfold C53.slashed
    refine literal_append ?_ ih
    cases s with
    | none => exact (by decide : Literal [])
    | some s =>
      have := h s (by simp)
      split
      · exact literal_append (a := [c!"/"]) (by decide) this
      · exact (by decide : Literal [])

/-- The generated template is what is written for the items. -/
theorem generated (get : Str → Option Str) (h : Spec.Feed.Ok get) :
    atomGenerate get = .ok (print (toks (feedPre get) (isIndex get) (Make.text (get b!"atom_ext")) (postPre get)
      (Make.text (get b!"html_ext")))) := by
  obtain ⟨p, hp, hpl⟩ := h.atomPrefix
  obtain ⟨e, he, hel⟩ := h.atomExt
  have hurl : atomUrl (get b!"blog_prefix") (get b!"atom_prefix") (get b!"atom_ext") =
      .ok (feedPre get ++ b!"{% ifdef FILTER_TAG %}/{{ FILTER_TAG }}" ++
        (if isIndex get then b!"{% else %}/index" else []) ++ b!"{% endif %}" ++ Make.text (get b!"atom_ext")) := by
    unfold atomUrl feedPre isIndex
    rw [hp, he]
    have hb : atomStart (get b!"blog_prefix") = .ok (C53.slashed [get b!"blog_prefix"]) := by
      cases hb : get b!"blog_prefix" with
      | none => rfl
      | some b =>
        obtain ⟨_, h1, h2⟩ := h.blogPrefix b hb
        rw [atomStart, formatText_plain b h2, slashed_some b [] h1]
        simp [C53.slashed, Res.map]
    have hs : C53.slashed [get b!"blog_prefix", some p] =
        C53.slashed [get b!"blog_prefix"] ++ (if p = [] then [] else c!"/" :: p) := by
      cases p <;> simp [C53.slashed, have?, Make.text]
    simp only
    rw [hb, hs]
    simp only [Res.map]
    congr 1
    cases p with
    | nil =>
      cases e with
      | nil => simp [have?, slashFirst, Make.text]
      | cons c e =>
        by_cases hc : c = c!"/" <;> simp [have?, slashFirst, Make.text, hc]
    | cons c p => simp [have?, Make.text]
  have hpost : (generateFilename none (get b!"blog_prefix") (get b!"post_prefix") (some b!"{{ FILENAME }}")
      (get b!"html_ext")).getD [] = postPre get ++ b!"/" ++ b!"{{ FILENAME }}" ++ Make.text (get b!"html_ext") := by
    rw [generate_none, C53.as_meant [] _ _ b!"{{ FILENAME }}" _ (by decide) (fun _ => by decide)]
    unfold C53.pathOf postPre
    rw [if_neg (fun hi => absurd hi.1 (by decide))]
    simp [C53.slashed, have?, Make.text]
  unfold atomGenerate
  rw [hurl, hpost, toks_print]
  rfl

/-! ## What the tree shows -/

section
variable (sys : Sys) (ctx : Ctx Table) (g : Table)

/-- The text of a part of the template; nothing changes. -/
def Says (loc : Option Table) (t : T) (o : Str) : Prop :=
  sem (evaluator sys) ctx t loc ⟨none, none⟩ ⟨[], g⟩ = .ok (o, ⟨[], g⟩)

variable {sys ctx g}

theorem says_done (loc : Option Table) : Says sys ctx g loc .done [] := rfl

theorem says_text {loc : Option Table} {t : T} {o : Str} (s : Str) (h : Says sys ctx g loc t o) :
    Says sys ctx g loc (.text s t) (s ++ o) := by
  unfold Says at *
  rw [sem, seq, Res.bind]
  simp only
  rw [h]
  rfl

theorem says_txt {loc : Option Table} {t : T} {o : Str} (s : Str) (h : Says sys ctx g loc t o) :
    Says sys ctx g loc (txtT s t) (s ++ o) := by
  unfold txtT
  by_cases e : s = []
  · rw [if_pos e, e]; exact h
  · rw [if_neg e]; exact says_text s h

/-- The value of a variable is known and nothing changes. -/
def Has (sys : Sys) (g : Table) (loc : Option Table) (n : Str) (v : Option Str) : Prop :=
  formatVariable sys g loc ⟨none, none⟩ n = .ok (g, v)

theorem says_var {loc : Option Table} {t : T} {o n : Str} {v : Option Str} (hv : Has sys g loc n v)
    (h : Says sys ctx g loc t o) : Says sys ctx g loc (.var n t) (v.getD [] ++ o) := by
  unfold Says at *
  rw [sem, seq]
  have : Doc.value (evaluator sys) loc ⟨none, none⟩ n ⟨[], g⟩ = .ok (v, ⟨[], g⟩) := by
    unfold Doc.value
    show Res.map _ (formatVariable sys g loc ⟨none, none⟩ n) = _
    rw [hv]
    rfl
  rw [this]
  simp only [Res.map, Res.bind]
  rw [h]

theorem says_cond {loc : Option Table} {yes t : T} {a o n : Str} {v : Option Str} (hv : Has sys g loc n v)
    (hy : Says sys ctx g loc yes a) (h : Says sys ctx g loc t o) :
    Says sys ctx g loc (.cond (.defined n) yes t) ((if v.isSome then a else []) ++ o) := by
  unfold Says at *
  rw [sem, seq]
  have : Cond.value (evaluator sys) loc ⟨none, none⟩ ⟨[], g⟩ (.defined n) = .ok (v.isSome, ⟨[], g⟩) := by
    unfold Cond.value Doc.value
    show Res.map _ (Res.map _ (formatVariable sys g loc ⟨none, none⟩ n)) = _
    rw [hv]
    rfl
  rw [this]
  simp only [Res.bind]
  cases v with
  | none => simp only [Option.isSome_none, Bool.false_eq_true, if_false]; rw [h]; rfl
  | some v => simp only [Option.isSome_some, if_true]; rw [hy]; simp only; rw [h]; rfl

theorem says_condElse {loc : Option Table} {yes no t : T} {a b o n : Str} {v : Option Str} (hv : Has sys g loc n v)
    (hy : Says sys ctx g loc yes a) (hn : Says sys ctx g loc no b) (h : Says sys ctx g loc t o) :
    Says sys ctx g loc (.condElse (.defined n) yes no t) ((if v.isSome then a else b) ++ o) := by
  unfold Says at *
  rw [sem, seq]
  have : Cond.value (evaluator sys) loc ⟨none, none⟩ ⟨[], g⟩ (.defined n) = .ok (v.isSome, ⟨[], g⟩) := by
    unfold Cond.value Doc.value
    show Res.map _ (Res.map _ (formatVariable sys g loc ⟨none, none⟩ n)) = _
    rw [hv]
    rfl
  rw [this]
  simp only [Res.bind]
  cases v with
  | none => simp only [Option.isSome_none, Bool.false_eq_true, if_false]; rw [hn]; simp only; rw [h]; rfl
  | some v => simp only [Option.isSome_some, if_true]; rw [hy]; simp only; rw [h]; rfl

theorem says_listing {body t : T} {o : Str} (f : Table → Str) (hl : ctx.listing = true)
    (hb : ∀ l ∈ ctx.sources, Says sys ctx g (some l) body (f l)) (h : Says sys ctx g none t o) :
    Says sys ctx g none (.block b!"listing" body t) ((ctx.sources.map f).flatten ++ o) := by
  unfold Says at *
  have hs : scopes ctx b!"listing" ([] : List (Option Table)) = (ctx.sources.map some, []) := by
    unfold scopes
    rw [if_neg (by decide), if_pos rfl, if_pos hl]
  have he : ∀ l : List Table, (∀ x ∈ l, sem (evaluator sys) ctx body (some x) ⟨none, none⟩ ⟨[], g⟩ =
      .ok (f x, ⟨[], g⟩)) → each (fun l => sem (evaluator sys) ctx body l ⟨none, none⟩) (l.map some) ⟨[], g⟩ =
      .ok ((l.map f).flatten, ⟨[], g⟩) := by
    intro l
    induction l with
    | nil => intro _; rfl
    | cons x l ih =>
      intro hx
      rw [List.map_cons, each, seq, hx x (by simp)]
      simp only [Res.bind]
      rw [ih fun y hy => hx y (by simp [hy])]
      rfl
  rw [sem, seq, hs]
  simp only
  rw [he ctx.sources hb]
  simp only [Res.bind]
  rw [h]
  rfl

end

/-- A name whose value is not computed. -/
structure Fixed (n : Str) : Prop where
  size : splitSize n = .ok (n, -1)
  item : n ≠ b!"FOREACH_ITEM" ∧ n ≠ b!"FOREACH_VALUE"
  base : ¬ b!"BLOGC_" <+: (splitFormatted n).1

theorem injected_nil (sys : Sys) (n : Str) (h : ¬ b!"BLOGC_" <+: n) : injected sys n = [] := by
  have key : ∀ m : Str, b!"BLOGC_" <+: m → n ≠ m := fun m hm e => h (e ▸ hm)
  unfold injected
  rw [if_neg (fun e => e.elim (key _ (by decide)) (key _ (by decide))), if_neg (key _ (by decide)),
    if_neg (key _ (by decide)), if_neg (key _ (by decide)), if_neg (key _ (by decide))]

theorem has_shown (sys : Sys) (g : Table) (loc : Option Table) (n : Str) (h : Fixed n) :
    ∃ v, Has sys g loc n v ∧ v.getD [] = shown sys g loc n ∧
      ((splitFormatted n).2 = false → v = getVariable n g loc) := by
  have hs : ∀ v, Has sys g loc n v → v.getD [] = shown sys g loc n := by
    intro v hv
    unfold shown
    rw [hv]
    cases v <;> rfl
  have he : funcvarsEval sys g (splitFormatted n).1 = g := by
    unfold funcvarsEval
    rw [injected_nil sys _ h.base]
    cases g.lookup (splitFormatted n).1 <;> rfl
  have hd : derived sys g loc ⟨none, none⟩ n = .ok (g, (getVariable (splitFormatted n).1 g loc).map fun v =>
      dress sys g loc n v (splitFormatted n).2 (-1)) := by
    unfold derived
    rw [h.size]
    simp only [Res.bind, baseValue, he]
  cases hv : getVariable n g loc with
  | some v =>
    have : Has sys g loc n (some v) := by
      unfold Has formatVariable
      rw [hv]
    exact ⟨some v, this, hs _ this, fun _ => rfl⟩
  | none =>
    have : Has sys g loc n ((getVariable (splitFormatted n).1 g loc).map fun v =>
        dress sys g loc n v (splitFormatted n).2 (-1)) := by
      unfold Has formatVariable
      rw [hv]
      simp only
      rw [if_neg h.item.1, if_neg h.item.2, hd]
    refine ⟨_, this, hs _ this, fun hf => ?_⟩
    have : (splitFormatted n).1 = n := by
      unfold splitFormatted at hf ⊢
      split at hf
      · cases hf
      · rename_i hn
        rw [if_neg hn]
    rw [this, hv]
    rfl

/-- The names of the template. -/
theorem fixed_names : ∀ n ∈ [b!"SITE_TITLE", b!"FILTER_TAG", b!"BASE_DOMAIN", b!"BASE_URL", b!"DATE_FIRST_FORMATTED",
    b!"AUTHOR_NAME", b!"AUTHOR_EMAIL", b!"SITE_TAGLINE", b!"TITLE", b!"FILENAME", b!"DATE_FORMATTED", b!"CONTENT"],
    Fixed n := by
  have h : ∀ n ∈ [b!"SITE_TITLE", b!"FILTER_TAG", b!"BASE_DOMAIN", b!"BASE_URL", b!"DATE_FIRST_FORMATTED",
    b!"AUTHOR_NAME", b!"AUTHOR_EMAIL", b!"SITE_TAGLINE", b!"TITLE", b!"FILENAME", b!"DATE_FORMATTED", b!"CONTENT"],
    splitSize n = .ok (n, -1) ∧ (n ≠ b!"FOREACH_ITEM" ∧ n ≠ b!"FOREACH_VALUE") ∧
      ¬ b!"BLOGC_" <+: (splitFormatted n).1 := by
    decide +kernel
  intro n hn
  obtain ⟨h1, h2, h3⟩ := h n hn
  exact ⟨h1, h2, h3⟩

section
variable {sys : Sys} {ctx : Ctx Table} {g : Table}

theorem says_shown {loc : Option Table} {t : T} {o : Str} (n : Str) (hn : Fixed n) (h : Says sys ctx g loc t o) :
    Says sys ctx g loc (.var n t) (shown sys g loc n ++ o) := by
  obtain ⟨v, h1, h2, -⟩ := has_shown sys g loc n hn
  rw [← h2]
  exact says_var h1 h

theorem tag_has : Has sys g none b!"FILTER_TAG" (g.lookup b!"FILTER_TAG") ∧
    ∀ t, g.lookup b!"FILTER_TAG" = some t → shown sys g none b!"FILTER_TAG" = t := by
  obtain ⟨v, h1, h2, h3⟩ := has_shown sys g none b!"FILTER_TAG" (fixed_names _ (by decide))
  have h3 := h3 (by decide)
  have e : v = g.lookup b!"FILTER_TAG" := h3
  subst e
  refine ⟨h1, fun t ht => ?_⟩
  rw [← h2, ht]
  rfl

theorem says_url (pre : Str) (index : Bool) {t : T} {o : Str} (h : Says sys ctx g none t o) :
    Says sys ctx g none (urlT pre index t) (pre ++ ((match g.lookup b!"FILTER_TAG" with
      | some t => b!"/" ++ t
      | none => if index then b!"/index" else []) ++ o)) := by
  unfold urlT
  apply says_txt
  obtain ⟨h1, h2⟩ := tag_has (sys := sys) (g := g)
  have hy : Says sys ctx g none (.text b!"/" (.var b!"FILTER_TAG" .done))
      (b!"/" ++ (shown sys g none b!"FILTER_TAG" ++ [])) :=
    says_text _ (says_shown _ (fixed_names _ (by decide)) (says_done _))
  cases index with
  | true =>
    have := says_condElse h1 hy (says_text b!"/index" (says_done _)) h
    rw [if_pos rfl]
    cases ht : g.lookup b!"FILTER_TAG" with
    | none => rw [ht] at this; exact this
    | some t =>
      rw [ht] at this
      rw [h2 t ht] at this
      simpa using this
  | false =>
    have := says_cond h1 hy h
    rw [if_neg (by simp)]
    cases ht : g.lookup b!"FILTER_TAG" with
    | none => rw [ht] at this; exact this
    | some t =>
      rw [ht] at this
      rw [h2 t ht] at this
      simpa using this

set_option maxRecDepth 8000 in
theorem says_entry (l : Table) (link hext : Str) :
    Says sys ctx g (some l) (entryT link hext)
      (entry (shown sys g (some l)) (link ++ b!"/" ++ shown sys g (some l) b!"FILENAME" ++ hext)) := by
  have f : ∀ {loc : Option Table} {t : T} {o : Str} (n : Str), n ∈ [b!"SITE_TITLE", b!"FILTER_TAG", b!"BASE_DOMAIN",
      b!"BASE_URL", b!"DATE_FIRST_FORMATTED", b!"AUTHOR_NAME", b!"AUTHOR_EMAIL", b!"SITE_TAGLINE", b!"TITLE",
      b!"FILENAME", b!"DATE_FORMATTED", b!"CONTENT"] → Says sys ctx g loc t o →
      Says sys ctx g loc (.var n t) (shown sys g loc n ++ o) := fun n hn h => says_shown n (fixed_names n hn) h
  have := says_text (sys := sys) (ctx := ctx) (g := g) (loc := some l) b!"\n  <entry>\n    <title type=\"text\">"
    (f b!"TITLE" (by decide) (
    says_text b!"</title>\n    <id>" (f b!"BASE_DOMAIN" (by decide) (f b!"BASE_URL" (by decide) (
    says_text (link ++ b!"/") (f b!"FILENAME" (by decide) (
    says_text (hext ++ b!"</id>\n    <updated>") (f b!"DATE_FORMATTED" (by decide) (
    says_text b!"</updated>\n    <published>" (f b!"DATE_FORMATTED" (by decide) (
    says_text b!"</published>\n    <link href=\"" (f b!"BASE_DOMAIN" (by decide) (f b!"BASE_URL" (by decide) (
    says_text (link ++ b!"/") (f b!"FILENAME" (by decide) (
    says_text (hext ++ b!"\" />\n    <author>\n      <name>") (f b!"AUTHOR_NAME" (by decide) (
    says_text b!"</name>\n      <email>" (f b!"AUTHOR_EMAIL" (by decide) (
    says_text b!"</email>\n    </author>\n    <content type=\"html\"><![CDATA[" (f b!"CONTENT" (by decide) (
    says_text b!"]]></content>\n  </entry>" (says_done _)))))))))))))))))))))))
  unfold entryT
  have e : ∀ a b : Str, a = b → Says sys ctx g (some l) (entryT link hext) a →
    Says sys ctx g (some l) (entryT link hext) b := fun a b h => h ▸ id
  refine e _ _ ?_ this
  unfold entry
  simp only [List.append_assoc, List.cons_append, List.nil_append, List.append_nil]

/-- The part of the path of a feed between its prefix and its extension. -/
def middle (tag : Option Str) (index : Bool) : Str :=
  tag.elim (if index then b!"/index" else []) fun t => b!"/" ++ t

theorem says_middle (pre : Str) (index : Bool) {t : T} {o : Str} (h : Says sys ctx g none t o) :
    Says sys ctx g none (urlT pre index t) (pre ++ (middle (g.lookup b!"FILTER_TAG") index ++ o)) := by
  have := says_url pre index h
  unfold middle
  revert this
  cases g.lookup b!"FILTER_TAG" <;> exact id

set_option maxRecDepth 8000 in
theorem says_feed (hl : ctx.listing = true) (pre : Str) (index : Bool) (aext link hext : Str) :
    Says sys ctx g none (tree pre index aext link hext)
      (feed (shown sys g none) (g.lookup b!"FILTER_TAG")
        (pre ++ middle (g.lookup b!"FILTER_TAG") index ++ aext)
        (ctx.sources.map fun l =>
          entry (shown sys g (some l)) (link ++ b!"/" ++ shown sys g (some l) b!"FILENAME" ++ hext))) := by
  have f : ∀ {loc : Option Table} {t : T} {o : Str} (n : Str), n ∈ [b!"SITE_TITLE", b!"FILTER_TAG", b!"BASE_DOMAIN",
      b!"BASE_URL", b!"DATE_FIRST_FORMATTED", b!"AUTHOR_NAME", b!"AUTHOR_EMAIL", b!"SITE_TAGLINE", b!"TITLE",
      b!"FILENAME", b!"DATE_FORMATTED", b!"CONTENT"] → Says sys ctx g loc t o →
      Says sys ctx g loc (.var n t) (shown sys g loc n ++ o) := fun n hn h => says_shown n (fixed_names n hn) h
  obtain ⟨h1, h2⟩ := tag_has (sys := sys) (g := g)
  have hy : Says sys ctx g none (.text b!" - " (.var b!"FILTER_TAG" .done))
      (b!" - " ++ (shown sys g none b!"FILTER_TAG" ++ [])) :=
    says_text _ (says_shown _ (fixed_names _ (by decide)) (says_done _))
  have hend := says_listing _ hl (fun l _ => says_entry (sys := sys) (ctx := ctx) (g := g) l link hext)
    (says_text b!"\n</feed>\n" (says_done _))
  have := says_text (sys := sys) (ctx := ctx) (g := g) (loc := none)
    (b!"<?xml version=\"1.0\" encoding=\"utf-8\"?>\n" ++ b!"<feed xmlns=\"http://www.w3.org/2005/Atom\">\n" ++
      b!"  <title type=\"text\">") (f b!"SITE_TITLE" (by decide) (
    says_cond h1 hy (
    says_text b!"</title>\n  <id>" (f b!"BASE_DOMAIN" (by decide) (f b!"BASE_URL" (by decide) (
    says_middle pre index (
    says_text (aext ++ b!"</id>\n  <updated>") (f b!"DATE_FIRST_FORMATTED" (by decide) (
    says_text b!"</updated>\n  <link href=\"" (f b!"BASE_DOMAIN" (by decide) (f b!"BASE_URL" (by decide) (
    says_text b!"/\" />\n  <link href=\"" (f b!"BASE_DOMAIN" (by decide) (f b!"BASE_URL" (by decide) (
    says_middle pre index (
    says_text (aext ++ b!"\" rel=\"self\" />\n  <author>\n    <name>") (f b!"AUTHOR_NAME" (by decide) (
    says_text b!"</name>\n    <email>" (f b!"AUTHOR_EMAIL" (by decide) (
    says_text b!"</email>\n  </author>\n  <subtitle type=\"text\">" (f b!"SITE_TAGLINE" (by decide) (
    says_text b!"</subtitle>" hend))))))))))))))))))))))
  have e : ∀ a b : Str, a = b → Says sys ctx g none (tree pre index aext link hext) a →
    Says sys ctx g none (tree pre index aext link hext) b := fun a b h => h ▸ id
  refine e _ _ ?_ this
  have ht : (if (g.lookup b!"FILTER_TAG").isSome then b!" - " ++ (shown sys g none b!"FILTER_TAG" ++ []) else []) =
      (g.lookup b!"FILTER_TAG").elim [] fun t => b!" - " ++ t := by
    cases ht : g.lookup b!"FILTER_TAG" with
    | none => rfl
    | some t => rw [h2 t ht]; simp
  rw [ht]
  unfold feed
  simp only [List.append_assoc, List.cons_append, List.nil_append, List.append_nil]

end

/-! ## The theorems -/

theorem tree_ok (pre : Str) (index : Bool) (aext link hext : Str) : Doc.Ok false false (tree pre index aext link hext) := by
  have hu : ∀ t, Doc.Ok false false t → Doc.Ok false false (urlT pre index t) := by
    intro t ht
    unfold urlT txtT
    split
    · cases index <;> simp [Doc.Ok, Cond.Ok, ht]
    · cases index <;> simp [Doc.Ok, Cond.Ok, ht]
  unfold tree
  simp only [Doc.Ok, Cond.Ok, entryT]
  refine ⟨by decide, by decide, ⟨by decide, trivial⟩, by decide, by decide, hu _ ?_⟩
  simp only [Doc.Ok]
  refine ⟨by decide, by decide, by decide, by decide, by decide, hu _ ?_⟩
  simp only [Doc.Ok]
  decide +kernel

theorem tree_noLeak (sys : Sys) (ctx : Ctx Table) (hl : ctx.listing = true) (pre : Str) (index : Bool)
    (aext link hext : Str) :
    NoLeak ctx (Neutral (evaluator sys) ctx []) (ctx.sources ≠ []) false (tree pre index aext link hext) := by
  have hN : ∀ n, ctx.sources ≠ [] ∨ Neutral (evaluator sys) ctx [] n := by
    intro n
    by_cases h : ctx.sources = []
    · right
      intro l hm
      rw [h] at hm
      rcases hm with hm | hm <;> cases hm
    · exact .inl h
  have hC : ctx.sources ≠ [] ∨ ∀ n ∈ (Cond.defined b!"FILTER_TAG").names, Neutral (evaluator sys) ctx [] n := by
    rcases hN b!"FILTER_TAG" with h | h
    · exact .inl h
    · right
      intro n hn
      have : n = b!"FILTER_TAG" := by simpa [Cond.names] using hn
      rw [this]
      exact h
  have hu : ∀ t, NoLeak ctx (Neutral (evaluator sys) ctx []) (ctx.sources ≠ []) false t →
      NoLeak ctx (Neutral (evaluator sys) ctx []) (ctx.sources ≠ []) false (urlT pre index t) := by
    intro t ht
    unfold urlT txtT
    split
    · cases index
      · exact ⟨hC, ⟨hN _, trivial⟩, ht⟩
      · exact ⟨hC, ⟨hN _, trivial⟩, trivial, ht⟩
    · cases index
      · exact ⟨hC, ⟨hN _, trivial⟩, ht⟩
      · exact ⟨hC, ⟨hN _, trivial⟩, trivial, ht⟩
  unfold tree
  refine ⟨hN _, hC, ⟨hN _, trivial⟩, hN _, hN _, hu _ ?_⟩
  refine ⟨hN _, hN _, hN _, hN _, hN _, hu _ ?_⟩
  refine ⟨hN _, hN _, hN _, fun h => .inr (.inl ⟨rfl, hl, h⟩), fun h => .inl rfl, trivial⟩

theorem feedPath_eq (get : Str → Option Str) (h : Spec.Feed.Ok get) (tag : Option Str)
    (ht : ∀ t, tag = some t → t ≠ [] ∧ ¬ C53.IsIndex (get b!"atom_prefix") t (get b!"atom_ext")) :
    feedPre get ++ middle tag (isIndex get) ++ Make.text (get b!"atom_ext") = feedPath get tag := by
  cases tag with
  | none =>
    obtain ⟨p, hp, -⟩ := h.atomPrefix
    unfold middle feedPre isIndex feedPath Spec.MakeJobs.listingPath
    rw [hp]
    cases p with
    | nil =>
      cases hs : slashFirst (get b!"atom_ext") <;> simp [C53.slashed, have?]
    | cons c p => simp [C53.slashed, have?]
  | some t =>
    obtain ⟨h1, h2⟩ := ht t rfl
    unfold middle feedPre feedPath C53.pathOf
    simp only [if_neg h2]
    simp [C53.slashed, C53.have_some t h1, C53.text_some]

theorem postPath_eq (get : Str → Option Str) (f : Str) (hf : f ≠ [])
    (hi : ¬ C53.IsIndex (get b!"post_prefix") f (get b!"html_ext")) :
    postPre get ++ b!"/" ++ f ++ Make.text (get b!"html_ext") = postPath get f := by
  unfold postPre postPath C53.pathOf
  rw [if_neg hi]
  simp [C53.slashed, C53.have_some f hf, C53.text_some]

/-- The template made for a site without a feed template is accepted by blogc, and
for all sources and variables it renders to the documented feed: the entries are
those of the listing, once each and in order; the feed names its own path below the
output directory, and each entry the path of the page of its post. -/
theorem default_feed_partial (get : Str → Option Str) (h : Spec.Feed.Ok get) (sys : Sys) (sources : List Table)
    (g : Table)
    (ht : ∀ t, g.lookup b!"FILTER_TAG" = some t →
      t ≠ [] ∧ ¬ C53.IsIndex (get b!"atom_prefix") t (get b!"atom_ext"))
    (slug : Table → Str)
    (hs : ∀ l ∈ sources, l.lookup b!"FILENAME" = some (slug l) ∧ slug l ≠ [] ∧
      ¬ C53.IsIndex (get b!"post_prefix") (slug l) (get b!"html_ext")) :
    ∃ src tmpl n, atomGenerate get = .ok src ∧ parse src = .ok (.ok tmpl) ∧
      ∀ m, n ≤ m → render (evaluator sys) m tmpl ⟨sources, true⟩ [] g =
        .ok (feed (shown sys g none) (g.lookup b!"FILTER_TAG") (feedPath get (g.lookup b!"FILTER_TAG"))
          (sources.map fun l => entry (shown sys g (some l)) (postPath get (slug l)))) := by
  have hpre : Literal (feedPre get) := by
    apply slashed_literal
    intro s hs
    rcases List.mem_cons.1 hs with e | hs
    · exact (h.blogPrefix s e.symm).1
    · obtain ⟨p, hp, hpl⟩ := h.atomPrefix
      have : some s = get b!"atom_prefix" := by simpa using hs
      rw [hp] at this
      cases this
      exact hpl
  have hlink : Literal (postPre get) := by
    apply slashed_literal
    intro s hs
    rcases List.mem_cons.1 hs with e | hs
    · exact (h.blogPrefix s e.symm).1
    · have : some s = get b!"post_prefix" := by simpa using hs
      exact h.postPrefix s this.symm
  have haext : Literal (Make.text (get b!"atom_ext")) := by
    obtain ⟨e, he, hel⟩ := h.atomExt
    rw [he]
    exact hel
  have hhext : Literal (Make.text (get b!"html_ext")) := by
    cases he : get b!"html_ext" with
    | none => exact (by decide : Literal [])
    | some e => exact h.htmlExt e he
  obtain ⟨tmpl, out, n, h1, h2, h3⟩ := C22.rendered_partial (evaluator sys) (C24.total sys) _
    (toks_ok (isIndex get) hpre haext hlink hhext) _ (tree_ok _ _ _ _ _) (toks_meaning _ _ _ _ _)
    ⟨sources, true⟩ [] g _ (tree_noLeak sys ⟨sources, true⟩ rfl _ _ _ _ _)
  refine ⟨_, tmpl, n, generated get h, h1, ?_⟩
  have hsays := says_feed (sys := sys) (ctx := ⟨sources, true⟩) (g := g) rfl (feedPre get) (isIndex get)
    (Make.text (get b!"atom_ext")) (postPre get) (Make.text (get b!"html_ext"))
  unfold Says at hsays
  unfold Doc.text at h2
  rw [hsays] at h2
  have hout := (Res.ok.inj h2).symm
  rw [feedPath_eq get h _ ht] at hout
  have hm : (sources.map fun l => entry (shown sys g (some l))
      (postPre get ++ b!"/" ++ shown sys g (some l) b!"FILENAME" ++ Make.text (get b!"html_ext"))) =
      sources.map fun l => entry (shown sys g (some l)) (postPath get (slug l)) := by
    apply List.map_congr_left
    intro l hl
    obtain ⟨e1, e2, e3⟩ := hs l hl
    have : shown sys g (some l) b!"FILENAME" = slug l := by
      unfold shown formatVariable Render.getVariable
      simp only [e1]
    rw [this, postPath_eq get _ e2 e3]
  rw [← hm]
  rw [hout] at h3
  exact h3

/-- The paths named in the feed are those of the files built by the rules `atom`,
`atom_tags` and `posts`. -/
theorem places (s : Site) :
    (∀ w ∈ Spec.MakeJobs.atom s, w.output = Spec.MakeJobs.outDir s ++ feedPath s.get none) ∧
    (∀ w ∈ Spec.MakeJobs.atomTags s, ∃ tag ∈ Spec.MakeJobs.siteTags s, (b!"FILTER_TAG", tag) ∈ w.vars ∧
      w.output = Spec.MakeJobs.outDir s ++ feedPath s.get (some tag)) ∧
    (∀ w ∈ Spec.MakeJobs.posts s, ∃ slug ∈ s.cfg.posts.getD [], w.slug = some slug ∧
      w.sources = [Spec.MakeJobs.postSource s slug] ∧
      w.output = Spec.MakeJobs.outDir s ++ postPath s.get slug) := by
  refine ⟨?_, ?_, ?_⟩
  · intro w hw
    unfold Spec.MakeJobs.atom at hw
    split at hw
    · cases hw
    · rw [List.mem_singleton.1 hw]
      simp only [Spec.MakeJobs.feed, feedPath, Spec.MakeJobs.listingPath, List.nil_append, List.append_assoc]
  · intro w hw
    unfold Spec.MakeJobs.atomTags at hw
    split at hw
    · cases hw
    · obtain ⟨tag, h1, rfl⟩ := List.mem_map.1 hw
      refine ⟨tag, h1, List.mem_cons_self, ?_⟩
      simp only [Spec.MakeJobs.feed, feedPath, C53.pathOf, List.nil_append, List.append_assoc]
  · intro w hw
    obtain ⟨slug, h1, rfl⟩ := List.mem_map.1 hw
    refine ⟨slug, h1, rfl, rfl, ?_⟩
    simp only [Spec.MakeJobs.single, postPath, C53.pathOf, List.nil_append, List.append_assoc]

/-- The name by which blogc knows a post is the slug by which blogc-make names its
page, for slugs that are names of files and an extension such as ".txt". -/
theorem post_filename (s : Site) (slug ext : Str) (hs : slug ≠ []) (h1 : ∀ c ∈ slug, ¬ C33.Sep c)
    (he : s.get b!"source_ext" = some (c!"." :: ext)) (h2 : ∀ c ∈ ext, ¬ C33.Sep c) (h3 : c!"." ∉ ext) :
    getFilename (some (Spec.MakeJobs.postSource s slug)) = some slug := by
  have hi : ¬ C53.IsIndex (s.get b!"post_prefix") slug (s.get b!"source_ext") := by
    rw [he]
    simp [C53.IsIndex, slashFirst]
  have e : Spec.MakeJobs.postSource s slug = (Spec.MakeJobs.contentDir s ++
      C53.slashed [s.get b!"blog_prefix", s.get b!"post_prefix"] ++ b!"/") ++ (slug ++ c!"." :: ext) := by
    unfold Spec.MakeJobs.postSource C53.pathOf
    rw [if_neg hi, he]
    simp [C53.slashed, C53.have_some slug hs, C53.text_some]
  rw [e]
  apply C33.filename_correct _ (slug ++ c!"." :: ext) slug
  · simp
  · refine ⟨?_, _, rfl, ?_⟩
    · intro c hc
      rcases List.mem_append.1 hc with hc | hc
      · exact h1 c hc
      · rcases List.mem_cons.1 hc with rfl | hc
        · simp [C33.Sep]
        · exact h2 c hc
    · intro c hc
      rw [List.getLast?_concat] at hc
      cases hc
      exact Or.inl rfl
  · exact Or.inr ⟨ext, h3, rfl⟩

/-! ## A site -/

/-- The settings of a site with a prefix. -/
def settings : Str → Option Str := fun k =>
  if k = b!"blog_prefix" then some b!"blog"
  else if k = b!"atom_prefix" then some b!"atom"
  else if k = b!"atom_ext" then some b!".xml"
  else if k = b!"post_prefix" then some b!"post"
  else if k = b!"html_ext" then some b!"/index.html"
  else if k = b!"source_ext" then some b!".txt"
  else none

theorem settings_ok : Spec.Feed.Ok settings where
  blogPrefix := by intro b h; cases h; exact ⟨by decide, by decide, by decide⟩
  atomPrefix := ⟨b!"atom", rfl, by decide⟩
  atomExt := ⟨b!".xml", rfl, by decide⟩
  postPrefix := by intro b h; cases h; decide
  htmlExt := by intro b h; cases h; decide

/-- The defaults of blogcfile(5) are settings as needed too. -/
def defaults : Str → Option Str := fun k =>
  if k = b!"atom_prefix" then some b!"atom"
  else if k = b!"atom_ext" then some b!".xml"
  else if k = b!"post_prefix" then some b!"post"
  else if k = b!"html_ext" then some b!"/index.html"
  else none

theorem defaults_ok : Spec.Feed.Ok defaults where
  blogPrefix := by intro b h; cases h
  atomPrefix := ⟨b!"atom", rfl, by decide⟩
  atomExt := ⟨b!".xml", rfl, by decide⟩
  postPrefix := by intro b h; cases h; decide
  htmlExt := by intro b h; cases h; decide

example : feedPath settings none = b!"/blog/atom.xml" := by decide
example : feedPath settings (some b!"c") = b!"/blog/atom/c.xml" := by decide
example : postPath settings b!"first" = b!"/blog/post/first/index.html" := by decide
example : ¬ C53.IsIndex (settings b!"atom_prefix") b!"c" (settings b!"atom_ext") ∧
    ¬ C53.IsIndex (settings b!"post_prefix") b!"index" (settings b!"html_ext") := by decide

/-- Two posts: the hypotheses of `default_feed_partial` hold, with a tag. -/
def one : Table := (Trie.inserts [(b!"FILENAME", b!"first"), (b!"TITLE", b!"First")]).1
def two : Table := (Trie.inserts [(b!"FILENAME", b!"second"), (b!"TITLE", b!"Second")]).1
def globals : Table := (Trie.inserts [(b!"FILTER_TAG", b!"c"), (b!"SITE_TITLE", b!"Site")]).1

example : ∃ src tmpl n, atomGenerate settings = .ok src ∧ parse src = .ok (.ok tmpl) ∧
    ∀ m, n ≤ m → render (evaluator ⟨none, none, none, none, false, fun _ _ => none⟩) m tmpl ⟨[one, two], true⟩ []
      globals = .ok (feed (shown ⟨none, none, none, none, false, fun _ _ => none⟩ globals none) (some b!"c")
        b!"/blog/atom/c.xml"
        [entry (shown ⟨none, none, none, none, false, fun _ _ => none⟩ globals (some one))
            b!"/blog/post/first/index.html",
          entry (shown ⟨none, none, none, none, false, fun _ _ => none⟩ globals (some two))
            b!"/blog/post/second/index.html"]) := by
  refine default_feed_partial settings settings_ok _ [one, two] globals ?_
    (fun l => if l.lookup b!"FILENAME" = some b!"first" then b!"first" else b!"second") ?_
  · intro t ht
    have : globals.lookup b!"FILTER_TAG" = some b!"c" := by decide +kernel
    rw [this] at ht
    cases ht
    decide
  · intro l hl
    rcases List.mem_cons.1 hl with rfl | hl
    · decide +kernel
    · rw [List.mem_singleton.1 hl]
      decide +kernel

/-! ## Where the feed does not say what is meant -/

/-- An empty `blog_prefix` is ignored for files, but not for the link of the feed to
itself: the feed is "/atom.xml", and its link is "//atom.xml". -/
theorem empty_prefix_violated : ∃ get src, get b!"blog_prefix" = some [] ∧ feedPath get none = b!"/atom.xml" ∧
    atomGenerate get = .ok src ∧
    (b!"<id>{{ BASE_DOMAIN }}{{ BASE_URL }}//atom{% ifdef FILTER_TAG %}" <:+: src) :=
  ⟨fun k => if k = b!"blog_prefix" then some [] else defaults k, _, rfl, by decide, rfl, by decide +kernel⟩

/-- A `blog_prefix` with a percent sign is used as a format of printf. -/
theorem percent_prefix_violated : ∃ get, get b!"blog_prefix" = some b!"100%s" ∧ atomGenerate get = .ub :=
  ⟨fun k => if k = b!"blog_prefix" then some b!"100%s" else defaults k, by decide, by decide +kernel⟩

/-- A post called "index", without a prefix: its page is the index of the blog, and
the feed has the link of another page. -/
theorem index_post_violated : ∃ get src, Spec.Feed.Ok get ∧ postPath get b!"index" = b!"/index.html" ∧
    atomGenerate get = .ok src ∧
    (b!"<link href=\"{{ BASE_DOMAIN }}{{ BASE_URL }}/{{ FILENAME }}/index.html\" />" <:+: src) := by
  refine ⟨fun k => if k = b!"post_prefix" then none else defaults k, _, ?_, by decide, rfl, by decide +kernel⟩
  constructor
  · intro b h; cases h
  · exact ⟨b!"atom", rfl, by decide⟩
  · exact ⟨b!".xml", rfl, by decide⟩
  · intro b h; cases h
  · intro b h; cases h; decide

/-- The write of the template to its file may be partial, and nothing notices. -/
theorem short_write_violated : ∃ get content n, Spec.Feed.Ok get ∧ atomGenerate get = .ok content ∧
    n < content.length ∧ atomDeploy get true (some n) = .ok (.file (content.take n)) :=
  ⟨defaults, _, 5, defaults_ok, rfl, by decide +kernel, rfl⟩

/-- Otherwise the file of the template has the template, unless the file cannot be
created or written, or the setting that is not supported any more is there. -/
theorem deployed_partial (get : Str → Option Str) (h : Spec.Feed.Ok get) (created : Bool) (wrote : Option Nat) :
    ∃ src, atomGenerate get = .ok src ∧
      (get b!"atom_legacy_entry_id" ≠ none → atomDeploy get created wrote = .ok .legacy) ∧
      (get b!"atom_legacy_entry_id" = none → created = false ∨ wrote = none →
        atomDeploy get created wrote = .ok .failed) ∧
      (get b!"atom_legacy_entry_id" = none → created = true → ∀ n, wrote = some n → src.length ≤ n →
        atomDeploy get created wrote = .ok (.file src)) := by
  refine ⟨_, generated get h, fun h1 => ?_, fun h1 h2 => ?_, fun h1 h2 n h3 h4 => ?_⟩
  · unfold atomDeploy
    rw [if_pos (Option.isSome_iff_ne_none.2 h1)]
  · unfold atomDeploy
    rw [if_neg (by rw [h1]; simp), generated get h]
    rcases h2 with rfl | rfl
    · rfl
    · cases created <;> rfl
  · unfold atomDeploy
    rw [if_neg (by rw [h1]; simp), generated get h, if_pos h2, h3]
    simp only [Res.map]
    rw [List.take_of_length_le h4]

example : defaults b!"atom_legacy_entry_id" = none := by decide

/-- Each percent sign doubled. -/
def doubled (s : Str) : Str := s.flatMap fun c => if c = c!"%" then b!"%%" else [c]

/-- What the start of a link is with a percent sign in the prefix: two percent signs
make one, and anything else is undefined. -/
theorem percent (b s : Str) : atomStart (some b) = .ok (b!"/" ++ s) ↔ b = doubled s := by
  have key : ∀ b s, formatText b = .ok s ↔ b = doubled s := by
    intro b
    induction b using formatText.induct with
    | case1 =>
      intro s
      rw [formatText]
      cases s with
      | nil => simp [doubled]
      | cons c s =>
        simp only [doubled, List.flatMap_cons]
        split <;> simp
    | case2 => 
      intro s
      rw [formatText, if_pos rfl]
      cases s with
      | nil => simp [doubled]
      | cons c s =>
        simp only [doubled, List.flatMap_cons]
        split
        · simp
        · rename_i hc
          simp only [reduceCtorEq, false_iff]
          intro e
          simp at e
          exact hc e.1.symm
    | case3 c hc =>
      intro s
      rw [formatText, if_neg hc]
      cases s with
      | nil => simp [doubled]
      | cons d s =>
        cases s with
        | nil =>
          simp only [doubled, List.flatMap_cons, List.flatMap_nil]
          split
          · rename_i hd
            simp [hd, hc]
          · simp
        | cons e s =>
          simp only [doubled, List.flatMap_cons]
          split <;> split <;> simp
    | case4 r ih =>
      intro s
      rw [formatText, if_pos rfl, if_pos rfl]
      cases s with
      | nil => cases h : formatText r <;> simp [doubled, Res.map]
      | cons d s =>
        have e : ((formatText r).map fun s => c!"%" :: s) = .ok (d :: s) ↔ d = c!"%" ∧ formatText r = .ok s := by
          cases h : formatText r with
          | ub => simp [Res.map]
          | ok x => simp [Res.map, eq_comm]
        rw [e, ih]
        simp only [doubled, List.flatMap_cons]
        by_cases hd : d = c!"%"
        · simp [hd]
        · rw [if_neg hd]
          simp only [hd, false_and, false_iff]
          intro e
          simp at e
          exact hd e.1.symm
    | case5 d r hd =>
      intro s
      rw [formatText, if_pos rfl, if_neg hd]
      cases s with
      | nil => simp [doubled]
      | cons x s =>
        simp only [reduceCtorEq, false_iff]
        intro e
        simp only [doubled, List.flatMap_cons] at e
        split at e
        · simp at e; exact hd e.1
        · rename_i hx
          simp at e
          exact hx e.1.symm
    | case6 c d r hc ih =>
      intro s
      rw [formatText, if_neg hc]
      cases s with
      | nil => cases h : formatText (d :: r) <;> simp [doubled, Res.map]
      | cons x s =>
        have e : ((formatText (d :: r)).map fun s => c :: s) = .ok (x :: s) ↔ c = x ∧ formatText (d :: r) = .ok s := by
          cases h : formatText (d :: r) with
          | ub => simp [Res.map]
          | ok x => simp [Res.map]
        rw [e, ih]
        simp only [doubled, List.flatMap_cons]
        split
        · rename_i hx
          simp only [hx, hc, false_and, false_iff]
          intro e
          simp at e
          exact hc e.1
        · simp
  rw [← key]
  unfold atomStart
  cases h : formatText b with
  | ub => simp [Res.map, h]
  | ok x => simp [Res.map, h]

example : atomStart (some b!"100%%") = .ok b!"/100%" := by decide

end Blogc.C90
