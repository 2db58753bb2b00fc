import Verif.Props.C46
import Verif.Props.C48
import Verif.Props.C02
import Verif.Props.C34

/-!
# C84: every path is answered by what it leads to
-/

namespace Blogc.C84

open Blogc Blogc.Httpd Blogc.Url
open Blogc.C02 (splitAcc)

/-! ## Specification -/

/-- The index pages, in order of preference. -/
def indexFiles : List Str :=
  [b!"index.html", b!"index.htm", b!"index.shtml", b!"index.xml", b!"index.txt", b!"index.xhtml"]

/-- `f` is the index page of a directory: the first one that exists. -/
def IsIndexOf (env : Env) (dir f : Str) : Prop :=
  ∃ before name after, indexFiles = before ++ name :: after ∧ f = dir ++ b!"/" ++ name ∧
    env.exists_ f = true ∧ ∀ n ∈ before, env.exists_ (dir ++ b!"/" ++ n) = false

/-- A literal byte of a request target. -/
def Literal (c : Byte) : Prop := c ≠ c!"+" ∧ c ≠ c!" " ∧ c ≠ c!"?"

/-- A request line for the target `t`: it may have a query. -/
inductive Line (t : Str) : Str → Prop where
  | plain (proto : Str) : Line t (b!"GET " ++ t ++ b!" " ++ proto)
  | query (q proto : Str) : c!" " ∉ q → Line t (b!"GET " ++ (t ++ b!"?" ++ q) ++ b!" " ++ proto)

/-- The canonical path that `path` leads to, inside the root. -/
def LeadsTo (env : Env) (docroot path p : Str) : Prop :=
  env.realpath (docroot ++ b!"/" ++ path) = .ok p ∧
    ∃ root, env.realpath docroot = .ok root ∧ root <+: p

/-- The path ends with a slash, or is empty. -/
def Slashed (path : Str) : Prop := path = [] ∨ path.getLast? = some c!"/"

/-! ## The request line -/

theorem splitAcc_piece (c : Byte) (m : Nat) (p rest cur : Str) (n : Nat) (hp : c ∉ p)
    (hn : m = 0 ∨ n + 1 < m) :
    splitAcc c m (p ++ c :: rest) cur n = (cur ++ p) :: splitAcc c m rest [] (n + 1) := by
  induction p generalizing cur with
  | nil => rw [List.nil_append, splitAcc, if_pos ⟨rfl, hn⟩, List.append_nil]
  | cons b p ih =>
    rw [List.cons_append, splitAcc, if_neg (fun h => hp (by simp [h.1])), ih _ (fun h => hp (by simp [h]))]
    simp

theorem splitAcc_last (c : Byte) (m : Nat) (rest cur : Str) (n : Nat) (hm : c ∉ rest ∨ (m ≠ 0 ∧ m ≤ n + 1)) :
    splitAcc c m rest cur n = [cur ++ rest] := by
  induction rest generalizing cur with
  | nil => simp [splitAcc]
  | cons b rest ih =>
    rw [splitAcc, if_neg, ih]
    · simp
    · rcases hm with h | h
      · exact .inl (fun h' => h (by simp [h']))
      · exact .inr h
    · rintro ⟨rfl, h⟩
      rcases hm with h' | h'
      · simp at h'
      · omega

theorem hex_literal (a : Byte) (x : Nat) (h : hexVal a = some x) : a ≠ c!" " ∧ a ≠ c!"?" := by
  constructor
  · rintro rfl; revert h; decide +revert
  · rintro rfl; revert h; decide +revert

theorem encodes_plain (t s : Str) (h : Encodes Literal t s) : c!" " ∉ t ∧ c!"?" ∉ t := by
  induction h with
  | nil => simp
  | literal _ h2 _ ih => exact ⟨by simp [ih.1, h2.2.1.symm], by simp [ih.2, h2.2.2.symm]⟩
  | escaped hx hy _ ih =>
    obtain ⟨a1, a2⟩ := hex_literal _ _ hx
    obtain ⟨b1, b2⟩ := hex_literal _ _ hy
    exact ⟨by simp [ih.1, a1.symm, b1.symm], by simp [ih.2, a2.symm, b2.symm]⟩

theorem encodes_decode (t s : Str) (h : Encodes Literal t s) : urldecode t = .ok s := by
  refine C46.inverts_partial t s ?_
  induction h with
  | nil => exact .nil
  | literal h1 h2 _ ih => exact .literal h1 h2.1 ih
  | escaped hx hy _ ih => exact .escaped hx hy ih

theorem handle_target (env : Env) (docroot target proto : Str) (hne : target ≠ []) (hb : c!" " ∉ target)
    (p : Str) (ps : List Str) (hp : split target c!"?" 2 = p :: ps) (path : Str) (hd : urldecode p = .ok path) :
    handle env docroot (b!"GET " ++ target ++ b!" " ++ proto) = .ok (serve env docroot (cstr path)) := by
  have hs : split (b!"GET " ++ target ++ b!" " ++ proto) c!" " 3 = [b!"GET", target, proto] := by
    rw [C02.split_eq _ _ _ (by simp)]
    have e : b!"GET " ++ target ++ b!" " ++ proto = b!"GET" ++ c!" " :: (target ++ c!" " :: proto) := by simp
    rw [e, splitAcc_piece _ _ _ _ _ _ (by decide) (by omega), splitAcc_piece _ _ _ _ _ _ hb (by omega),
      splitAcc_last _ _ _ _ _ (.inr (by omega))]
    rfl
  unfold handle
  rw [if_neg (by simp), hs]
  simp only [ne_eq, not_true_eq_false, if_false, hp, hd]
  rfl

/-- A request is answered by what its decoded path leads to, whatever its query. -/
theorem request (env : Env) (docroot t path line : Str) (ht : Encodes Literal t path) (hne : t ≠ [])
    (hnul : NulFree path) (hl : Line t line) : handle env docroot line = .ok (serve env docroot path) := by
  obtain ⟨h1, h2⟩ := encodes_plain t path ht
  have hc : cstr path = path := C34.cstr_nulFree path hnul
  cases hl with
  | plain proto =>
    have := handle_target env docroot t proto hne h1 t [] ?_ path (encodes_decode t path ht)
    · rw [this, hc]
    · rw [C02.split_eq _ _ _ hne, splitAcc_last _ _ _ _ _ (.inl h2)]; rfl
  | query q proto hq =>
    have := handle_target env docroot (t ++ b!"?" ++ q) proto (by simp) (by simp [h1, hq]) t [q] ?_ path
      (encodes_decode t path ht)
    · rw [this, hc]
    · rw [C02.split_eq _ _ _ (by simp)]
      have e : t ++ b!"?" ++ q = t ++ c!"?" :: q := by simp
      rw [e, splitAcc_piece _ _ _ _ _ _ h2 (by omega), splitAcc_last _ _ _ _ _ (.inr (by omega))]
      rfl

/-! ## The index page -/

theorem names : indexNames = indexFiles := by decide +kernel

theorem find_first {α : Type} (p : α → Bool) (l : List α) (x : α) : l.find? p = some x ↔
    ∃ before after, l = before ++ x :: after ∧ p x = true ∧ ∀ y ∈ before, p y = false := by
  rw [List.find?_eq_some_iff_append]
  constructor
  · rintro ⟨h, a, b, e, h'⟩
    exact ⟨a, b, e, h, fun y hy => by simpa using h' y hy⟩
  · rintro ⟨a, b, e, h, h'⟩
    exact ⟨h, a, b, e, fun y hy => by simpa using h' y hy⟩

/-- The index page found is the first one that exists. -/
theorem index_iff (env : Env) (dir f : Str) : guessIndex env dir = some f ↔ IsIndexOf env dir f := by
  rw [guessIndex, names, find_first]
  constructor
  · rintro ⟨b, a, e, h, h'⟩
    obtain ⟨b', r, e1, rfl, e2⟩ := List.map_eq_append_iff.1 e
    obtain ⟨n, a', rfl, rfl, rfl⟩ := List.map_eq_cons_iff.1 e2
    exact ⟨b', n, a', e1, rfl, h, fun m hm => h' _ (List.mem_map_of_mem hm)⟩
  · rintro ⟨b, n, a, e, rfl, h, h'⟩
    refine ⟨b.map _, a.map _, by rw [e, List.map_append, List.map_cons], h, ?_⟩
    intro y hy
    obtain ⟨m, hm, rfl⟩ := List.mem_map.1 hy
    exact h' m hm

theorem index_none (env : Env) (dir : Str) :
    guessIndex env dir = none ↔ ∀ n ∈ indexFiles, env.exists_ (dir ++ b!"/" ++ n) = false := by
  rw [guessIndex, names, List.find?_eq_none]
  simp

/-! ## The answers -/

theorem take_prefix {a b : Str} : b.take a.length ≠ a ↔ ¬ a <+: b := by
  rw [List.prefix_iff_eq_take]
  exact ⟨fun h e => h e.symm, fun h e => h e.symm⟩

theorem serve_leads (env : Env) (docroot path p : Str) (h : LeadsTo env docroot path p) :
    serve env docroot path = match env.isDir p with
      | none => fail 404 b!"Not Found"
      | some false => sendFile env path p false
      | some true =>
        match guessIndex env p with
        | none => fail 403 b!"Forbidden"
        | some found =>
          sendFile env path found (decide (path.length > 0) && path.getD (path.length - 1) 0 != c!"/") := by
  obtain ⟨h1, root, h2, h3⟩ := h
  unfold serve
  rw [h1]
  simp only [h2]
  rw [if_neg (fun h' => (take_prefix.1 h') h3)]
  rfl

theorem slashed_iff (path : Str) :
    (decide (path.length > 0) && path.getD (path.length - 1) 0 != c!"/") = false ↔ Slashed path := by
  cases path with
  | nil => simp [Slashed]
  | cons c r =>
    have h : (c :: r).getD ((c :: r).length - 1) 0 = (c :: r).getLast (by simp) := by
      rw [List.getLast_eq_getElem, List.getD_eq_getElem?_getD, List.getElem?_eq_getElem (by simp)]
      rfl
    rw [h]
    simp [Slashed, List.getLast?_eq_some_getLast]

/-- A file is sent as it is, with the type for its name. -/
theorem file (env : Env) (docroot path p s : Str) (h : LeadsTo env docroot path p)
    (hf : env.isDir p = some false) (he : env.exists_ p = true) (hs : env.load p = .bytes s) :
    serve env docroot path = .answer 200 (okBytes (guessType p) s) (some p) := by
  rw [serve_leads env docroot path p h, hf]
  simp [sendFile, he, hs]

/-- What does not exist, or is outside of the root, is not found. -/
theorem missing (env : Env) (docroot path : Str)
    (h : env.realpath (docroot ++ b!"/" ++ path) = .noent ∨
      ∃ p root, env.realpath (docroot ++ b!"/" ++ path) = .ok p ∧ env.realpath docroot = .ok root ∧
        (¬ root <+: p ∨ env.isDir p = none)) :
    serve env docroot path = fail 404 b!"Not Found" := by
  unfold serve
  rcases h with h | ⟨p, root, h1, h2, h3⟩
  · rw [h]
  · rw [h1]
    simp only [h2]
    by_cases hp : root <+: p
    · rw [if_neg (fun h' => (take_prefix.1 h') hp), h3.resolve_left (fun h => h hp)]
    · rw [if_pos (take_prefix.2 hp)]

/-- A directory without index page is forbidden. -/
theorem forbidden (env : Env) (docroot path p : Str) (h : LeadsTo env docroot path p)
    (hd : env.isDir p = some true) (hn : ∀ n ∈ indexFiles, env.exists_ (p ++ b!"/" ++ n) = false) :
    serve env docroot path = fail 403 b!"Forbidden" := by
  rw [serve_leads env docroot path p h, hd]
  simp only [(index_none env p).2 hn]

/-- A directory with an index page is answered by that page, if the path ends with
a slash. -/
theorem index (env : Env) (docroot path p f s : Str) (h : LeadsTo env docroot path p)
    (hd : env.isDir p = some true) (hi : IsIndexOf env p f) (hs : env.load f = .bytes s) (hp : Slashed path) :
    serve env docroot path = .answer 200 (okBytes (guessType f) s) (some f) := by
  rw [serve_leads env docroot path p h, hd]
  simp only [(index_iff env p f).2 hi, (slashed_iff path).2 hp]
  obtain ⟨_, _, _, _, _, he, _⟩ := hi
  simp [sendFile, he, hs]

/-- Otherwise the answer is a redirection to the path with a slash. -/
theorem redirect (env : Env) (docroot path p f : Str) (h : LeadsTo env docroot path p)
    (hd : env.isDir p = some true) (hi : IsIndexOf env p f) (hp : ¬ Slashed path) :
    serve env docroot path = .answer 302 (redirectBytes path) none := by
  rw [serve_leads env docroot path p h, hd]
  have hb : (decide (path.length > 0) && path.getD (path.length - 1) 0 != c!"/") = true := by
    cases hb : (decide (path.length > 0) && path.getD (path.length - 1) 0 != c!"/") with
    | true => rfl
    | false => exact absurd ((slashed_iff path).1 hb) hp
  simp only [(index_iff env p f).2 hi, hb]
  obtain ⟨_, _, _, _, _, he, _⟩ := hi
  simp [sendFile, he]

/-! ## Following the redirection -/

/-- A byte that needs no percent-encoding as far as this server is concerned. -/
def Safe (c : Byte) : Prop := c ≠ c!"%" ∧ Literal c

/-- The property: the client that is redirected and asks for the location it was
given gets the index page. -/
def Follows (env : Env) (docroot path f s : Str) : Prop :=
  ∀ line, Line (path ++ b!"/") line →
    handle env docroot line = .ok (.answer 200 (okBytes (guessType f) s) (some f))

theorem encodes_safe (path : Str) (h : ∀ c ∈ path, Safe c) : Encodes Literal path path := by
  induction path with
  | nil => exact .nil
  | cons c r ih =>
    exact .literal (h c (by simp)).1 (h c (by simp)).2 (ih fun d hd => h d (by simp [hd]))

/-- Proved part: paths whose bytes mean themselves in a request. Missing: other
paths, because the location is not encoded (`follow_violated`). -/
theorem follow_partial (env : Env) (docroot path p f s : Str) (h : LeadsTo env docroot path p)
    (hd : env.isDir p = some true) (hi : IsIndexOf env p f) (hs : env.load f = .bytes s)
    (hslash : env.realpath (docroot ++ b!"/" ++ (path ++ b!"/")) = env.realpath (docroot ++ b!"/" ++ path))
    (hsafe : ∀ c ∈ path, Safe c) (hnul : NulFree path) : Follows env docroot path f s := by
  intro line hl
  have hn : NulFree (path ++ b!"/") := by
    intro c hc
    rcases List.mem_append.1 hc with h | h
    · exact hnul c h
    · rw [List.mem_singleton.1 h]; decide
  rw [request env docroot (path ++ b!"/") (path ++ b!"/") line (encodes_safe _ ?_) (by simp) hn hl,
    index env docroot (path ++ b!"/") p f s ⟨hslash.trans h.1, h.2⟩ hd hi hs (.inr (by simp))]
  intro c hc
  rcases List.mem_append.1 hc with h | h
  · exact hsafe c h
  · rw [List.mem_singleton.1 h]
    exact ⟨by decide, by decide, by decide, by decide⟩

/-- A site with the directory `/c++`. -/
def plusEnv : Env where
  realpath p := if p = b!"/www" then .ok b!"/www"
    else if p = b!"/www//c++" ∨ p = b!"/www//c++/" then .ok b!"/www/c++" else .noent
  isDir p := some (p == b!"/www/c++")
  exists_ p := p == b!"/www/c++/index.html"
  load _ := .bytes b!"hi"

/-- The property fails for a directory called `c++`: the client is sent to `/c++/`,
which is not found. -/
theorem follow_violated :
    handle plusEnv b!"/www" b!"GET /c%2b%2b HTTP/1.0" = .ok (.answer 302 (redirectBytes b!"/c++") none) ∧
    LeadsTo plusEnv b!"/www" b!"/c++" b!"/www/c++" ∧
    IsIndexOf plusEnv b!"/www/c++" b!"/www/c++/index.html" ∧
    ¬ Follows plusEnv b!"/www" b!"/c++" b!"/www/c++/index.html" b!"hi" := by
  refine ⟨by decide +kernel, ⟨by decide, b!"/www", by decide, by decide⟩,
    (index_iff _ _ _).1 (by decide +kernel), fun h => ?_⟩
  have := h _ (.plain b!"HTTP/1.0")
  revert this
  decide +kernel

/-! Non-vacuity. -/

example : Encodes Literal b!"/c%2b%2b/" b!"/c++/" ∧ Line b!"/c%2b%2b/" b!"GET /c%2b%2b/?a=b HTTP/1.0" := by
  refine ⟨?_, ?_⟩
  · refine .literal (by decide) ⟨by decide, by decide, by decide⟩ (.literal (by decide)
      ⟨by decide, by decide, by decide⟩ ?_)
    refine .escaped (x := 2) (y := 11) (by decide) (by decide) (.escaped (x := 2) (y := 11) (by decide) (by decide) ?_)
    exact .literal (by decide) ⟨by decide, by decide, by decide⟩ .nil
  · exact .query b!"a=b" b!"HTTP/1.0" (by decide)

example : handle plusEnv b!"/www" b!"GET /c%2b%2b/?a=b HTTP/1.0" =
    .ok (.answer 200 (okBytes b!"text/html" b!"hi") (some b!"/www/c++/index.html")) := by decide +kernel

example : ∀ c ∈ b!"/blog/a-b_c", Safe c := by
  have : ∀ c ∈ b!"/blog/a-b_c", c ≠ c!"%" ∧ c ≠ c!"+" ∧ c ≠ c!" " ∧ c ≠ c!"?" := by decide
  exact this

end Blogc.C84
