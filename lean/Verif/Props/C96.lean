import Verif.Spec.WebDisk
import Verif.Props.C51
import Verif.Props.C84
import Verif.Props.C91

/-!
# C96: what is built is what is served
-/

namespace Blogc.C96

open Blogc Blogc.Httpd Blogc.Url Blogc.Spec.Disk Blogc.Make
open Blogc.Path (norm comps)
open Blogc.Remove (FS Obj)
open Blogc.C84 (Literal Line indexFiles Safe)
open Blogc.C91 (below_nil below_snoc norm_below comps_plain tree_up)

/-! ## Specification -/

/-- A disk with the directory that is served, which is not "/". -/
structure Served (fs : FS) (root : List Str) : Prop where
  tree : Tree fs
  proper : root ≠ [] ∧ ∀ n ∈ root, Proper n
  dir : fs root = some .dir

/-- Names that a request can ask for. -/
def Names (names : List Str) : Prop := ∀ n ∈ names, Proper n ∧ NulFree n

/-- A client asks for a path: the target of the request line is any percent-encoding
of it, with any query. -/
def Asks (path line : Str) : Prop := ∃ t, t ≠ [] ∧ Encodes Literal t path ∧ Line t line

/-- The index page of a directory: the first one that is there, in the order of
preference. -/
def Index (fs : FS) (dir : List Str) (name : Str) : Prop :=
  ∃ before after, indexFiles = before ++ name :: after ∧ fs (dir ++ [name]) = some .file ∧
    ∀ n ∈ before, fs (dir ++ [n]) = none

/-- The last name has this extension. -/
def Extension (names : List Str) (ext : Str) : Prop :=
  ∃ dir stem, names = dir ++ [stem ++ b!"." ++ ext] ∧ c!"." ∉ ext

/-! ## Paths -/

theorem comps_below (base : Str) (ns : List Str) (h : ∀ n ∈ ns, Proper n) : comps (below base ns) = comps base ++ ns := by
  induction ns using List.reverseRecOn with
  | nil => simp [below_nil]
  | append_singleton ns n ih =>
    rw [below_snoc, Path.comps_append_slash, ih fun m hm => h m (by simp [hm]), comps_plain n (h n (by simp)).2.1,
      List.append_assoc]

theorem below_append (base : Str) (a b : List Str) : below base (a ++ b) = below (below base a) b := by
  unfold below
  rw [List.flatMap_append, List.append_assoc]

theorem follow_append (fs : FS) (a b : List Str) (d : Remove.Path) :
    WebDisk.follow fs d (a ++ b) = (WebDisk.follow fs d a).bind fun e => WebDisk.follow fs e b := by
  induction a generalizing d with
  | nil => rfl
  | cons x a ih =>
    rw [List.cons_append, WebDisk.follow, WebDisk.follow]
    split
    · rfl
    split
    · exact ih d
    split
    · exact ih _
    · cases fs (d ++ [x]) with
      | none => rfl
      | some o =>
        cases o with
        | link t => rfl
        | file => exact ih _
        | dir => exact ih _

theorem follow_empty (fs : FS) (d : Remove.Path) (r : List Str) (h : fs d = some .dir) :
    WebDisk.follow fs d ([] :: r) = WebDisk.follow fs d r := by
  rw [WebDisk.follow, if_neg (by simp [h]), if_pos (.inl rfl)]

theorem follow_cons (fs : FS) (d : Remove.Path) (x : Str) (r : List Str) (h : fs d = some .dir) (hx : Proper x) :
    WebDisk.follow fs d (x :: r) = match fs (d ++ [x]) with
      | none => .error true
      | some (.link _) => .error false
      | some _ => WebDisk.follow fs (d ++ [x]) r := by
  rw [WebDisk.follow, if_neg (by simp [h]), if_neg (by simp [hx.1, hx.2.2.1]), if_neg hx.2.2.2]
  rfl

/-- Parts of a path to something are directories. -/
theorem parent_dir {fs : FS} (ht : Tree fs) {p : Remove.Path} {x : Str} {r : List Str} (h : fs (p ++ x :: r) ≠ none) :
    fs p = some .dir := by
  refine ht p x (tree_up ht (q := p ++ x :: r) ⟨r, by simp⟩ h)

theorem follow_there {fs : FS} (ht : Tree fs) (names : List Str) (hp : ∀ n ∈ names, Proper n) (d : Remove.Path)
    (o : Obj) (h : fs (d ++ names) = some o) (hl : ∀ t, o ≠ .link t) :
    WebDisk.follow fs d names = .ok (d ++ names) := by
  induction names generalizing d with
  | nil => simp [WebDisk.follow]
  | cons x r ih =>
    have hd : fs d = some .dir := parent_dir ht (by rw [h]; simp)
    have e : d ++ x :: r = d ++ [x] ++ r := by simp
    rw [e] at h ⊢
    rw [follow_cons fs d x r hd (hp x (by simp))]
    have hx : ∃ o', fs (d ++ [x]) = some o' ∧ ∀ t, o' ≠ .link t := by
      cases r with
      | nil => exact ⟨o, by simpa using h, hl⟩
      | cons y r => exact ⟨.dir, parent_dir ht (by rw [h]; simp), by simp⟩
    obtain ⟨o', h1, h2⟩ := hx
    rw [h1]
    cases o' with
    | link t => exact absurd rfl (h2 t)
    | file => exact ih (fun n hn => hp n (by simp [hn])) _ h
    | dir => exact ih (fun n hn => hp n (by simp [hn])) _ h

theorem follow_missing {fs : FS} (names : List Str) (hp : ∀ n ∈ names, Proper n) (d : Remove.Path)
    (hd : fs d = some .dir) (h : fs (d ++ names) = none)
    (hw : ∀ p, p <+: names → fs (d ++ p) = none ∨ fs (d ++ p) = some .dir) :
    WebDisk.follow fs d names = .error true := by
  induction names generalizing d with
  | nil => rw [List.append_nil, hd] at h; cases h
  | cons x r ih =>
    have e : d ++ x :: r = d ++ [x] ++ r := by simp
    rw [e] at h
    rw [follow_cons fs d x r hd (hp x (by simp))]
    rcases hw [x] ⟨r, rfl⟩ with h1 | h1
    · rw [h1]
    · rw [h1]
      refine ih (fun n hn => hp n (by simp [hn])) _ h1 h ?_
      rintro p ⟨q, rfl⟩
      have := hw (x :: p) ⟨q, by simp⟩
      rwa [show d ++ x :: p = d ++ [x] ++ p by simp] at this

variable {fs : FS} {root : List Str}

theorem root_dir (h : Served fs root) : fs [] = some .dir := by
  obtain ⟨x, r, e⟩ := List.exists_cons_of_ne_nil h.proper.1
  refine parent_dir h.tree (p := []) (x := x) (r := r) ?_
  rw [List.nil_append, ← e, h.dir]
  simp

theorem real_root (h : Served fs root) : WebDisk.realpath fs (below [] root) = .ok (below [] root) := by
  unfold WebDisk.realpath
  rw [comps_below [] root h.proper.2, show comps [] = [[]] from rfl, List.singleton_append,
    follow_empty fs [] root (root_dir h), follow_there h.tree root h.proper.2 [] .dir h.dir (by simp)]
  simp [WebDisk.text, h.proper.1]

theorem real_tail (h : Served fs root) (path : Str) :
    WebDisk.realpath fs (below [] root ++ b!"/" ++ path) =
      match WebDisk.follow fs root (comps path) with
      | .ok q => .ok (WebDisk.text q)
      | .error true => .noent
      | .error false => .error := by
  unfold WebDisk.realpath
  rw [List.append_assoc, List.singleton_append, Path.comps_append_slash, comps_below [] root h.proper.2,
    show comps [] = [[]] from rfl, List.append_assoc, List.singleton_append, follow_empty fs [] _ (root_dir h),
    follow_append, follow_there h.tree root h.proper.2 [] .dir h.dir (by simp)]
  rfl

theorem leads (h : Served fs root) (content : Remove.Path → Str) (path : Str) (names : List Str)
    (hf : WebDisk.follow fs root (comps path) = .ok (root ++ names)) :
    C84.LeadsTo (WebDisk.env fs content) (below [] root) path (below (below [] root) names) := by
  refine ⟨?_, below [] root, real_root h, ?_⟩
  · show WebDisk.realpath fs _ = _
    rw [real_tail h, hf]
    show Real.ok (WebDisk.text _) = _
    rw [WebDisk.text, if_neg (by simp [h.proper.1]), below_append]
  · unfold below; exact List.prefix_append _ _

theorem norm_names (h : Served fs root) (names : List Str) (hn : ∀ n ∈ names, Proper n) :
    norm (below (below [] root) names) = root ++ names := by
  rw [← below_append, norm_below]
  · rfl
  · intro n hm
    rcases List.mem_append.1 hm with hm | hm
    · exact h.proper.2 n hm
    · exact hn n hm

theorem nulFree_below (names : List Str) (hn : Names names) : NulFree (below [] names) := by
  intro c hc
  unfold below at hc
  rw [List.nil_append, List.mem_flatMap] at hc
  obtain ⟨n, h1, h2⟩ := hc
  rcases List.mem_cons.1 h2 with rfl | h2
  · decide
  · exact (hn n h1).2 c h2

theorem follow_path (h : Served fs root) (names : List Str) (hp : ∀ n ∈ names, Proper n) (o : Obj)
    (ho : fs (root ++ names) = some o) (hl : ∀ t, o ≠ .link t) :
    WebDisk.follow fs root (comps (below [] names)) = .ok (root ++ names) := by
  rw [comps_below [] names hp, show comps [] = [[]] from rfl, List.singleton_append,
    follow_empty fs root _ h.dir, follow_there h.tree names hp root o ho hl]

theorem answered (env : Env) (docroot path line : Str) (hnul : NulFree path) (ha : Asks path line) :
    handle env docroot line = .ok (serve env docroot path) := by
  obtain ⟨t, h1, h2, h3⟩ := ha
  exact C84.request env docroot t path line h2 h1 hnul h3

theorem asks_plain (path proto : Str) (hne : path ≠ []) (h : ∀ c ∈ path, c ≠ c!"%" ∧ c ≠ c!"+" ∧ c ≠ c!" " ∧ c ≠ c!"?") :
    Asks path (b!"GET " ++ path ++ b!" " ++ proto) :=
  ⟨path, hne, C84.encodes_safe path h, .plain proto⟩

/-! ## What is on the disk is served -/

/-- Asking for the path of a file gets the bytes of the file. -/
theorem file (h : Served fs root) (content : Remove.Path → Str) (names : List Str) (hn : Names names)
    (hf : fs (root ++ names) = some .file) (line : Str) (ha : Asks (below [] names) line) :
    handle (WebDisk.env fs content) (below [] root) line =
      .ok (.answer 200 (okBytes (guessType (below [] (root ++ names))) (content (root ++ names)))
        (some (below [] (root ++ names)))) := by
  have hp := fun n hm => (hn n hm).1
  have e := norm_names h names hp
  rw [answered _ _ _ _ (nulFree_below names hn) ha, below_append]
  refine congrArg Res.ok (C84.file _ _ _ _ _ (leads h content _ names (follow_path h names hp .file hf (by simp))) ?_ ?_ ?_)
  · show (fs (norm _)).map _ = _
    rw [e, hf]; rfl
  · show (fs (norm _)).isSome = _
    rw [e, hf]; rfl
  · show (match fs (norm _) with | some .file => _ | some .dir => _ | _ => _) = _
    rw [e, hf]

theorem type (names : List Str) (hn : ∀ n ∈ names, Proper n) (ext : Str) (h : Extension names ext) :
    guessType (below [] (root ++ names)) = Mime.typeOf ext := by
  obtain ⟨dir, stem, rfl, h2⟩ := h
  rw [← List.append_assoc, below_snoc]
  have := C51.sent_as (below [] (root ++ dir)) stem ext h2 ?_
  · rw [← this]; simp
  · intro hc
    exact (hn (stem ++ b!"." ++ ext) (by simp)).2.1 (List.mem_append_right _ hc)

/-- … with the customary media type. -/
theorem file_type (h : Served fs root) (content : Remove.Path → Str) (names : List Str) (hn : Names names)
    (hf : fs (root ++ names) = some .file) (ext : Str) (hx : Extension names ext) (line : Str)
    (ha : Asks (below [] names) line) :
    handle (WebDisk.env fs content) (below [] root) line =
      .ok (.answer 200 (okBytes (Mime.typeOf ext) (content (root ++ names))) (some (below [] (root ++ names)))) := by
  rw [file h content names hn hf line ha, type names (fun n hm => (hn n hm).1) ext hx]

theorem index_of (h : Served fs root) (content : Remove.Path → Str) (names : List Str) (hn : ∀ n ∈ names, Proper n)
    (name : Str) (hi : Index fs (root ++ names) name) :
    C84.IsIndexOf (WebDisk.env fs content) (below (below [] root) names) (below [] (root ++ (names ++ [name]))) := by
  obtain ⟨before, after, e, h1, h2⟩ := hi
  have hall : ∀ n ∈ indexFiles, Proper n := by decide
  have key : ∀ n ∈ indexFiles, below (below [] root) names ++ b!"/" ++ n = below (below [] root) (names ++ [n]) := by
    intro n _
    rw [below_snoc]; simp
  have hx : ∀ n ∈ indexFiles, (WebDisk.env fs content).exists_ (below (below [] root) names ++ b!"/" ++ n) =
      (fs (root ++ names ++ [n])).isSome := by
    intro n hm
    rw [key n hm]
    show (fs (norm _)).isSome = _
    rw [norm_names h, List.append_assoc]
    intro m hm'
    rcases List.mem_append.1 hm' with h' | h'
    · exact hn m h'
    · rw [List.mem_singleton.1 h']; exact hall n hm
  have hmem : name ∈ indexFiles := by rw [e]; simp
  have hout : below [] (root ++ (names ++ [name])) = below (below [] root) names ++ b!"/" ++ name := by
    rw [key name hmem, below_append]
  refine ⟨before, name, after, e, hout, ?_, ?_⟩
  · rw [hout, hx name hmem, h1]; rfl
  · intro n hm
    rw [hx n (by rw [e]; simp [hm]), h2 n hm]; rfl

theorem is_dir (h : Served fs root) (content : Remove.Path → Str) (names : List Str) (hn : ∀ n ∈ names, Proper n)
    (hd : fs (root ++ names) = some .dir) :
    (WebDisk.env fs content).isDir (below (below [] root) names) = some true := by
  show (fs (norm _)).map _ = _
  rw [norm_names h names hn, hd]; rfl

theorem load_index (h : Served fs root) (content : Remove.Path → Str) (names : List Str) (hn : ∀ n ∈ names, Proper n)
    (name : Str) (hi : Index fs (root ++ names) name) :
    (WebDisk.env fs content).load (below [] (root ++ (names ++ [name]))) = .bytes (content (root ++ names ++ [name])) := by
  obtain ⟨before, after, e, h1, h2⟩ := hi
  have hall : ∀ n ∈ indexFiles, Proper n := by decide
  have hmem : name ∈ indexFiles := by rw [e]; simp
  have : norm (below [] (root ++ (names ++ [name]))) = root ++ names ++ [name] := by
    rw [below_append, norm_names h, List.append_assoc]
    intro m hm'
    rcases List.mem_append.1 hm' with h' | h'
    · exact hn m h'
    · rw [List.mem_singleton.1 h']; exact hall name hmem
  show (match fs (norm _) with | some .file => _ | some .dir => _ | _ => _) = _
  rw [this, h1]

/-- Asking for a directory, with a slash at the end, gets its index page. -/
theorem directory (h : Served fs root) (content : Remove.Path → Str) (names : List Str) (hn : Names names)
    (name : Str) (hi : Index fs (root ++ names) name) (line : Str) (ha : Asks (below [] names ++ b!"/") line) :
    handle (WebDisk.env fs content) (below [] root) line =
      .ok (.answer 200 (okBytes (guessType (below [] (root ++ (names ++ [name])))) (content (root ++ names ++ [name])))
        (some (below [] (root ++ (names ++ [name]))))) := by
  have hp := fun n hm => (hn n hm).1
  have hd : fs (root ++ names) = some .dir := by
    obtain ⟨_, _, _, h1, _⟩ := hi
    exact h.tree _ _ (by rw [h1]; simp)
  have hnul : NulFree (below [] names ++ b!"/") := by
    intro c hc
    rcases List.mem_append.1 hc with hc | hc
    · exact nulFree_below names hn c hc
    · rw [List.mem_singleton.1 hc]; decide
  have hfollow : WebDisk.follow fs root (comps (below [] names ++ b!"/")) = .ok (root ++ names) := by
    rw [show below [] names ++ b!"/" = below [] names ++ c!"/" :: [] from rfl, Path.comps_append_slash,
      follow_append, follow_path h names hp .dir hd (by simp)]
    show WebDisk.follow fs (root ++ names) [[]] = _
    rw [follow_empty fs _ _ hd]; rfl
  rw [answered _ _ _ _ hnul ha]
  exact congrArg Res.ok (C84.index _ _ _ _ _ _ (leads h content _ names hfollow) (is_dir h content names hp hd)
    (index_of h content names hp name hi) (load_index h content names hp name hi) (.inr (by simp)))

/-- Without the slash, the client is sent to the address with the slash. -/
theorem redirected (h : Served fs root) (content : Remove.Path → Str) (names : List Str) (hne : names ≠ [])
    (hn : Names names) (name : Str) (hi : Index fs (root ++ names) name) (line : Str)
    (ha : Asks (below [] names) line) :
    handle (WebDisk.env fs content) (below [] root) line =
      .ok (.answer 302 (redirectBytes (below [] names)) none) := by
  have hp := fun n hm => (hn n hm).1
  have hd : fs (root ++ names) = some .dir := by
    obtain ⟨_, _, _, h1, _⟩ := hi
    exact h.tree _ _ (by rw [h1]; simp)
  rw [answered _ _ _ _ (nulFree_below names hn) ha]
  refine congrArg Res.ok (C84.redirect _ _ _ _ _ (leads h content _ names (follow_path h names hp .dir hd (by simp)))
    (is_dir h content names hp hd) (index_of h content names hp name hi) ?_)
  obtain ⟨ms, n, rfl⟩ : ∃ ms n, names = ms ++ [n] := by
    rcases List.eq_nil_or_concat names with e | ⟨ms, n, e⟩
    · exact absurd e hne
    · exact ⟨ms, n, by simpa using e⟩
  obtain ⟨h1, h2, -⟩ := hp n (by simp)
  rw [below_snoc]
  rintro (e | e)
  · simp at e
  · rw [List.getLast?_append_cons, List.getLast?_cons_of_ne_nil h1] at e
    exact h2 (List.mem_of_getLast? e)

/-- A directory without index page is not shown. -/
theorem forbidden (h : Served fs root) (content : Remove.Path → Str) (names : List Str) (hn : Names names)
    (hd : fs (root ++ names) = some .dir) (hi : ∀ n ∈ indexFiles, fs (root ++ names ++ [n]) = none) (line : Str)
    (ha : Asks (below [] names) line) :
    handle (WebDisk.env fs content) (below [] root) line = .ok (fail 403 b!"Forbidden") := by
  have hp := fun n hm => (hn n hm).1
  rw [answered _ _ _ _ (nulFree_below names hn) ha]
  refine congrArg Res.ok (C84.forbidden _ _ _ _ (leads h content _ names (follow_path h names hp .dir hd (by simp)))
    (is_dir h content names hp hd) fun n hm => ?_)
  have hall : ∀ n ∈ indexFiles, Proper n := by decide
  have e : below (below [] root) names ++ b!"/" ++ n = below (below [] root) (names ++ [n]) := by
    rw [below_snoc]; simp
  rw [e]
  show (fs (norm _)).isSome = _
  rw [norm_names h, ← List.append_assoc, hi n hm]
  · rfl
  · intro m hm'
    rcases List.mem_append.1 hm' with h' | h'
    · exact hp m h'
    · rw [List.mem_singleton.1 h']; exact hall n hm

/-- Asking for what is not there gets 404, unless a part of the path is a file. -/
theorem absent_partial (h : Served fs root) (content : Remove.Path → Str) (names : List Str) (hn : Names names)
    (hf : fs (root ++ names) = none) (hw : ∀ p, p <+: names → fs (root ++ p) = none ∨ fs (root ++ p) = some .dir)
    (line : Str) (ha : Asks (below [] names) line) :
    handle (WebDisk.env fs content) (below [] root) line = .ok (fail 404 b!"Not Found") := by
  have hp := fun n hm => (hn n hm).1
  rw [answered _ _ _ _ (nulFree_below names hn) ha]
  refine congrArg Res.ok (C84.missing _ _ _ (.inl ?_))
  show WebDisk.realpath fs _ = _
  rw [real_tail h, comps_below [] names hp, show comps [] = [[]] from rfl, List.singleton_append,
    follow_empty fs root _ h.dir, follow_missing names hp root h.dir hf hw]

/-- The property fails below a file: asking for a path that goes through a file gets
500, where there is nothing. -/
theorem absent_violated : ∃ (fs : FS) (root names : List Str) (line : Str),
    Served fs root ∧ Names names ∧ fs (root ++ names) = none ∧ Asks (below [] names) line ∧
      ∀ content, handle (WebDisk.env fs content) (below [] root) line =
        .ok (fail 500 b!"Internal Server Error") := by
  refine ⟨C91.disk, [b!"site"], [b!"blogcfile", b!"x"], b!"GET /blogcfile/x HTTP/1.0",
    ⟨C91.disk_tree, by decide, by decide⟩, ?_, by decide, asks_plain b!"/blogcfile/x" b!"HTTP/1.0" (by decide) (by decide), ?_⟩
  · intro n hn
    rcases List.mem_cons.1 hn with rfl | hn
    · exact ⟨by decide, by decide⟩
    · rw [List.mem_singleton.1 hn]; exact ⟨by decide, by decide⟩
  · intro content
    have hr : WebDisk.realpath C91.disk b!"/site//blogcfile/x" = .error := by decide +kernel
    have hs : serve (WebDisk.env C91.disk content) b!"/site" b!"/blogcfile/x" = fail 500 b!"Internal Server Error" := by
      have e : (WebDisk.env C91.disk content).realpath (b!"/site" ++ b!"/" ++ b!"/blogcfile/x") = .error := hr
      rw [serve, e]
    exact (answered _ _ b!"/blogcfile/x" _ (by decide)
      (asks_plain b!"/blogcfile/x" b!"HTTP/1.0" (by decide) (by decide))).trans (congrArg Res.ok hs)

/-! ## What is built is served -/

/-- A build into an output directory that did not exist. -/
structure Build (fs : FS) (root : List Str) (short : Str) (places : List (List Str)) : Prop where
  tree : Tree fs
  proper : root ≠ [] ∧ ∀ n ∈ root, Proper n
  dirs : Dirs (below [] root) short
  reachable : Reachable fs (below [] root)
  above : ∀ q n, root = q ++ [n] → fs q = some .dir
  fresh : fs root = none
  nonempty : places ≠ []
  listed : Places places

variable {short : Str} {places : List (List Str)}

theorem norm_root (h : ∀ n ∈ root, Proper n) : norm (below [] root) = root := by
  rw [norm_below [] root h]; rfl

/-- The files of the places. -/
def ctxs (out short : Str) (places : List (List Str)) : List FileCtx :=
  places.map fun names => ⟨below out names, below short names, none, 0, 0, true⟩

theorem built_ctxs (out : Str) : built fs out places = writeAll fs (ctxs out short places) := by
  unfold built writeAll ctxs
  rw [List.foldl_map]

theorem outputs (h : Build fs root short places) : Outputs (below [] root) short (ctxs (below [] root) short places) := by
  have hn : ∀ names ∈ places, norm (below (below [] root) names) = root ++ names := fun names hm => by
    rw [norm_below _ names fun n hx => ((h.listed.proper names hm).2 n hx).1, norm_root h.proper.2]
  refine ⟨?_, ?_, ?_, ?_⟩
  · intro f hf
    obtain ⟨names, _, rfl⟩ := List.mem_map.1 hf
    rfl
  · intro f hf
    obtain ⟨names, hm, rfl⟩ := List.mem_map.1 hf
    have := h.listed.proper names hm
    exact ⟨names, ⟨⟨this.1, fun n hx => (this.2 n hx).1⟩, rfl, rfl⟩, fun n hx => (this.2 n hx).2⟩
  · unfold ctxs
    rw [List.map_map]
    have e : places.map _ = places.map (root ++ ·) := List.map_congr_left hn
    refine Eq.mpr (congrArg List.Nodup e) ?_
    exact h.listed.once.map fun a b e => List.append_cancel_left e
  · intro f hf g hg e
    obtain ⟨p, hp, rfl⟩ := List.mem_map.1 hf
    obtain ⟨q, hq, rfl⟩ := List.mem_map.1 hg
    change norm (below _ p) <+: norm (below _ q) at e
    rw [hn p hp, hn q hq] at e
    have := h.listed.apart p hp q hq ((List.prefix_append_right_inj _).1 e)
    rw [this]

theorem fresh_below (h : Build fs root short places) (q : Remove.Path) (hq : norm (below [] root) <+: q) : fs q = none := by
  rw [norm_root h.proper.2] at hq
  by_cases hn : fs q = none
  · exact hn
  · exact absurd h.fresh (tree_up h.tree hq hn)

theorem built_eq (h : Build fs root short places) (rest : List Str) :
    built fs (below [] root) places (root ++ rest) =
      if rest ∈ places then some .file else if ∃ names ∈ places, rest <+: names then some .dir else none := by
  have hn : ∀ names ∈ places, norm (below (below [] root) names) = root ++ names := fun names hm => by
    rw [norm_below _ names fun n hx => ((h.listed.proper names hm).2 n hx).1, norm_root h.proper.2]
  rw [built_ctxs (short := short), C91.writeAll_eq h.dirs h.reachable (fresh_below h) _ (outputs h).listed (outputs h).apart]
  have h1 : (∃ f ∈ ctxs (below [] root) short places, root ++ rest = norm f.path) ↔ rest ∈ places := by
    constructor
    · rintro ⟨f, hf, e⟩
      obtain ⟨names, hm, rfl⟩ := List.mem_map.1 hf
      change _ = norm (below _ names) at e
      rw [hn names hm] at e
      rw [List.append_cancel_left e]; exact hm
    · intro hm
      exact ⟨_, List.mem_map.2 ⟨rest, hm, rfl⟩, (hn rest hm).symm⟩
  have h2 : (norm (below [] root) <+: root ++ rest ∧ ∃ f ∈ ctxs (below [] root) short places, root ++ rest <+: norm f.path) ↔
      ∃ names ∈ places, rest <+: names := by
    rw [norm_root h.proper.2]
    constructor
    · rintro ⟨-, f, hf, e⟩
      obtain ⟨names, hm, rfl⟩ := List.mem_map.1 hf
      change _ <+: norm (below _ names) at e
      rw [hn names hm] at e
      exact ⟨names, hm, (List.prefix_append_right_inj _).1 e⟩
    · rintro ⟨names, hm, e⟩
      refine ⟨List.prefix_append _ _, _, List.mem_map.2 ⟨names, hm, rfl⟩, ?_⟩
      show _ <+: norm (below _ names)
      rw [hn names hm]
      exact (List.prefix_append_right_inj _).2 e
  have h3 : fs (root ++ rest) = none := fresh_below h _ (by rw [norm_root h.proper.2]; exact List.prefix_append _ _)
  simp only [h1, h2, h3]

theorem served (h : Build fs root short places) : Served (built fs (below [] root) places) root := by
  refine ⟨?_, h.proper, ?_⟩
  · rw [built_ctxs (short := short)]
    refine C91.built_tree h.dirs h.tree h.reachable (fun q n e => h.above q n ?_) (fresh_below h) (outputs h)
    rw [← e, norm_root h.proper.2]
  · have := built_eq h []
    rw [List.append_nil] at this
    rw [this, if_neg fun hm => (h.listed.proper _ hm).1 rfl, if_pos]
    obtain ⟨p, r, e⟩ := List.exists_cons_of_ne_nil h.nonempty
    exact ⟨p, by rw [e]; simp, List.nil_prefix⟩

/-- The bytes sent for a file. -/
def Sent (content : Remove.Path → Str) (root names : List Str) : Outcome :=
  .answer 200 (okBytes (guessType (below [] (root ++ names))) (content (root ++ names))) (some (below [] (root ++ names)))

/-- Of a build, exactly the files built are served: each at its path, an index page
also at the path of its directory with a slash at the end, where the path without the
slash leads to; and anything else is not found, unless it goes through a built file or
is a directory without index page. -/
theorem build_partial (h : Build fs root short places) (content : Remove.Path → Str) (names : List Str) (hn : Names names)
    (line : Str) :
    let answer := handle (WebDisk.env (built fs (below [] root) places) content) (below [] root) line
    (names ∈ places → Asks (below [] names) line → answer = .ok (Sent content root names)) ∧
    (names ++ [b!"index.html"] ∈ places → Asks (below [] names ++ b!"/") line →
      answer = .ok (Sent content root (names ++ [b!"index.html"]))) ∧
    (names ≠ [] → names ++ [b!"index.html"] ∈ places → Asks (below [] names) line →
      answer = .ok (.answer 302 (redirectBytes (below [] names)) none)) ∧
    ((∀ p ∈ places, ¬ names <+: p ∧ ¬ p <+: names) → Asks (below [] names) line →
      answer = .ok (fail 404 b!"Not Found")) := by
  intro answer
  have hs := served h
  have hidx : names ++ [b!"index.html"] ∈ places → Index (built fs (below [] root) places) (root ++ names) b!"index.html" := by
    intro hm
    refine ⟨[], _, rfl, ?_, by simp⟩
    rw [List.append_assoc, built_eq h, if_pos hm]
  refine ⟨fun hm ha => ?_, fun hm ha => ?_, fun hne hm ha => ?_, fun hm ha => ?_⟩
  · exact file hs content names hn (by rw [built_eq h, if_pos hm]) line ha
  · have := directory hs content names hn _ (hidx hm) line ha
    rw [List.append_assoc] at this
    exact this
  · exact redirected hs content names hne hn _ (hidx hm) line ha
  · refine absent_partial hs content names hn ?_ ?_ line ha
    · rw [built_eq h, if_neg, if_neg]
      · rintro ⟨p, hp, e⟩
        exact (hm p hp).1 e
      · intro hx
        exact (hm names hx).1 (List.prefix_refl _)
    · intro p hp
      rw [built_eq h, if_neg]
      · split
        · exact .inr rfl
        · exact .inl rfl
      · intro hx
        exact (hm p hx).2 hp

/-- The same of a site: each file that blogc-make builds is served by blogc-runserver,
started on the output directory, at its path below that directory. -/
theorem site_partial (s : Site) (run : Shell) (files : List (Option FileCtx)) (hb : s.builtFiles run = .ok files)
    (hroot : absPath s.root s.outDir = below [] root)
    (hf : (files.filterMap id).map (·.shortPath) = places.map (below s.outDir))
    (h : Build fs root s.outDir places) (content : Remove.Path → Str) (f : FileCtx) (hm : some f ∈ files) :
    ∃ names, f.shortPath = below s.outDir names ∧ f.path = below [] (root ++ names) ∧
      ∀ line, Names names → Asks (below [] names) line →
        handle (WebDisk.env (built fs (absPath s.root s.outDir) places) content) (absPath s.root s.outDir) line =
          .ok (Sent content root names) := by
  have hm2 : f ∈ files.filterMap id := List.mem_filterMap.2 ⟨_, hm, rfl⟩
  have : f.shortPath ∈ places.map (below s.outDir) := by rw [← hf]; exact List.mem_map.2 ⟨f, hm2, rfl⟩
  obtain ⟨names, hp, e⟩ := List.mem_map.1 this
  refine ⟨names, e.symm, ?_, fun line hn ha => ?_⟩
  · rw [(C91.made_built s run files hb _ hm f rfl).1, ← e]
    unfold below
    rw [absPath_append _ _ _ h.dirs.shortBase.1, hroot, ← below, ← below, below_append]
  · rw [hroot]
    exact (build_partial h content names hn line).1 hp ha

/-! ## A site -/

theorem sample : Build C91.disk [b!"site", b!"_build"] b!"_build" C91.samplePlaces := by
  refine ⟨C91.disk_tree, by decide, C91.dirs, C91.reachable, fun q n e => C91.above q n ?_, by decide, by decide,
    C91.sample_places⟩
  rw [← e]; decide +kernel

instance (names : List Str) : Decidable (Names names) := by unfold Names NulFree; infer_instance

/-- A post of the site of C86 is served at its address. -/
example (content : Remove.Path → Str) :
    handle (WebDisk.env (built C91.disk b!"/site/_build" C91.samplePlaces) content) b!"/site/_build"
      b!"GET /post/one/ HTTP/1.1" =
    .ok (.answer 200 (okBytes b!"text/html" (content [b!"site", b!"_build", b!"post", b!"one", b!"index.html"]))
      (some b!"/site/_build/post/one/index.html")) := by
  have := (build_partial sample content [b!"post", b!"one"] (by decide) b!"GET /post/one/ HTTP/1.1").2.1 (by decide)
    (asks_plain b!"/post/one/" b!"HTTP/1.1" (by decide) (by decide))
  refine this.trans ?_
  have e : guessType (below [] ([b!"site", b!"_build"] ++ ([b!"post", b!"one"] ++ [b!"index.html"]))) = b!"text/html" := by
    decide +kernel
  rw [Sent, e]
  rfl

/-- A page that does not exist. -/
example (content : Remove.Path → Str) :
    handle (WebDisk.env (built C91.disk b!"/site/_build" C91.samplePlaces) content) b!"/site/_build"
      b!"GET /post/four HTTP/1.1" = .ok (fail 404 b!"Not Found") :=
  (build_partial sample content [b!"post", b!"four"] (by decide) b!"GET /post/four HTTP/1.1").2.2.2 (by decide +kernel)
    (asks_plain b!"/post/four" b!"HTTP/1.1" (by decide) (by decide))

/-- The feed has the type of its extension. -/
example : Extension [b!"atom", b!"x.xml"] b!"xml" ∧ Mime.typeOf b!"xml" = b!"text/xml" :=
  ⟨⟨[b!"atom"], b!"x", rfl, by decide⟩, by decide +kernel⟩

example (content : Remove.Path → Str) (f : FileCtx)
    (files : List (Option FileCtx)) (hb : C91.sampleSite.builtFiles C86.shell = .ok files) (hm : some f ∈ files) :
    ∃ names, f.shortPath = below b!"_build" names ∧ f.path = below [] ([b!"site", b!"_build"] ++ names) ∧
      ∀ line, Names names → Asks (below [] names) line →
        handle (WebDisk.env (built C91.disk b!"/site/_build" C91.samplePlaces) content) b!"/site/_build" line =
          .ok (Sent content [b!"site", b!"_build"] names) := by
  have hf : ∃ files, C91.sampleSite.builtFiles C86.shell = .ok files ∧
      (files.filterMap id).map (·.shortPath) = C91.samplePlaces.map (below b!"_build") := by
    refine ⟨_, rfl, ?_⟩
    decide +kernel
  obtain ⟨files', h1, h2⟩ := hf
  obtain rfl : files' = files := by rw [h1] at hb; cases hb; rfl
  exact site_partial C91.sampleSite C86.shell files' hb rfl h2 sample content f hm

end Blogc.C96
