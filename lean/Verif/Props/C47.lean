import Verif.Model.Httpd
import Verif.Lemmas.Path

/-!
# C47: the web server serves only files below the document root
-/

namespace Blogc.C47

open Blogc Blogc.Httpd Blogc.Path

/-- The file sent in a 200 answer is the real path of the requested path, which
is not a directory, or an index file directly in it; this path starts with the
bytes of the real path of the document root. -/
theorem served_file (env : Env) (docroot line out f : Str)
    (h : handle env docroot line = .ok (.answer 200 out (some f))) :
    ∃ request root real, env.realpath docroot = .ok root ∧
      env.realpath (docroot ++ b!"/" ++ request) = .ok real ∧ root <+: real ∧
      ((env.isDir real = some false ∧ f = real) ∨
       (env.isDir real = some true ∧ ∃ n ∈ indexNames, f = real ++ b!"/" ++ n)) := by
  have send : ∀ path g a, sendFile env path g a = .answer 200 out (some f) → f = g := by
    intro path g a e
    unfold sendFile fail at e
    split at e
    · simp at e
    · split at e
      · simp at e
      · split at e <;> simp at e
        exact e.2.symm
  have srv : ∀ path, serve env docroot path = .answer 200 out (some f) →
      ∃ request root real, env.realpath docroot = .ok root ∧
      env.realpath (docroot ++ b!"/" ++ request) = .ok real ∧ root <+: real ∧
      ((env.isDir real = some false ∧ f = real) ∨
       (env.isDir real = some true ∧ ∃ n ∈ indexNames, f = real ++ b!"/" ++ n)) := by
    intro path e
    unfold serve at e
    split at e
    · simp [fail] at e
    · simp [fail] at e
    · rename_i real hreal
      split at e
      · simp [fail] at e
      · simp [fail] at e
      · rename_i root hroot
        split at e
        · simp [fail] at e
        · rename_i hpre
          have hpre' : root <+: real := by
            rw [Classical.not_not] at hpre
            rw [← hpre]
            exact List.take_prefix _ _
          split at e
          · simp [fail] at e
          · rename_i hd
            exact ⟨path, root, real, hroot, hreal, hpre', .inl ⟨hd, send _ _ _ e⟩⟩
          · rename_i hd
            split at e
            · simp [fail] at e
            · rename_i found hfound
              refine ⟨path, root, real, hroot, hreal, hpre', .inr ⟨hd, ?_⟩⟩
              have := send _ _ _ e
              subst this
              have hm := List.mem_of_find?_eq_some hfound
              rw [List.mem_map] at hm
              obtain ⟨n, hn, e⟩ := hm
              exact ⟨n, hn, e.symm⟩
  unfold handle at h
  split at h
  · simp at h
  · split at h
    · split at h
      · simp [fail] at h
      · split at h
        · simp at h
        · rename_i p _ _
          cases hp : urldecode p with
          | ub => rw [hp] at h; cases h
          | ok path =>
            rw [hp] at h
            simp only [Res.bind_ok, Res.pure_eq, Res.ok.injEq] at h
            exact srv _ h
    · simp [fail] at h

/-- What is known about the real paths of a file system: a real path is its own
real path and has no `..` components. -/
structure RealPaths (env : Env) : Prop where
  idem : ∀ p r, env.realpath p = .ok r → env.realpath r = .ok r
  clean : ∀ p r, env.realpath p = .ok r → b!".." ∉ comps r

/-- No file outside of the document root has a real path that starts with the
same bytes as the real path of the document root. -/
def NoSibling (env : Env) (docroot : Str) : Prop :=
  ∀ p root real, env.realpath docroot = .ok root → env.realpath p = .ok real → root <+: real →
    real = root ∨ root ++ b!"/" <+: real

/-- Index files are not symbolic links. -/
def PlainIndex (env : Env) : Prop :=
  ∀ real n r, n ∈ indexNames → env.realpath real = .ok real →
    env.realpath (real ++ b!"/" ++ n) = .ok r → r = real ++ b!"/" ++ n

/-- Every file sent has its real path inside of the document root, provided that
no sibling of the document root has a name that extends its name, and that index
files are not symbolic links. Missing: these two cases, `sibling_violated` and
`index_violated`. -/
theorem inside_partial (env : Env) (docroot line out f : Str) (hreal : RealPaths env)
    (hsib : NoSibling env docroot) (hidx : PlainIndex env)
    (h : handle env docroot line = .ok (.answer 200 out (some f))) :
    ∀ root rf, env.realpath docroot = .ok root → env.realpath f = .ok rf → Inside root rf := by
  intro root rf hroot hrf
  obtain ⟨request, root', real, hr', hrq, hpre, hf⟩ := served_file env docroot line out f h
  rw [hroot] at hr'
  cases hr'
  have hrr := hreal.idem _ _ hrq
  have key : ∀ x, real = root ∨ root ++ b!"/" <+: real → b!".." ∉ comps (real ++ c!"/" :: x) →
      Inside root (real ++ c!"/" :: x) := by
    rintro x (rfl | ⟨y, rfl⟩) hx
    · rw [comps_append_slash] at hx
      exact inside_of_staysBelow _ _ (staysBelow_of_no_dotdot _ _ (fun m => hx (by simp [m])))
    · have e : root ++ b!"/" ++ y ++ c!"/" :: x = root ++ c!"/" :: (y ++ c!"/" :: x) := by simp
      rw [e] at hx ⊢
      rw [comps_append_slash] at hx
      exact inside_of_staysBelow _ _ (staysBelow_of_no_dotdot _ _ (fun m => hx (by simp [m])))
  rcases hf with ⟨-, rfl⟩ | ⟨-, n, hn, rfl⟩
  · rw [hrr] at hrf
    cases hrf
    rcases hsib _ _ _ hroot hrr hpre with rfl | ⟨y, rfl⟩
    · exact List.prefix_rfl
    · have hx := hreal.clean _ _ hrr
      have e : root ++ b!"/" ++ y = root ++ c!"/" :: y := by simp
      rw [e] at hx ⊢
      rw [comps_append_slash] at hx
      exact inside_of_staysBelow _ _ (staysBelow_of_no_dotdot _ _ (fun m => hx (by simp [m])))
  · have := hidx real n rf hn hrr hrf
    subst this
    have e : real ++ b!"/" ++ n = real ++ c!"/" :: n := by simp
    have hc := hreal.clean _ _ hrf
    rw [e] at hc ⊢
    exact key n (hsib _ _ _ hroot hrr hpre) hc

/-- A file system given by the real paths of some names. -/
def envOf (names : List (Str × Str)) (dirs : List Str) : Env where
  realpath p := match names.find? (fun e => e.1 == p) with
    | some e => .ok e.2
    | none => .noent
  isDir p := if p ∈ dirs then some true else some false
  exists_ p := names.any (fun e => e.1 == p)
  load _ := .bytes b!"secret"

/-- The document root is `/srv/www`; beside it is `/srv/www2/key`. -/
def siblingEnv : Env := envOf
  [(b!"/srv/www", b!"/srv/www"), (b!"/srv/www//../www2/key", b!"/srv/www2/key"),
   (b!"/srv/www2/key", b!"/srv/www2/key")] [b!"/srv/www"]

/-- A file beside the document root is served when its path starts with the
bytes of the path of the document root. -/
theorem sibling_violated : ∃ out,
    handle siblingEnv b!"/srv/www" b!"GET /../www2/key HTTP/1.0" =
      .ok (.answer 200 out (some b!"/srv/www2/key")) ∧
    siblingEnv.realpath b!"/srv/www" = .ok b!"/srv/www" ∧
    siblingEnv.realpath b!"/srv/www2/key" = .ok b!"/srv/www2/key" ∧
    ¬ Inside b!"/srv/www" b!"/srv/www2/key" :=
  ⟨okBytes b!"application/octet-stream" b!"secret", by decide +kernel, by decide, by decide, by decide⟩

/-- `/srv/www/index.html` is a symbolic link to `/etc/passwd`. -/
def indexEnv : Env := envOf
  [(b!"/srv/www", b!"/srv/www"), (b!"/srv/www//", b!"/srv/www"),
   (b!"/srv/www/index.html", b!"/etc/passwd"), (b!"/etc/passwd", b!"/etc/passwd")] [b!"/srv/www"]

/-- An index file that is a symbolic link to a file outside of the document root
is served. -/
theorem index_violated : ∃ out,
    handle indexEnv b!"/srv/www" b!"GET / HTTP/1.0" =
      .ok (.answer 200 out (some b!"/srv/www/index.html")) ∧
    indexEnv.realpath b!"/srv/www" = .ok b!"/srv/www" ∧
    indexEnv.realpath b!"/srv/www/index.html" = .ok b!"/etc/passwd" ∧
    ¬ Inside b!"/srv/www" b!"/etc/passwd" :=
  ⟨okBytes b!"text/html" b!"secret", by decide +kernel, by decide, by decide, by decide⟩

/-- A plain site. -/
def plainEnv : Env := envOf
  [(b!"/srv/www", b!"/srv/www"), (b!"/srv/www//a.css", b!"/srv/www/a.css"),
   (b!"/srv/www/a.css", b!"/srv/www/a.css")] [b!"/srv/www"]

example : handle plainEnv b!"/srv/www" b!"GET /a.css HTTP/1.0" =
    .ok (.answer 200 (okBytes b!"text/css" b!"secret") (some b!"/srv/www/a.css")) := by
  decide +kernel

theorem plain_find (p r : Str) (h : plainEnv.realpath p = .ok r) :
    (p = b!"/srv/www" ∧ r = b!"/srv/www") ∨ (p = b!"/srv/www//a.css" ∧ r = b!"/srv/www/a.css") ∨
    (p = b!"/srv/www/a.css" ∧ r = b!"/srv/www/a.css") := by
  simp only [plainEnv, envOf] at h
  split at h
  · rename_i e he
    have hm := List.mem_of_find?_eq_some he
    have hp := List.find?_some he
    simp only [beq_iff_eq] at hp
    cases h
    simp only [List.mem_cons, List.not_mem_nil, or_false] at hm
    rcases hm with rfl | rfl | rfl
    · exact .inl ⟨hp.symm, rfl⟩
    · exact .inr (.inl ⟨hp.symm, rfl⟩)
    · exact .inr (.inr ⟨hp.symm, rfl⟩)
  · cases h

example : RealPaths plainEnv ∧ NoSibling plainEnv b!"/srv/www" ∧ PlainIndex plainEnv := by
  refine ⟨⟨?_, ?_⟩, ?_, ?_⟩
  · intro p r h
    rcases plain_find p r h with ⟨-, rfl⟩ | ⟨-, rfl⟩ | ⟨-, rfl⟩ <;> decide
  · intro p r h
    rcases plain_find p r h with ⟨-, rfl⟩ | ⟨-, rfl⟩ | ⟨-, rfl⟩ <;> decide
  · intro p root real h1 h2 _
    rcases plain_find _ _ h1 with ⟨-, rfl⟩ | ⟨h, -⟩ | ⟨h, -⟩
    · rcases plain_find p real h2 with ⟨-, rfl⟩ | ⟨-, rfl⟩ | ⟨-, rfl⟩ <;> decide
    · exact absurd h (by decide)
    · exact absurd h (by decide)
  · intro real n r hn h1 h2
    rcases plain_find _ _ h1 with ⟨rfl, -⟩ | ⟨-, h⟩ | ⟨rfl, -⟩
    · have : ∀ n ∈ indexNames, plainEnv.realpath (b!"/srv/www" ++ b!"/" ++ n) = .noent := by
        decide +kernel
      rw [this n hn] at h2
      cases h2
    · subst h
      have : ∀ n ∈ indexNames, plainEnv.realpath (b!"/srv/www/a.css" ++ b!"/" ++ n) = .noent := by
        decide +kernel
      rw [this n hn] at h2
      cases h2
    · have : ∀ n ∈ indexNames, plainEnv.realpath (b!"/srv/www/a.css" ++ b!"/" ++ n) = .noent := by
        decide +kernel
      rw [this n hn] at h2
      cases h2

end Blogc.C47
