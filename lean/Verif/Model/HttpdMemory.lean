import Verif.Model.Httpd

/-!
# Model of what `handle_request` allocates and releases, src/blogc-runserver/httpd.c:56-216

The control flow is that of `Httpd.handle` (this is proved), with the labels `point0` to
`point4`. A list of texts (`bc_str_split`) is one block, also an error with its message.
What a function allocates and releases before it returns is shown only where it calls the
system in between.
-/

namespace Blogc.Httpd

open Blogc

/-- Memory and descriptors. -/
inductive Thing where
  | arg        -- `request_data_t`, httpd.c:371
  | ip         -- httpd.c:374
  | socket     -- `client_socket`
  | line       -- `conn_line`
  | pieces | pieces2
  | path
  | absPath
  | realPath   -- the result of the first `realpath`
  | realRoot
  | index (i : Nat)  -- the text `f` of the `i`-th round of `br_mime_guess_index`
  | text       -- `str` of `error`, `tmp` of line 159, `out` of line 184
  | err
  | file       -- `fp` of `bc_file_get_contents`
  | contents
  deriving DecidableEq, Repr

inductive Event where
  | acquire (x : Thing)
  | release (x : Thing)
  | use (x : Thing)
  deriving DecidableEq, Repr

/-- `error`, src/blogc-runserver/httpd.c:38-53. The rest does not depend on the success of
`write`; SIGPIPE is ignored (src/blogc-runserver/main.c:50-54). -/
def errorEvents : List Event := [.acquire .text, .use .socket, .use .text, .release .text]

/-- src/blogc-runserver/httpd.c:212-215 -/
def point0 : List Event := [.release .ip, .release .socket]

/-- src/blogc-runserver/httpd.c:207-211 -/
def point1 : List Event := [.use .ip, .use .line, .release .line, .release .pieces] ++ point0

/-- src/blogc-runserver/httpd.c:205-206 -/
def point2 : List Event := .release .path :: point1

/-- src/blogc-runserver/httpd.c:203-204; `real` is the block that `real_path` points to. -/
def point3 (real : Thing) : List Event := .release real :: point2

/-- src/blogc-runserver/httpd.c:201-202 -/
def point4 (real : Thing) : List Event := .release .realRoot :: point3 real

/-- `br_mime_guess_index`, src/blogc-runserver/mime.c:146-159, from the `i`-th name on: the
index that was found, and its block. -/
def indexEvents (env : Env) (path : Str) : List Str → Nat → Option (Str × Thing) × List Event
  | [], _ => (none, [])
  | n :: rest, i =>
    let f := path ++ b!"/" ++ n
    if env.exists_ f then (some (f, .index i), [.acquire (.index i), .use (.index i)])
    else
      let r := indexEvents env path rest (i + 1)
      (r.1, [.acquire (.index i), .use (.index i), .release (.index i)] ++ r.2)

/-- Lines 150-215 of src/blogc-runserver/httpd.c; `bc_file_get_contents`
(src/common/file.c:15-61) fails only if the file cannot be opened. -/
def sendEvents (env : Env) (path f : Str) (real : Thing) (addSlash : Bool) : Outcome × List Event :=
  if env.exists_ f = false then
    (fail 500 b!"Internal Server Error", [.use real] ++ errorEvents ++ point4 real)
  else if addSlash then
    (.answer 302 (redirectBytes path) none,
      [.use real, .use .path, .acquire .text, .use .socket, .use .text, .release .text] ++ point4 real)
  else match env.load f with
    | .hang => (.hang, [.use real, .acquire .file, .acquire .contents])
    | .error =>
      (fail 500 b!"Internal Server Error", [.use real, .acquire .err] ++ errorEvents ++ [.release .err] ++ point4 real)
    | .bytes s =>
      (.answer 200 (okBytes (guessType f) s) (some f),
        [.use real, .acquire .file, .acquire .contents, .release .file, .use real, .acquire .text, .use .socket, .use .text,
          .release .text, .use .socket, .use .contents, .release .contents] ++ point4 real)

/-- Lines 95-215 of src/blogc-runserver/httpd.c. -/
def serveEvents (env : Env) (docroot path : Str) : Outcome × List Event :=
  let pre : List Event := [.use .path, .acquire .absPath, .use .absPath]
  match env.realpath (docroot ++ b!"/" ++ path) with
  | .noent => (fail 404 b!"Not Found", pre ++ [.release .absPath] ++ errorEvents ++ point2)
  | .error => (fail 500 b!"Internal Server Error", pre ++ [.release .absPath] ++ errorEvents ++ point2)
  | .ok realPath =>
    let pre := pre ++ [.acquire .realPath, .release .absPath]
    match env.realpath docroot with
    | .noent => (fail 500 b!"Internal Server Error", pre ++ errorEvents ++ point3 .realPath)
    | .error => (fail 500 b!"Internal Server Error", pre ++ errorEvents ++ point3 .realPath)
    | .ok root =>
      let pre := pre ++ [.acquire .realRoot, .use .realRoot, .use .realPath]
      if realPath.take root.length ≠ root then (fail 404 b!"Not Found", pre ++ errorEvents ++ point4 .realPath)
      else match env.isDir realPath with
        | none => (fail 404 b!"Not Found", pre ++ errorEvents ++ point4 .realPath)
        | some false =>
          let r := sendEvents env path realPath .realPath false
          (r.1, pre ++ r.2)
        | some true =>
          let i := indexEvents env realPath indexNames 0
          match i.1 with
          | none => (fail 403 b!"Forbidden", pre ++ i.2 ++ errorEvents ++ point4 .realPath)
          | some (found, real) =>
            let addSlash := decide (path.length > 0) && path.getD (path.length - 1) 0 != c!"/"
            let r := sendEvents env path found real addSlash
            (r.1, pre ++ i.2 ++ [.use .path, .release .realPath] ++ r.2)

/-- `handle_request`, src/blogc-runserver/httpd.c:56-216, for the request line read. Neither
`br_readline` (src/blogc-runserver/httpd-utils.c:36) nor `br_urldecode` (line 80 there) gives
NULL, so the branch of lines 89-93 is not reached. -/
def handleEvents (env : Env) (docroot line : Str) : Res (Outcome × List Event) :=
  let pre : List Event := [.use .arg, .release .arg, .use .socket, .acquire .line, .use .line]
  if line = [] then .ok (.closed, pre ++ point0)
  else
    let pre := pre ++ [.acquire .pieces, .use .pieces]
    match split line c!" " 3 with
    | [method, target, _] =>
      if method ≠ b!"GET" then .ok (fail 405 b!"Method Not Allowed", pre ++ errorEvents ++ point1)
      else
        match split target c!"?" 2 with
        | [] => .ub
        | p :: _ => do
          let path ← urldecode p
          let r := serveEvents env docroot (cstr path)
          pure (r.1, pre ++ [.acquire .pieces2, .use .pieces2, .acquire .path, .release .pieces2] ++ r.2)
    | _ => .ok (fail 400 b!"Bad Request", pre ++ errorEvents ++ point1)

end Blogc.Httpd
