import Verif.Model.Strings
import Verif.Model.Numbers

/-!
# Model of `src/blogc-runserver`: the development web server
-/

namespace Blogc.Httpd

open Blogc

/-! ## Request line -/

/-- `READLINE_BUFFER_SIZE`, src/blogc-runserver/httpd-utils.h:6. -/
def bufferSize : Nat := 2048

/-- The inner loop of `br_readline`, src/blogc-runserver/httpd-utils.c:21-29: the
bytes recorded from one read, and whether the end was seen. -/
def record : Str → Str × Bool
  | [] => ([], false)
  | c :: r =>
    if c = c!"\r" ∨ c = c!"\n" ∨ c = 0 then ([], true)
    else (c :: (record r).1, (record r).2)

/-- The outer loop of `br_readline`, src/blogc-runserver/httpd-utils.c:19-34. The
list gives what successive `read` calls return (1 to `bufferSize` bytes each); the
end of the list is end of file or an error. -/
def readlineLoop : (reads : List Str) → (fin : Bool) → (rv : Str) → Str
  | [], _, rv => rv
  | chunk :: reads, fin, rv =>
    let rv' := if fin then rv else rv ++ (record chunk).1
    let fin' := if fin then true else (record chunk).2
    if chunk.length < bufferSize then rv' else readlineLoop reads fin' rv'

/-- `br_readline`, src/blogc-runserver/httpd-utils.c:11-37. -/
def readline (reads : List Str) : Str := readlineLoop reads false []

/-! ## URL decoding -/

/-- `br_hextoi`, src/blogc-runserver/httpd-utils.c:40-50. -/
def hextoi (c : Byte) : Int :=
  if c!"0" ≤ c ∧ c ≤ c!"9" then (c.toNat : Int) - 48
  else if c!"a" ≤ c ∧ c ≤ c!"f" then (c.toNat : Int) - 97 + 10
  else if c!"A" ≤ c ∧ c ≤ c!"F" then (c.toNat : Int) - 65 + 10
  else -1

/-- Reading `p[k]` where `p` points to the C string `s`. -/
def readAt (s : Str) (k : Nat) : Res Byte :=
  if h : k < s.length then .ok s[k] else if k = s.length then .ok 0 else .ub

/-- Loop of `br_urldecode`, src/blogc-runserver/httpd-utils.c:58-78; the
argument is the string from index `i` on, so `i + 2 < strlen(str)` is
`2 < s.length`. -/
def urldecode : Str → Res Str
  | [] => .ok []
  | c :: rest =>
    if c = c!"%" then
      if 2 < rest.length + 1 then do
        let a ← readAt (c :: rest) 1
        let b ← readAt (c :: rest) 2
        let p1 := hextoi a * 16
        let p2 := hextoi b
        if p1 ≥ 0 ∧ p2 ≥ 0 then
          match rest with
          | _ :: _ :: rest' => do
            let r ← urldecode rest'
            pure (UInt8.ofNat (p1 + p2).toNat :: r)
          | _ => .ub  -- not reached
        else do
          let r ← urldecode rest
          pure (c!"%" :: r)
      else do
        let r ← urldecode rest
        pure (c!"%" :: r)
    else if c = c!"+" then do
      let r ← urldecode rest
      pure (c!" " :: r)
    else do
      let r ← urldecode rest
      pure (c :: r)

/-! ## Content types -/

/-- Loop of `br_get_extension`, src/blogc-runserver/httpd-utils.c:89-96, at
index `i`. -/
def extLoop (f : Str) : Nat → Option Str
  | 0 => none
  | i + 1 =>
    let c := f.getD (i + 1) 0     -- `f[strlen(f)]` is the terminator
    if c = c!"." then some (f.drop (i + 2))
    else if c = c!"/" ∨ c = c!"\\" then none
    else extLoop f i

/-- `br_get_extension`, src/blogc-runserver/httpd-utils.c:84-100. -/
def getExtension (f : Str) : Option Str := extLoop f f.length

/-- `content_types`, src/blogc-runserver/mime.c:13-126: type, extension, index. -/
def contentTypes : List (Str × Str × Option Str) := [
  (b!"text/html", b!"html", some b!"index.html"),
  (b!"text/html", b!"htm", some b!"index.htm"),
  (b!"text/html", b!"shtml", some b!"index.shtml"),
  (b!"text/xml", b!"xml", some b!"index.xml"),
  (b!"text/plain", b!"txt", some b!"index.txt"),
  (b!"application/xhtml+xml", b!"xhtml", some b!"index.xhtml"),
  (b!"text/css", b!"css", none),
  (b!"image/gif", b!"gif", none),
  (b!"image/jpeg", b!"jpeg", none),
  (b!"image/jpeg", b!"jpg", none),
  (b!"application/javascript", b!"js", none),
  (b!"application/atom+xml", b!"atom", none),
  (b!"application/rss+xml", b!"rss", none),
  (b!"text/mathml", b!"mml", none),
  (b!"text/vnd.sun.j2me.app-descriptor", b!"jad", none),
  (b!"text/vnd.wap.wml", b!"wml", none),
  (b!"text/x-component", b!"htc", none),
  (b!"image/png", b!"png", none),
  (b!"image/tiff", b!"tif", none),
  (b!"image/tiff", b!"tiff", none),
  (b!"image/vnd.wap.wbmp", b!"wbmp", none),
  (b!"image/x-icon", b!"ico", none),
  (b!"image/x-jng", b!"jng", none),
  (b!"image/x-ms-bmp", b!"bmp", none),
  (b!"image/svg+xml", b!"svg", none),
  (b!"image/svg+xml", b!"svgz", none),
  (b!"image/webp", b!"webp", none),
  (b!"application/font-woff", b!"woff", none),
  (b!"application/java-archive", b!"jar", none),
  (b!"application/java-archive", b!"war", none),
  (b!"application/java-archive", b!"ear", none),
  (b!"application/json", b!"json", none),
  (b!"application/mac-binhex40", b!"hqx", none),
  (b!"application/msword", b!"doc", none),
  (b!"application/pdf", b!"pdf", none),
  (b!"application/postscript", b!"ps", none),
  (b!"application/postscript", b!"eps", none),
  (b!"application/postscript", b!"ai", none),
  (b!"application/rtf", b!"rtf", none),
  (b!"application/vnd.apple.mpegurl", b!"m3u8", none),
  (b!"application/vnd.ms-excel", b!"xls", none),
  (b!"application/vnd.ms-fontobject", b!"eot", none),
  (b!"application/vnd.ms-powerpoint", b!"ppt", none),
  (b!"application/vnd.wap.wmlc", b!"wmlc", none),
  (b!"application/vnd.google-earth.kml+xml", b!"kml", none),
  (b!"application/vnd.google-earth.kmz", b!"kmz", none),
  (b!"application/x-7z-compressed", b!"7z", none),
  (b!"application/x-cocoa", b!"cco", none),
  (b!"application/x-java-archive-diff", b!"jardiff", none),
  (b!"application/x-java-jnlp-file", b!"jnlp", none),
  (b!"application/x-makeself", b!"run", none),
  (b!"application/x-perl", b!"pl", none),
  (b!"application/x-perl", b!"pm", none),
  (b!"application/x-pilot", b!"prc", none),
  (b!"application/x-pilot", b!"pdb", none),
  (b!"application/x-rar-compressed", b!"rar", none),
  (b!"application/x-redhat-package-manager", b!"rpm", none),
  (b!"application/x-sea", b!"sea", none),
  (b!"application/x-shockwave-flash", b!"swf", none),
  (b!"application/x-stuffit", b!"sit", none),
  (b!"application/x-tcl", b!"tcl", none),
  (b!"application/x-tcl", b!"tk", none),
  (b!"application/x-x509-ca-cert", b!"der", none),
  (b!"application/x-x509-ca-cert", b!"pem", none),
  (b!"application/x-x509-ca-cert", b!"crt", none),
  (b!"application/x-xpinstall", b!"xpi", none),
  (b!"application/xspf+xml", b!"xspf", none),
  (b!"application/zip", b!"zip", none),
  (b!"application/octet-stream", b!"bin", none),
  (b!"application/octet-stream", b!"exe", none),
  (b!"application/octet-stream", b!"dll", none),
  (b!"application/octet-stream", b!"deb", none),
  (b!"application/octet-stream", b!"dmg", none),
  (b!"application/octet-stream", b!"iso", none),
  (b!"application/octet-stream", b!"img", none),
  (b!"application/octet-stream", b!"msi", none),
  (b!"application/octet-stream", b!"msp", none),
  (b!"application/octet-stream", b!"msm", none),
  (b!"application/vnd.openxmlformats-officedocument.wordprocessingml.document", b!"docx", none),
  (b!"application/vnd.openxmlformats-officedocument.spreadsheetml.sheet", b!"xlsx", none),
  (b!"application/vnd.openxmlformats-officedocument.presentationml.presentation", b!"pptx", none),
  (b!"audio/midi", b!"mid", none),
  (b!"audio/midi", b!"midi", none),
  (b!"audio/midi", b!"kar", none),
  (b!"audio/mpeg", b!"mp3", none),
  (b!"audio/ogg", b!"ogg", none),
  (b!"audio/x-m4a", b!"m4a", none),
  (b!"audio/x-realaudio", b!"ra", none),
  (b!"video/3gpp", b!"3gpp", none),
  (b!"video/3gpp", b!"3gp", none),
  (b!"video/mp2t", b!"ts", none),
  (b!"video/mp4", b!"mp4", none),
  (b!"video/mpeg", b!"mpeg", none),
  (b!"video/mpeg", b!"mpg", none),
  (b!"video/quicktime", b!"mov", none),
  (b!"video/webm", b!"webm", none),
  (b!"video/x-flv", b!"flv", none),
  (b!"video/x-m4v", b!"m4v", none),
  (b!"video/x-mng", b!"mng", none),
  (b!"video/x-ms-asf", b!"asx", none),
  (b!"video/x-ms-asf", b!"asf", none),
  (b!"video/x-ms-wmv", b!"wmv", none),
  (b!"video/x-msvideo", b!"avi", none)]

/-- `br_mime_guess_content_type`, src/blogc-runserver/mime.c:129-143. -/
def guessType (f : Str) : Str :=
  match getExtension f with
  | none => b!"application/octet-stream"
  | some ext =>
    match contentTypes.find? (fun e => e.2.1 == ext) with
    | some e => e.1
    | none => b!"application/octet-stream"

/-! ## Requests -/

/-- Result of `realpath`. -/
inductive Real where
  | ok (p : Str) | noent | error
  deriving DecidableEq, Repr

/-- Result of `bc_file_get_contents`; `hang`: the call does not return (see
C12). -/
inductive Load where
  | bytes (s : Str) | error | hang
  deriving DecidableEq, Repr

/-- The file system during one request. -/
structure Env where
  realpath : Str → Real
  isDir : Str → Option Bool      -- `stat`; `none`: fails
  exists_ : Str → Bool           -- `access(p, F_OK) == 0`
  load : Str → Load

/-- The index names, in order; the first entry without an index ends the search
(src/blogc-runserver/mime.c:150). -/
def indexNames : List Str := (contentTypes.takeWhile (fun e => e.2.2.isSome)).filterMap (fun e => e.2.2)

/-- `br_mime_guess_index`, src/blogc-runserver/mime.c:146-159. -/
def guessIndex (env : Env) (path : Str) : Option Str :=
  (indexNames.map (fun n => path ++ b!"/" ++ n)).find? env.exists_

/-- What happens to a connection. -/
inductive Outcome where
  | closed                                               -- closed without an answer
  | hang                                                 -- never answered
  | answer (status : Nat) (out : Str) (file : Option Str)  -- bytes written, file sent
  deriving DecidableEq, Repr

/-- `error`, src/blogc-runserver/httpd.c:38-53 (all of it is written). -/
def errorBytes (status : Nat) (msg : Str) : Str :=
  b!"HTTP/1.0 " ++ decNat status ++ b!" " ++ msg ++
  b!"\r\nContent-Type: text/html\r\nContent-Length: " ++ decNat (msg.length + 10) ++
  b!"\r\nConnection: close\r\n\r\n" ++ b!"<h1>" ++ msg ++ b!"</h1>\n"

def fail (status : Nat) (msg : Str) : Outcome := .answer status (errorBytes status msg) none

/-- The answer 302, src/blogc-runserver/httpd.c:159-164. -/
def redirectBytes (path : Str) : Str :=
  b!"HTTP/1.0 302 Found\r\nLocation: " ++ path ++
  b!"/\r\nContent-Length: 0\r\nConnection: close\r\n\r\n"

/-- The answer 200, src/blogc-runserver/httpd.c:184-198. -/
def okBytes (type body : Str) : Str :=
  b!"HTTP/1.0 200 OK\r\nContent-Type: " ++ type ++ b!"\r\nContent-Length: " ++
  decNat body.length ++ b!"\r\nConnection: close\r\n\r\n" ++ body

/-- Lines 150-199 of src/blogc-runserver/httpd.c: the file `f` is to be sent. -/
def sendFile (env : Env) (path f : Str) (addSlash : Bool) : Outcome :=
  if env.exists_ f = false then fail 500 b!"Internal Server Error"
  else if addSlash then .answer 302 (redirectBytes path) none
  else match env.load f with
    | .hang => .hang
    | .error => fail 500 b!"Internal Server Error"
    | .bytes s => .answer 200 (okBytes (guessType f) s) (some f)

/-- Lines 95-199 of src/blogc-runserver/httpd.c, for the decoded path. -/
def serve (env : Env) (docroot path : Str) : Outcome :=
  match env.realpath (docroot ++ b!"/" ++ path) with
  | .noent => fail 404 b!"Not Found"
  | .error => fail 500 b!"Internal Server Error"
  | .ok realPath =>
    match env.realpath docroot with
    | .noent => fail 500 b!"Internal Server Error"
    | .error => fail 500 b!"Internal Server Error"
    | .ok root =>
      -- `strncmp(real_root, real_path, strlen(real_root)) != 0`
      if realPath.take root.length ≠ root then fail 404 b!"Not Found"
      else match env.isDir realPath with
        | none => fail 404 b!"Not Found"
        | some false => sendFile env path realPath false
        | some true =>
          match guessIndex env realPath with
          | none => fail 403 b!"Forbidden"
          | some found =>
            let addSlash := decide (path.length > 0) && path.getD (path.length - 1) 0 != c!"/"
            sendFile env path found addSlash

/-- `handle_request`, src/blogc-runserver/httpd.c:56-216, for the request line
read. The decoded path is a C string: it ends at the first NUL. -/
def handle (env : Env) (docroot line : Str) : Res Outcome :=
  if line = [] then .ok .closed
  else
    match split line c!" " 3 with
    | [method, target, _] =>
      if method ≠ b!"GET" then .ok (fail 405 b!"Method Not Allowed")
      else
        match split target c!"?" 2 with
        | [] => .ub                        -- `br_urldecode(NULL)` calls `strlen(NULL)`
        | p :: _ => do
          let path ← urldecode p
          pure (serve env docroot (cstr path))
    | _ => .ok (fail 400 b!"Bad Request")

end Blogc.Httpd
