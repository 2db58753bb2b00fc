import Verif.Model.Httpd
import Verif.Spec.Disk

/-!
# A web server on a disk without symbolic links

What the system calls of the web server answer for a file tree. Links are not
followed here; the theorems are about files and directories only. Reading a
directory does not end, see C12.
-/

namespace Blogc.WebDisk

open Blogc Blogc.Httpd Blogc.Spec.Disk
open Blogc.Path (norm comps)
open Blogc.Remove (FS Obj)

/-- Follow components from a directory. The error tells whether something is
missing (ENOENT); otherwise a component is used as a directory but is none. -/
def follow (fs : FS) : Remove.Path → List Str → Except Bool Remove.Path
  | d, [] => .ok d
  | d, x :: r =>
    if fs d ≠ some .dir then .error false
    else if x = [] ∨ x = b!"." then follow fs d r
    else if x = b!".." then follow fs d.dropLast r
    else
      match fs (d ++ [x]) with
      | none => .error true
      | some (.link _) => .error false
      | some _ => follow fs (d ++ [x]) r

/-- The canonical text of a path. -/
def text (p : Remove.Path) : Str := if p = [] then b!"/" else below [] p

/-- `realpath` of an absolute path. -/
def realpath (fs : FS) (p : Str) : Real :=
  match follow fs [] (comps p) with
  | .ok q => .ok (text q)
  | .error true => .noent
  | .error false => .error

/-- The file system as the web server sees it; `content` tells what is in the
files. -/
def env (fs : FS) (content : Remove.Path → Str) : Env where
  realpath := realpath fs
  isDir p := (fs (norm p)).map fun o => decide (o = .dir)
  exists_ p := (fs (norm p)).isSome
  load p :=
    match fs (norm p) with
    | some .file => .bytes (content (norm p))
    | some .dir => .hang
    | _ => .error

end Blogc.WebDisk
