import Verif.Basic

/-!
# HTTP responses as a client reads them (RFC 1945, section 6)
-/

namespace Blogc.Http

open Blogc

/-- The text before the first CRLF and the text after it. -/
def takeLine : Str → Option (Str × Str)
  | [] => none
  | [_] => none
  | c :: d :: r =>
    if c = c!"\r" ∧ d = c!"\n" then some ([], r)
    else (takeLine (d :: r)).map fun p => (c :: p.1, p.2)

/-- The lines before the first empty line, and the text after it. -/
def readHead : (fuel : Nat) → Str → Option (List Str × Str)
  | 0, _ => none
  | n + 1, s =>
    match takeLine s with
    | none => none
    | some (l, r) => if l = [] then some ([], r) else (readHead n r).map fun p => (l :: p.1, p.2)

/-- The head lines and the body of a response. -/
def parse (out : Str) : Option (List Str × Str) := readHead (out.length + 1) out

/-- A complete response: a status line with the status, header lines, one of
which gives the length of the body, and the body. -/
def WellFormed (status : Nat) (out : Str) : Prop :=
  ∃ (first : Str) (headers : List Str) (body : Str), parse out = some (first :: headers, body) ∧
    (b!"HTTP/1.0 " ++ decimal status ++ b!" ") <+: first ∧
    (∀ h ∈ headers, c!":" ∈ h ∧ c!"\n" ∉ h) ∧
    headers.filter (fun h => b!"Content-Length:".isPrefixOf h) =
      [b!"Content-Length: " ++ decimal body.length]
where
  decimal (n : Nat) : Str := (Nat.toDigits 10 n).map fun c => UInt8.ofNat c.toNat

example : parse b!"HTTP/1.0 200 OK\r\nA: b\r\n\r\nbody\r\n" =
    some ([b!"HTTP/1.0 200 OK", b!"A: b"], b!"body\r\n") := by decide

end Blogc.Http
