import Verif.Spec.Html
import Verif.Model.Inline

/-!
# Plain text in inline content
-/

namespace Blogc.Spec

open Blogc

/-- The characters that start inline markup. -/
def markup : Str := b!"\\*_`[!-"

/-- The HTML of plain text, after `n` spaces not yet written: two or more spaces
at the end of a line (or of the text) are a line break; other text is escaped. -/
def plainFrom : (n : Nat) → Str → Str
  | n, [] => if 2 ≤ n then b!"<br />" else List.replicate n c!" "
  | n, c :: r =>
    if c = c!" " then plainFrom (n + 1) r
    else if 2 ≤ n ∧ (c = c!"\n" ∨ c = c!"\r") then b!"<br />" ++ [c] ++ plainFrom 0 r
    else List.replicate n c!" " ++ Content.entity c ++ plainFrom 0 r

def plain (s : Str) : Str := plainFrom 0 s

end Blogc.Spec
