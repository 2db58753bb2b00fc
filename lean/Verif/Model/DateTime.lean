import Verif.Basic

/-!
# Model of `src/blogc/datetime-parser.c`
-/

namespace Blogc.DateTime

/-- `blogc_datetime_state_t`, src/blogc/datetime-parser.c:19-40. -/
inductive State where
  | year1 | year2 | year3 | year4 | hyphen1 | month1 | month2 | hyphen2 | day1 | day2 | space
  | hour1 | hour2 | colon1 | minute1 | minute2 | colon2 | second1 | second2 | done
  deriving DecidableEq, Repr

/-- The fields of `struct tm` that the parser sets (lines 59-61). -/
structure Tm where
  year : Int      -- years since 1900
  mon : Int       -- 0-11
  mday : Int
  hour : Int
  min : Int
  sec : Int
  deriving DecidableEq, Repr

def Tm.zero : Tm := ⟨0, 0, 0, 0, 0, 0⟩

/-- `c - diff`. -/
def dig (c : Byte) : Int := (c.toNat : Int) - 48

/-- `c >= '0' && c <= hi`. -/
def inRange (c hi : Byte) : Bool := c!"0" ≤ c && c ≤ hi

/-- One iteration of the loop, src/blogc/datetime-parser.c:67-333. `none` is an
error (the messages are not modelled). -/
def step (st : State) (tmp : Int) (t : Tm) (c : Byte) : Option (State × Int × Tm) :=
  match st with
  | .year1 => if inRange c c!"9" then some (.year2, tmp + dig c * 1000, t) else none
  | .year2 => if inRange c c!"9" then some (.year3, tmp + dig c * 100, t) else none
  | .year3 => if inRange c c!"9" then some (.year4, tmp + dig c * 10, t) else none
  | .year4 =>
    if inRange c c!"9" then
      let tmp := tmp + (dig c - 1900)
      if tmp < 0 then none else some (.hyphen1, tmp, { t with year := tmp })
    else none
  | .hyphen1 => if c == c!"-" then some (.month1, 0, t) else none
  | .month1 => if inRange c c!"1" then some (.month2, tmp + dig c * 10, t) else none
  | .month2 =>
    if inRange c c!"9" then
      let tmp := tmp + (dig c - 1)
      if tmp < 0 ∨ tmp > 11 then none else some (.hyphen2, tmp, { t with mon := tmp })
    else none
  | .hyphen2 => if c == c!"-" then some (.day1, 0, t) else none
  | .day1 => if inRange c c!"3" then some (.day2, tmp + dig c * 10, t) else none
  | .day2 =>
    if inRange c c!"9" then
      let tmp := tmp + dig c
      if tmp < 1 ∨ tmp > 31 then none else some (.space, tmp, { t with mday := tmp })
    else none
  | .space => if c == c!" " then some (.hour1, 0, t) else none
  | .hour1 => if inRange c c!"2" then some (.hour2, tmp + dig c * 10, t) else none
  | .hour2 =>
    if inRange c c!"9" then
      let tmp := tmp + dig c
      if tmp < 0 ∨ tmp > 23 then none else some (.colon1, tmp, { t with hour := tmp })
    else none
  | .colon1 => if c == c!":" then some (.minute1, 0, t) else none
  | .minute1 => if inRange c c!"5" then some (.minute2, tmp + dig c * 10, t) else none
  | .minute2 =>
    if inRange c c!"9" then
      let tmp := tmp + dig c
      if tmp < 0 ∨ tmp > 59 then none else some (.colon2, tmp, { t with min := tmp })
    else none
  | .colon2 => if c == c!":" then some (.second1, 0, t) else none
  | .second1 => if inRange c c!"6" then some (.second2, tmp + dig c * 10, t) else none
  | .second2 =>
    if inRange c c!"9" then
      let tmp := tmp + dig c
      if tmp < 0 ∨ tmp > 60 then none else some (.done, tmp, { t with sec := tmp })
    else none
  | .done => some (.done, tmp, t)

/-- The states in which the string may end, src/blogc/datetime-parser.c:336-365. -/
def State.final : State → Bool
  | .space | .colon1 | .colon2 | .done => true
  | _ => false

/-- The loop and the final check, src/blogc/datetime-parser.c:67-366. -/
def loop : Str → State → Int → Tm → Option Tm
  | [], st, _, t => if st.final then some t else none
  | c :: rest, st, tmp, t =>
    match step st tmp t c with
    | none => none
    | some (st', tmp', t') => loop rest st' tmp' t'

/-- `blogc_convert_datetime` up to the call of `mktime`
(src/blogc/datetime-parser.c:43-366); `mktime` and `strftime` are not modelled. -/
def parse (s : Str) : Option Tm := loop s .year1 0 .zero

end Blogc.DateTime
