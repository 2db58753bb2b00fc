import Verif.Model.Strings

/-!
# C library number conversions used by blogc

`strtol`, `strtoul` (base 10), decimal printing, and single precision division
followed by `ceilf`. These are models of the C library and of IEEE 754, not of
code in /repo; `long` has 64 bits and `int` 32.
-/

namespace Blogc

def isDigit (c : Byte) : Bool := c!"0" ≤ c && c ≤ c!"9"

/-- The value of a run of digits and the rest of the string. -/
def readDigits : (acc : Nat) → Str → Nat × Str
  | acc, [] => (acc, [])
  | acc, c :: rest =>
    if isDigit c then readDigits (acc * 10 + (c.toNat - 48)) rest else (acc, c :: rest)

/-- The subject of `strtol`/`strtoul`: sign (true when negative), magnitude and
rest (`endptr`); `none` when there are no digits. -/
def readNumber (s : Str) : Option (Bool × Nat × Str) :=
  let go (neg : Bool) (t : Str) : Option (Bool × Nat × Str) :=
    match t with
    | [] => none
    | c :: _ => if isDigit c then some (neg, readDigits 0 t) else none
  match lstrip s with
  | [] => none
  | c :: t =>
    if c == c!"-" then go true t
    else if c == c!"+" then go false t
    else go false (c :: t)

/-- `strtol(s, &endptr, 10)`: the value, saturated, and `endptr`. -/
def strtol (s : Str) : Int × Str :=
  match readNumber s with
  | none => (0, s)
  | some (neg, m, rest) =>
    (if neg then max (-(2 ^ 63)) (-(m : Int)) else min (2 ^ 63 - 1) (m : Int), rest)

/-- `strtoul(s, NULL, 10)`. -/
def strtoul (s : Str) : Nat :=
  match readNumber s with
  | none => 0
  | some (neg, m, _) =>
    if m ≥ 2 ^ 64 then 2 ^ 64 - 1
    else if neg then (2 ^ 64 - m) % 2 ^ 64 else m

/-- The digits of a number, most significant first; `fuel` bounds their
number. -/
def decAux : (fuel n : Nat) → Str
  | 0, n => [UInt8.ofNat (48 + n % 10)]
  | fuel + 1, n =>
    if n < 10 then [UInt8.ofNat (48 + n)]
    else decAux fuel (n / 10) ++ [UInt8.ofNat (48 + n % 10)]

/-- Decimal notation (`%ld`, `%d`, `%zu`). -/
def decNat (n : Nat) : Str := decAux n n

def decInt (z : Int) : Str := if z < 0 then c!"-" :: decNat z.natAbs else decNat z.natAbs

/-- Conversion to a signed integer type of 32 bits. -/
def toInt32 (z : Int) : Int := Int.bmod z (2 ^ 32)

/-! ## Single precision -/

/-- `n / d` rounded to the nearest integer, ties to even. -/
def roundEven (n d : Nat) : Nat :=
  if 2 * (n % d) < d then n / d
  else if 2 * (n % d) > d then n / d + 1
  else if (n / d) % 2 = 0 then n / d else n / d + 1

/-- The least `k` from the given one with `n < d * 2 ^ (24 + k)`. -/
def downShift (n d : Nat) : (fuel k : Nat) → Nat
  | 0, k => k
  | fuel + 1, k => if n < d * 2 ^ (24 + k) then k else downShift n d fuel (k + 1)

/-- The least `k` from the given one with `d * 2 ^ 23 ≤ n * 2 ^ k`. -/
def upShift (n d : Nat) : (fuel k : Nat) → Nat
  | 0, k => k
  | fuel + 1, k => if d * 2 ^ 23 ≤ n * 2 ^ k then k else upShift n d fuel (k + 1)

/-- `(float) n` for an integer: 24 significant bits, so integers below `2 ^ 24`
are exact; the outcome is always an integer. -/
def floatOfNat (n : Nat) : Nat :=
  if n < 2 ^ 24 then n
  else
    let k := downShift n 1 64 0
    roundEven n (2 ^ k) * 2 ^ k

/-- `ceilf(n / d)` for single precision `n` and `d > 0` that are integers (the
quotient is rounded to 24 significant bits first). -/
def ceilDiv32 (n d : Nat) : Nat :=
  if n = 0 then 0
  else if n < d * 2 ^ 24 then
    let k := upShift n d 256 0
    (roundEven (n * 2 ^ k) d + 2 ^ k - 1) / 2 ^ k
  else
    let k := downShift n d 64 0
    roundEven n (d * 2 ^ k) * 2 ^ k

end Blogc
