import Verif.Model.Numbers
import Verif.Model.SysInfo
import Verif.Model.Render

/-!
# Model of `src/blogc/rusage.c` and of `src/blogc/sysinfo.c`

The values that blogc itself provides for templates.
-/

namespace Blogc.SysVars

open Blogc Blogc.Render

/-! ## Double precision -/

/-- The least `k` from the given one with `d * 2 ^ 52 ≤ n * 2 ^ k`. -/
def upShift53 (n d : Nat) : (fuel k : Nat) → Nat
  | 0, k => k
  | fuel + 1, k => if d * 2 ^ 52 ≤ n * 2 ^ k then k else upShift53 n d fuel (k + 1)

/-- `n / d` in double precision, for integers with `1 ≤ n / d < 2 ^ 53` that are exact in double precision: the outcome
`(m, k)` stands for `m / 2 ^ k`, where `m` has 53 significant bits, rounded to the nearest, ties to even. -/
def doubleDiv (n d : Nat) : Nat × Nat :=
  let k := upShift53 n d 64 0
  (roundEven (n * 2 ^ k) d, k)

/-- Three decimal digits. -/
def three (n : Nat) : Str :=
  [UInt8.ofNat (48 + n / 100), UInt8.ofNat (48 + n / 10 % 10), UInt8.ofNat (48 + n % 10)]

/-- `%.3f`: the exact value is rounded, ties to even. -/
def printf3 (x : Nat × Nat) : Str :=
  let q := roundEven (x.1 * 1000) (2 ^ x.2)
  decNat (q / 1000) ++ b!"." ++ three (q % 1000)

/-- `%.0f`. -/
def printf0 (x : Nat × Nat) : Str := decNat (roundEven x.1 (2 ^ x.2))

/-! ## Resource usage -/

/-- The fields of `struct rusage` that are read. -/
structure Usage where
  userSec : Nat
  userUsec : Nat
  systemSec : Nat
  systemUsec : Nat
  maxrss : Nat

/-- `rv->cpu_time` of `blogc_rusage_get`, src/blogc/rusage.c:32-34. (Times that do not fit in a `long long` are not
modelled.) -/
def Usage.cpuTime (u : Usage) : Nat := u.userSec * 1000000 + u.userUsec + u.systemSec * 1000000 + u.systemUsec

/-- `blogc_rusage_format_cpu_time`, src/blogc/rusage.c:42-54. In line 53 the argument for `%d` is a `long long`, which is
undefined behaviour. -/
def formatCpuTime (time : Nat) : Res Str :=
  if time ≥ 1000000 then .ok (printf3 (doubleDiv (floatOfNat time) 1000000) ++ b!"s")
  else if time ≥ 1000 then
    .ok ((if time % 1000 ≠ 0 then printf3 (doubleDiv (floatOfNat time) 1000) else printf0 (doubleDiv (floatOfNat time) 1000)) ++
      b!"ms")
  else .ub

/-- `blogc_rusage_format_memory`, src/blogc/rusage.c:57-65. In line 64 the argument for `%d` is a `long`, which is
undefined behaviour. -/
def formatMemory (mem : Nat) : Res Str :=
  if mem ≥ 1048576 then .ok (printf3 (doubleDiv (floatOfNat mem) 1048576) ++ b!"GB")
  else if mem ≥ 1024 then .ok (printf3 (doubleDiv (floatOfNat mem) 1024) ++ b!"MB")
  else .ub

/-! ## System information -/

/-- What the system says when it is asked. -/
structure Machine where
  /-- `getrusage`, `none` if it fails or if there is none (src/blogc/rusage.c:24-29) -/
  rusage : Option Usage
  /-- `gethostname`, `none` if it fails (src/blogc/sysinfo.c:37) -/
  gethostname : Option Str
  /-- `h_name` of the outcome of `gethostbyname`; `none` if either is `NULL` (src/blogc/sysinfo.c:41-42) -/
  gethostbyname : Str → Option Str
  /-- `getenv("LOGNAME")` (src/blogc/sysinfo.c:66) -/
  logname : Option Str
  /-- `time` and `gmtime`, `none` if one of them fails (src/blogc/sysinfo.c:87-93) -/
  now : Option DateTime.Tm
  /-- `strftime` into 1024 bytes, `none` if it gives 0 (src/blogc/sysinfo.c:95-97) -/
  strftime : (format : Str) → DateTime.Tm → Option Str
  /-- the text of /proc/1/cgroup, `none` if it cannot be read (src/blogc/sysinfo.c:130-135) -/
  cgroup : Option Str

/-- `blogc_sysinfo_get_hostname`, src/blogc/sysinfo.c:29-49. -/
def hostname (m : Machine) : Option Str :=
  match m.gethostname with
  | none => none
  | some h =>
    match m.gethostbyname h with
    | some n => some n
    | none => some h

/-- `blogc_sysinfo_get_username`, src/blogc/sysinfo.c:63-67. -/
def username (m : Machine) : Option Str := m.logname

/-- `blogc_sysinfo_get_datetime`, src/blogc/sysinfo.c:81-101. -/
def datetime (m : Machine) : Option Str :=
  match m.now with
  | none => none
  | some tm => m.strftime b!"%Y-%m-%d %H:%M:%S" tm

/-- The values that `blogc_rusage_inject` inserts, src/blogc/rusage.c:68-81. -/
def rusage (m : Machine) : Res (Option (Str × Str)) :=
  match m.rusage with
  | none => .ok none
  | some u => do
    let cpu ← formatCpuTime u.cpuTime
    let mem ← formatMemory u.maxrss
    return some (cpu, mem)

/-- What a machine gives for the variables computed on demand. `format` formats the dates of posts. -/
def sysOf (m : Machine) (format : Str → DateTime.Tm → Option Str) : Res Sys := do
  let usage ← rusage m
  return ⟨usage, hostname m, datetime m, username m, (SysInfo.getInsideDocker m.cgroup .init).1, format⟩

end Blogc.SysVars
