import Verif.Model.SysVars
import Verif.Spec.DateTime

/-!
# What a template says about the build

The variables `BLOGC_RUSAGE_...` and `BLOGC_SYSINFO_...`, man/blogc-template.7.ronn:196-222.
-/

namespace Blogc.Spec.SysVars

open Blogc Blogc.Render Blogc.SysVars

def cpuTime : Str := b!"BLOGC_RUSAGE_CPU_TIME"
def memory : Str := b!"BLOGC_RUSAGE_MEMORY"
def host : Str := b!"BLOGC_SYSINFO_HOSTNAME"
def user : Str := b!"BLOGC_SYSINFO_USERNAME"
def date : Str := b!"BLOGC_SYSINFO_DATETIME"
def docker : Str := b!"BLOGC_SYSINFO_INSIDE_DOCKER"

def names : List Str := [cpuTime, memory, host, user, date, docker]

/-- A number of thousandths, with three decimals: `12.345`. -/
def thousandths (k : Nat) : Str :=
  decNat (k / 1000) ++ b!"." ++
    [UInt8.ofNat (48 + k % 1000 / 100), UInt8.ofNat (48 + k % 100 / 10), UInt8.ofNat (48 + k % 10)]

/-- `k` is `num / den`, rounded to the nearest. -/
def Nearest (num den k : Nat) : Prop := 2 * (den * k) ≤ 2 * num + den ∧ 2 * num ≤ 2 * (den * k) + den

/-- `k` is `num / den`, with an error below one. -/
def Near (num den k : Nat) : Prop := den * k < num + den ∧ num < den * k + den

/-- A CPU time of `t` microseconds: whole milliseconds without decimals, other times below a second in milliseconds with
all decimals, longer ones in seconds with three decimals. -/
inductive CpuShown (t : Nat) : Str → Prop where
  | whole {j : Nat} : t = 1000 * j → 1 ≤ j → j < 1000 → CpuShown t (decNat j ++ b!"ms")
  | milliseconds : 1000 ≤ t → t < 1000000 → t % 1000 ≠ 0 → CpuShown t (thousandths t ++ b!"ms")
  | seconds {k : Nat} : 1000000 ≤ t → (t < 2 ^ 24 → Nearest t 1000 k) → Near t 1000 k →
      CpuShown t (thousandths k ++ b!"s")

/-- An amount of memory of `m` KB, in MB or in GB with three decimals. -/
inductive MemoryShown (m : Nat) : Str → Prop where
  | mega {k : Nat} : 1024 ≤ m → m < 1048576 → Nearest (1000 * m) 1024 k → MemoryShown m (thousandths k ++ b!"MB")
  | giga {k : Nat} : 1048576 ≤ m → (m < 2 ^ 24 → Nearest (1000 * m) 1048576 k) → Near (1000 * m) 1048576 k →
      MemoryShown m (thousandths k ++ b!"GB")

/-- The host name up to the first dot. -/
def short (h : Str) : Str := h.takeWhile (· ≠ c!".")

/-- What a machine says about itself. -/
def Says (m : Machine) (name : Str) (v : Option Str) : Prop :=
  (name = cpuTime → (m.rusage = none ∧ v = none) ∨
    ∃ u s, m.rusage = some u ∧ v = some s ∧
      CpuShown ((u.userSec + u.systemSec) * 1000000 + (u.userUsec + u.systemUsec)) s) ∧
  (name = memory → (m.rusage = none ∧ v = none) ∨
    ∃ u s, m.rusage = some u ∧ v = some s ∧ MemoryShown u.maxrss s) ∧
  (name = host → v = m.gethostname.map short) ∧
  (name = user → v = m.logname) ∧
  (name = date → v = m.now.map fun t =>
    DateTime.dddd (t.year + 1900).toNat ++ b!"-" ++ DateTime.dd (t.mon + 1).toNat ++ b!"-" ++ DateTime.dd t.mday.toNat ++
      b!" " ++ DateTime.dd t.hour.toNat ++ b!":" ++ DateTime.dd t.min.toNat ++ b!":" ++ DateTime.dd t.sec.toNat) ∧
  (name = docker → (v = some b!"1" ↔ ∃ text, m.cgroup = some text ∧ b!"/docker/" <:+: cstr text) ∧
    (v = none ↔ ¬ ∃ text, m.cgroup = some text ∧ b!"/docker/" <:+: cstr text))

/-- One conversion of `strftime`. -/
def conversion (t : DateTime.Tm) (c : Byte) : Str :=
  if c = c!"Y" then DateTime.dddd (t.year + 1900).toNat
  else if c = c!"m" then DateTime.dd (t.mon + 1).toNat
  else if c = c!"d" then DateTime.dd t.mday.toNat
  else if c = c!"H" then DateTime.dd t.hour.toNat
  else if c = c!"M" then DateTime.dd t.min.toNat
  else if c = c!"S" then DateTime.dd t.sec.toNat
  else [c!"%", c]

/-- The conversions of `strftime` in the C standard for years from 1000 to 9999, as far as they are used here. -/
def strf (t : DateTime.Tm) : Str → Str
  | [] => []
  | [c] => [c]
  | c :: d :: rest => if c = c!"%" then conversion t d ++ strf t rest else c :: strf t (d :: rest)

/-- Machines whose answers can be told: -/
structure Usual (m : Machine) : Prop where
  /-- the C library formats dates as the C standard says -/
  dates : ∀ f t, m.strftime f t = some (strf t f)
  /-- the host name is a short one, also for the resolver -/
  host : ∀ h, m.gethostname = some h → c!"." ∉ h ∧ ∀ n, m.gethostbyname h = some n → n = h
  /-- at least a millisecond of CPU time and a megabyte of memory were used; not more than two hours and 8 TB -/
  usage : ∀ u, m.rusage = some u →
    1000 ≤ (u.userSec + u.systemSec) * 1000000 + (u.userUsec + u.systemUsec) ∧
    (u.userSec + u.systemSec) * 1000000 + (u.userUsec + u.systemUsec) < 2 ^ 33 ∧ 1024 ≤ u.maxrss ∧ u.maxrss < 2 ^ 33

/-- Variables are used one after the other, while what the system says may change. -/
inductive Later : Table → Table → Prop where
  | refl (g : Table) : Later g g
  | use {g g' g'' : Table} (sys : Sys) (loc : Option Table) (it : Item) (name : Str) (v : Option Str) :
      formatVariable sys g loc it name = .ok (g', v) → Later g' g'' → Later g g''

end Blogc.Spec.SysVars
