import Verif.Basic

/-!
# Dates as a user writes them
-/

namespace Blogc.Spec.DateTime

open Blogc

/-- Two decimal digits. -/
def dd (n : Nat) : Str := [UInt8.ofNat (48 + n / 10), UInt8.ofNat (48 + n % 10)]

/-- Four decimal digits. -/
def dddd (n : Nat) : Str := dd (n / 100) ++ dd (n % 100)

/-- A calendar date and time, with the precision it was written in. -/
structure Date where
  year : Nat
  month : Nat
  day : Nat

inductive Time where
  | none
  | hour (h : Nat)
  | minute (h m : Nat)
  | second (h m s : Nat)

def Date.Ok (d : Date) : Prop :=
  1900 ≤ d.year ∧ d.year ≤ 9999 ∧ 1 ≤ d.month ∧ d.month ≤ 12 ∧ 1 ≤ d.day ∧ d.day ≤ 31

def Time.Ok : Time → Prop
  | .none => True
  | .hour h => h ≤ 23
  | .minute h m => h ≤ 23 ∧ m ≤ 59
  | .second h m s => h ≤ 23 ∧ m ≤ 59 ∧ s ≤ 60

/-- `yyyy-mm-dd`. -/
def Date.render (d : Date) : Str := dddd d.year ++ b!"-" ++ dd d.month ++ b!"-" ++ dd d.day

/-- Nothing, ` hh`, ` hh:mm` or ` hh:mm:ss`. -/
def Time.render : Time → Str
  | .none => []
  | .hour h => b!" " ++ dd h
  | .minute h m => b!" " ++ dd h ++ b!":" ++ dd m
  | .second h m s => b!" " ++ dd h ++ b!":" ++ dd m ++ b!":" ++ dd s

/-- Hour, minute and second of a time; what is not written is 0. -/
def Time.hms : Time → Nat × Nat × Nat
  | .none => (0, 0, 0)
  | .hour h => (h, 0, 0)
  | .minute h m => (h, m, 0)
  | .second h m s => (h, m, s)

example : (Date.mk 2015 1 31).render = b!"2015-01-31" ∧
    (Time.second 1 2 60).render = b!" 01:02:60" := by decide

end Blogc.Spec.DateTime
