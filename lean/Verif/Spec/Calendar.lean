import Verif.Model.Generation
import Verif.Spec.Generations
/-!
# Specification: dates, by counting days

The Gregorian calendar, and which date a second is in: 1970-01-01 is day 0, the day after a day has the
next number, and a day has 86400 seconds.
-/
namespace Verif.Calendar
open Verif Generation

/-- Every fourth year is a leap year, of those divisible by 100 only those divisible by 400. -/
def Leap (y : Int) : Prop := 4 ∣ y ∧ (100 ∣ y → 400 ∣ y)

instance (y : Int) : Decidable (Leap y) := by unfold Leap; infer_instance

/-- The number of days of a month. -/
def monthLength (y : Int) (m : Nat) : Nat :=
  if m = 2 then (if Leap y then 29 else 28)
  else if m = 4 ∨ m = 6 ∨ m = 9 ∨ m = 11 then 30
  else 31

/-- A date that exists. -/
structure Exists (d : Date) : Prop where
  month : 1 ≤ d.month ∧ d.month ≤ 12
  day : 1 ≤ d.day ∧ d.day ≤ monthLength d.year d.month

/-- The day after. -/
def tomorrow (d : Date) : Date :=
  if d.day < monthLength d.year d.month then { d with day := d.day + 1 }
  else if d.month < 12 then { year := d.year, month := d.month + 1, day := 1 }
  else { year := d.year + 1, month := 1, day := 1 }

/-- Day number `n` has the date `d`: counted forwards and backwards from 1970-01-01. -/
inductive DateOf : Int → Date → Prop
  | epoch : DateOf 0 { year := 1970, month := 1, day := 1 }
  | after {n : Int} {d : Date} : DateOf n d → DateOf (n + 1) (tomorrow d)
  | before {n : Int} {d : Date} : Exists d → DateOf (n + 1) (tomorrow d) → DateOf n d

/-- The second `t`, counted from the beginning of 1970-01-01, is in the day `d`. -/
def InDay (t : Int) (d : Date) : Prop := ∃ n, DateOf n d ∧ 86400 * n ≤ t ∧ t < 86400 * (n + 1)

/-- How the boot menu says when a link was made: the date of the second in UTC, if its year has at most four
digits, and `Unknown` otherwise or if the time is not known. -/
def TimeText : Option Int → Str → Prop
  | none, s => s = lit "Unknown"
  | some t, s => ∃ d, InDay t d ∧ if d.year.natAbs ≤ 9999 then DateText (some d) s else s = lit "Unknown"

/-- `d` is before `e`. -/
def Before (d e : Date) : Prop :=
  d.year < e.year ∨ d.year = e.year ∧ (d.month < e.month ∨ d.month = e.month ∧ d.day < e.day)

end Verif.Calendar
