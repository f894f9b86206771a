import Verif.Model.Basic
/-! # Specification: the calendar and the texts of dates and times

Independent of the model: Gregorian leap years, the number of a day, `YYYY/MM/DD` and `HH:MM:SS`. -/
namespace Verif.Spec

/-- Leap years of the Gregorian calendar. -/
def Leap (y : Int) : Prop := y % 4 = 0 ∧ (y % 100 ≠ 0 ∨ y % 400 = 0)

instance (y : Int) : Decidable (Leap y) := by unfold Leap; infer_instance

/-- The number of days of a month. -/
def monthDays (y : Int) : Nat → Nat
  | 1 => 31 | 2 => if Leap y then 29 else 28 | 3 => 31 | 4 => 30 | 5 => 31 | 6 => 30
  | 7 => 31 | 8 => 31 | 9 => 30 | 10 => 31 | 11 => 30 | 12 => 31 | _ => 0

/-- A date that exists. -/
def ValidDate (y : Int) (m d : Nat) : Prop := 1 ≤ m ∧ m ≤ 12 ∧ 1 ≤ d ∧ d ≤ monthDays y m

/-- The date of the next day. -/
def nextDay (y : Int) (m d : Nat) : Int × Nat × Nat :=
  if d < monthDays y m then (y, m, d + 1) else if m < 12 then (y, m + 1, 1) else (y + 1, 1, 1)

/-- Days from 1970-01-01 to the first day of a year. -/
def yearStart (y : Int) : Int :=
  365 * (y - 1970) + ((y - 1) / 4 - (y - 1) / 100 + (y - 1) / 400) - 477

/-- Days of the months before month `m` in year `y`. -/
def monthStart (y : Int) (m : Nat) : Nat := ((List.range m).map (monthDays y)).sum

/-- The number of a date, counted in days from 1970-01-01. -/
def dayNumber (y : Int) (m d : Nat) : Int := yearStart y + monthStart y m + d - 1

/-- Two decimal digits. -/
def two (n : Nat) : Bytes := [UInt8.ofNat (48 + n / 10), UInt8.ofNat (48 + n % 10)]

/-- `YYYY/MM/DD`. -/
def dateText (y m d : Nat) : Bytes := two (y / 100) ++ two (y % 100) ++ bytes!"/" ++ two m ++ bytes!"/" ++ two d

/-- `HH:MM:SS`. -/
def timeText (h m s : Nat) : Bytes := two h ++ bytes!":" ++ two m ++ bytes!":" ++ two s

end Verif.Spec
