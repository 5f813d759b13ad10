/-! # Independent description of calendar dates and of the six-byte time -/

namespace Verif.Spec

/-- Gregorian leap years. -/
def leapYear (y : Nat) : Prop := (y % 4 = 0 ∧ y % 100 ≠ 0) ∨ y % 400 = 0

instance (y : Nat) : Decidable (leapYear y) := by unfold leapYear; infer_instance

/-- Number of days of a month. -/
def monthLength (y m : Nat) : Nat :=
  if m = 2 then (if leapYear y then 29 else 28)
  else if m = 4 ∨ m = 6 ∨ m = 9 ∨ m = 11 then 30 else 31

/-- A calendar date. -/
structure Date where
  year : Nat
  month : Nat
  day : Nat
  deriving DecidableEq, Repr

/-- The following day. -/
def Date.next (d : Date) : Date :=
  if d.day < monthLength d.year d.month then ⟨d.year, d.month, d.day + 1⟩
  else if d.month < 12 then ⟨d.year, d.month + 1, 1⟩
  else ⟨d.year + 1, 1, 1⟩

/-- The date `n` days after January 1, 2000. -/
def dateAfter : Nat → Date
  | 0 => ⟨2000, 1, 1⟩
  | n + 1 => (dateAfter n).next

/-- A number below 100 as two decimal digits in one byte. -/
def bcdByte (n : Nat) : UInt8 := UInt8.ofNat (16 * (n / 10) + n % 10)

/-- Unix time of January 1, 2000, 00:00:00 UTC. -/
def unix2000 : Int := 946684800

/-- Unix time of January 1, 2010, 00:00:00 UTC. -/
def unix2010 : Int := 1262304000

/-- Unix time of January 1, 2100, 00:00:00 UTC. -/
def unix2100 : Int := 4102444800

/-- The constants are what they say: 2010 begins 3653 days, 2100 begins 36525 days after 2000. -/
example : unix2010 = unix2000 + 3653 * 86400 ∧ unix2100 = unix2000 + 36525 * 86400 := by decide

end Verif.Spec
