/-! # The civil calendar, independent of the model

A calendar is given by what the next day is.  Everything else (the date of day number `n`) follows by counting. -/

namespace NavFuse.Spec

structure Date where
  year : Int
  month : Int
  day : Int
  deriving DecidableEq

/-- Gregorian leap years -/
def gregLeap (y : Int) : Prop := 4 ∣ y ∧ (¬ 100 ∣ y ∨ 400 ∣ y)
/-- leap years of the calendar actually in use: Julian up to 1582, Gregorian after -/
def civilLeap (y : Int) : Prop := if y ≤ 1582 then 4 ∣ y else gregLeap y

instance (y : Int) : Decidable (gregLeap y) := by unfold gregLeap; infer_instance
instance (y : Int) : Decidable (civilLeap y) := by unfold civilLeap; infer_instance

/-- length of a month, given whether the year is a leap year: thirty days hath September, April, June and November ... -/
def monthLen (leap : Bool) (m : Int) : Int :=
  if m = 2 then (if leap then 29 else 28) else if m = 4 ∨ m = 6 ∨ m = 9 ∨ m = 11 then 30 else 31

/-- the day after, within a calendar with the given leap years -/
def Date.succWith (leap : Bool) (D : Date) : Date :=
  if D.day < monthLen leap D.month then ⟨D.year, D.month, D.day + 1⟩
  else if D.month < 12 then ⟨D.year, D.month + 1, 1⟩
  else ⟨D.year + 1, 1, 1⟩

/-- proleptic Gregorian calendar: the day after -/
def Date.gregNext (D : Date) : Date := D.succWith (decide (gregLeap D.year))

/-- the calendar in use: 4 October 1582 was followed by 15 October 1582 -/
def Date.civilNext (D : Date) : Date :=
  if D = ⟨1582, 10, 4⟩ then ⟨1582, 10, 15⟩ else D.succWith (decide (civilLeap D.year))

/-- `n` applications of a day-after function -/
def iter (f : Date → Date) : Nat → Date → Date
  | 0, D => D
  | n + 1, D => iter f n (f D)

/-- the Gregorian date `n` days after 1 January 1970 -/
def dateOfDay (n : Nat) : Date := iter Date.gregNext n ⟨1970, 1, 1⟩

/-- A date of the calendar in use. -/
structure Date.Valid (D : Date) : Prop where
  month : 1 ≤ D.month ∧ D.month ≤ 12
  day : 1 ≤ D.day ∧ D.day ≤ monthLen (decide (civilLeap D.year)) D.month
  /-- not one of the ten days dropped in 1582 -/
  gap : ¬ (D.year = 1582 ∧ D.month = 10 ∧ 5 ≤ D.day ∧ D.day ≤ 14)

end NavFuse.Spec
