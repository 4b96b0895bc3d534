import Verif.Outcome
import Verif.Scalar

/-! # Dates: `unixTimestampToDateVec` and `convertDatevec2Mjd`

`long int` values are unbounded integers here.  They cannot overflow: the seconds of an `int64_t` microsecond count are below `2^44` in
magnitude and every later value is smaller, apart from the year, which is below `2^20`. -/

namespace NavFuse.Rotations
open NavFuse

/-- the leap-year test, src/util/Rotations.cpp:390, 406 (`%` truncates) -/
def isLeap (y : Int) : Bool := Int.tmod y 400 == 0 || (Int.tmod y 4 == 0 && Int.tmod y 100 != 0)

/-- the table `daysOfMonth`, src/util/Rotations.cpp:377; reading outside it is undefined -/
def daysOfMonth (i : Int) : Out Int :=
  match i with
  | 0 => .ok 31 | 1 => .ok 28 | 2 => .ok 31 | 3 => .ok 30 | 4 => .ok 31 | 5 => .ok 30
  | 6 => .ok 31 | 7 => .ok 31 | 8 => .ok 30 | 9 => .ok 31 | 10 => .ok 30 | 11 => .ok 31
  | _ => Out.ub .index

/-- the loop over the years, src/util/Rotations.cpp:389-402: final `currYear` and `daysTillNow` -/
def yearLoop (currYear daysTillNow : Int) : Int × Int :=
  if isLeap currYear then
    if daysTillNow < 366 then (currYear, daysTillNow) else yearLoop (currYear + 1) (daysTillNow - 366)
  else
    if daysTillNow < 365 then (currYear, daysTillNow) else yearLoop (currYear + 1) (daysTillNow - 365)
termination_by daysTillNow.toNat

/-- the loops over the months, src/util/Rotations.cpp:410-438, from the given index on: final `month` and `extraDays`.  `fuel` bounds the
iterations; `monthLoop` supplies 13, and iteration 13 reads past the table. -/
def monthLoopF (flag : Bool) : Nat → Int → Int → Int → Out (Int × Int)
  | 0, _, _, _ => Out.ub .index
  | fuel + 1, index, month, extraDays =>
    if flag && index == 1 then                                       -- lines 414-420
      if extraDays - 29 < 0 then .ok (month, extraDays) else monthLoopF flag fuel (index + 1) (month + 1) (extraDays - 29)
    else do                                                          -- lines 420-427, 430-437
      let n ← daysOfMonth index
      if extraDays - n < 0 then .ok (month, extraDays) else monthLoopF flag fuel (index + 1) (month + 1) (extraDays - n)

/-- src/util/Rotations.cpp:410-438 -/
def monthLoop (flag : Bool) (extraDays : Int) : Out (Int × Int) := monthLoopF flag 13 0 0 extraDays

/-- the month and the day, src/util/Rotations.cpp:440-450 -/
def finishDate (flag : Bool) (month extraDays : Int) : Out (Int × Int) :=
  if extraDays > 0 then .ok (month + 1, extraDays)
  else if month == 2 && flag then .ok (month, 29)
  else do
    let n ← daysOfMonth (month - 1)
    .ok (month, n)

variable {α : Type} [Div α] [Flt α]

/-- `unixTimestampToDateVec` after the conversion to seconds, src/util/Rotations.cpp:383-468 -/
def dateVecOfSec (sec : Int) (dateVec : List α) : Out (Bool × List α) := do
  let daysTillNow := Int.tdiv sec (24 * 60 * 60)                     -- lines 384-386
  let extraTime := Int.tmod sec (24 * 60 * 60)
  let (currYear, daysTillNow) := yearLoop 1970 daysTillNow
  let extraDays := daysTillNow + 1                                   -- lines 405-408
  let flag := isLeap currYear
  let (month, extraDays) ← monthLoop flag extraDays
  let (month, date) ← finishDate flag month extraDays
  let dateVec := dateVec ++ [Flt.ofInt currYear, Flt.ofInt month, Flt.ofInt date]  -- lines 453-455
  let HH := Int.tdiv extraTime 3600                                  -- lines 458-460
  let MM := Int.tdiv (Int.tmod extraTime 3600) 60
  let SS := Int.tmod (Int.tmod extraTime 3600) 60
  .ok (true, dateVec ++ [Flt.ofInt HH, Flt.ofInt MM, Flt.ofInt SS])  -- lines 463-468

/-- `Rotations::unixTimestampToDateVec`, src/util/Rotations.cpp:370-470; `t_utc` is an `int64_t` -/
def unixTimestampToDateVec (t_utc : Int) (dateVec : List α) : Out (Bool × List α) :=
  match Flt.toLong (Flt.ofInt t_utc / Flt.lit 1000000 : α) with      -- line 374
  | none => Out.ub .overflow
  | some sec => dateVecOfSec sec dateVec

/-- `v[i]` on a `std::vector` -/
def vecGet (v : List α) (i : Nat) : Out α :=
  match v[i]? with
  | some x => .ok x
  | none => Out.ub .index

variable [Add α] [Sub α] [Mul α] [Neg α]

/-- the range checks of `convertDatevec2Mjd`, src/util/Rotations.cpp:484-500 -/
def dateBad (month day hour min sec : α) : Bool :=
  (Flt.lt (Flt.lit 12) month || Flt.lt month (Flt.lit 0)) || (Flt.lt (Flt.lit 31) day || Flt.lt day (Flt.lit 0)) ||
  (Flt.lt (Flt.lit 23) hour || Flt.lt hour (Flt.lit 0)) || (Flt.lt (Flt.lit 59) min || Flt.lt min (Flt.lit 0)) ||
  (Flt.lt (Flt.lit 59) sec || Flt.lt sec (Flt.lit 0))

/-- `MjdMidnight`, src/util/Rotations.cpp:502-517 -/
def mjdMidnight (year month day : α) : α :=
  let wrap := Flt.le month (Flt.lit 2)                               -- lines 503-506
  let year := if wrap then year - Flt.lit 1 else year
  let month := if wrap then month + Flt.lit 12 else month
  let b :=                                                           -- lines 509-514
    if Flt.le (((Flt.lit 10000 * year) + (Flt.lit 100 * month)) + day) (Flt.lit 15821004) then
      (-Flt.lit 2 + Flt.floor ((year + Flt.lit 4716) / Flt.lit 4)) - Flt.lit 1179
    else
      (Flt.floor (year / Flt.lit 400) - Flt.floor (year / Flt.lit 100)) + Flt.floor (year / Flt.lit 4)
  ((((Flt.lit 365 * year) - Flt.lit 679004) + b) + Flt.floor (Flt.lit 30.6001 * (month + Flt.lit 1))) + day  -- line 517

/-- `fracDay`, src/util/Rotations.cpp:520 -/
def fracDay (hour min sec : α) : α := ((hour + (min / Flt.lit 60)) + (sec / Flt.lit 3600)) / Flt.lit 24

/-- `Rotations::convertDatevec2Mjd`, src/util/Rotations.cpp:473-528 -/
def convertDatevec2Mjd (dateVec : List α) (mjd : α) : Out (Bool × α) := do
  let year ← vecGet dateVec 0                                        -- lines 477-482
  let month ← vecGet dateVec 1
  let day ← vecGet dateVec 2
  let hour ← vecGet dateVec 3
  let min ← vecGet dateVec 4
  let sec ← vecGet dateVec 5
  if dateBad month day hour min sec then .ok (false, mjd)
  else .ok (true, mjdMidnight year month day + fracDay hour min sec)

end NavFuse.Rotations
