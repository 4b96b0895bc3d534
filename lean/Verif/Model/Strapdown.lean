import Verif.Model.NavUtils
import Verif.Model.Attitude

/-! # `Strapdown` (src/inertial/strapdown.cpp, include/inertial/strapdown.hpp)

The data members have no initialisers, so each starts indeterminate (`none`); reading an indeterminate member, also to copy it, is
undefined behaviour.  The utility members `NavUtil_`, `Attitude_` and `Gravity_` carry no state that the modelled functions change. -/

namespace NavFuse.Strapdown
open NavFuse

variable {α : Type} [Add α] [Sub α] [Mul α] [Div α] [Neg α] [Flt α]

/-- read a member that may be indeterminate -/
def rd {β : Type} : Option β → Out β
  | some b => .ok b
  | none => Out.ub .uninit

/-- `a - b` on `int64_t`; out of range is undefined -/
def sub64 (a b : Int) : Out Int := if -2 ^ 63 ≤ a - b ∧ a - b < 2 ^ 63 then .ok (a - b) else Out.ub .overflow

/-- the data members, include/inertial/strapdown.hpp:26-30, 68-71 -/
structure St (α : Type) where
  lla : Option (V3 α) := none
  vNed : Option (V3 α) := none
  RB2N : Option (M3 α) := none
  tov : Option Int := none
  dt : Option α := none
  llaPrev : Option (V3 α) := none
  vNedPrev : Option (V3 α) := none
  RB2NPrev : Option (M3 α) := none
  tovPrev : Option Int := none

/-- `Strapdown::initialize`, src/inertial/strapdown.cpp:15-38 -/
def init (s : St α) (lla vNed rph : V3 α) (tov : Int) : Bool × St α :=
  let s := { s with lla := some lla, vNed := some vNed, tov := some tov }          -- lines 21-23
  let r := Attitude.euler2Dcm rph                                                  -- line 24
  let s := { s with RB2N := some r.2 }
  if !r.1 then (false, s)                                                          -- lines 25-26
  else (true, { s with llaPrev := some lla, vNedPrev := some vNed, RB2NPrev := some r.2, tovPrev := some tov })   -- lines 30-36

/-- `Strapdown::updateAttitude`, src/inertial/strapdown.cpp:88-109 -/
def updateAttitude (s : St α) (dTh : V3 α) : Out (Bool × St α) := do
  let dThMag := vnorm dTh                                                          -- line 91
  let sk := NavUtils.skewSymmetric dTh                                             -- lines 92-96
  if !sk.1 then .ok (false, s) else do
  let dThX := sk.2
  let B1 := msmul (Flt.sin dThMag / dThMag) dThX                                   -- line 99
  let B2 := mmul (msmul ((Flt.lit 1 - Flt.cos dThMag) / (dThMag * dThMag)) dThX) dThX   -- line 100
  let B := madd (madd mid B1) B2                                                   -- line 101
  let Rp ← rd s.RB2NPrev
  return (true, { s with RB2N := some (mmul Rp B) })                               -- lines 104-107

/-- first statements of `Strapdown::integrate`, src/inertial/strapdown.cpp:46-49 -/
def keepPrev (s : St α) : Out (St α) := do
  let lla ← rd s.lla
  let vNed ← rd s.vNed
  let RB2N ← rd s.RB2N
  let tov ← rd s.tov
  return { s with llaPrev := some lla, vNedPrev := some vNed, RB2NPrev := some RB2N, tovPrev := some tov }

/-- time stamp and interval in `Strapdown::integrate`, src/inertial/strapdown.cpp:52-53 -/
def stamp (s : St α) (tov : Int) : Out (St α) := do
  let tovPrev ← rd s.tovPrev
  let d ← sub64 tov tovPrev
  return { s with tov := some tov, dt := some (Flt.ofInt d / Flt.lit 1e6) }

/-- position and velocity part of `Strapdown::integrate`, src/inertial/strapdown.cpp:61-83 -/
def advance (s : St α) (dV : V3 α) : Out (Bool × St α) := do
  let R ← rd s.RB2N                                                                -- line 62
  let dVN := mvec R dV
  let lla ← rd s.lla                                                               -- lines 65-69
  let g := Gravity.gravityNed (lla 0) (lla 2)
  if !g.1 then .ok (false, s) else do
  let p ← rd s.llaPrev                                                             -- lines 72-73
  let v ← rd s.vNedPrev
  let dt ← rd s.dt
  let r ← NavUtils.strapdownRk4 ⟨6, ![p 0, p 1, p 2, v 0, v 1, v 2]⟩ dt dVN g.2 (DVec.zero 6)   -- lines 74-78
  if !r.1 then .ok (false, s) else do
  let y0 ← r.2.get 0                                                               -- lines 79-80
  let y1 ← r.2.get 1
  let y2 ← r.2.get 2
  let y3 ← r.2.get 3
  let y4 ← r.2.get 4
  let y5 ← r.2.get 5
  return (true, { s with lla := some ![y0, y1, y2], vNed := some ![y3, y4, y5] })

/-- `Strapdown::integrate`, src/inertial/strapdown.cpp:41-85 -/
def integrate (s : St α) (dV dTh : V3 α) (tov : Int) : Out (Bool × St α) := do
  let s ← keepPrev s                                                               -- lines 46-49
  let s ← stamp s tov                                                              -- lines 52-53
  let u ← updateAttitude s dTh                                                     -- lines 56-59
  if !u.1 then .ok (false, u.2) else advance u.2 dV                                -- lines 61-83

end NavFuse.Strapdown
