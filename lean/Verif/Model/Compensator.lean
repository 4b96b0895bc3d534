import Verif.Eigen

/-! # `Compensator` (src/inertial/compensator.cpp, include/inertial/compensator.hpp)

The fixed-size members `ba_`, `sfa_`, `bg_`, `sfg_` have no initialisers and start indeterminate (`none`); the dynamically sized members `ma_`, `mg_`
start with size zero. -/

namespace NavFuse.Compensator
open NavFuse

variable {α : Type} [Add α] [Sub α] [Mul α] [Div α] [Neg α] [Flt α]

/-- read a member that may be indeterminate -/
def rd {β : Type} : Option β → Out β
  | some b => .ok b
  | none => Out.ub .uninit

/-- the data members, include/inertial/compensator.hpp:106-111 -/
structure St (α : Type) where
  ba : Option (V3 α) := none
  ma : DVec α := ⟨0, nofun⟩
  sfa : Option (V3 α) := none
  bg : Option (V3 α) := none
  mg : DVec α := ⟨0, nofun⟩
  sfg : Option (V3 α) := none

/-- `Compensator::setAccelerometerErrors`, src/inertial/compensator.cpp:15-34 -/
def setAccelerometerErrors (s : St α) (baEst : V3 α) (maEst : DVec α) (sfaEst : V3 α) : Bool × St α :=
  if maEst.n ≠ 6 then (false, s)                                                     -- lines 20-24
  else (true, { s with ba := some baEst, ma := maEst, sfa := some sfaEst })          -- lines 27-32

/-- `Compensator::setGyroscopeErrors`, src/inertial/compensator.cpp:37-56 -/
def setGyroscopeErrors (s : St α) (bgEst : V3 α) (mgEst : DVec α) (sfgEst : V3 α) : Bool × St α :=
  if mgEst.n ≠ 6 then (false, s)                                                     -- lines 42-46
  else (true, { s with bg := some bgEst, mg := mgEst, sfg := some sfgEst })          -- lines 49-54

/-- `Compensator::getAccelerometerErrors`, src/inertial/compensator.cpp:59-78; returns the `bool` and the new values of the three arguments -/
def getAccelerometerErrors (s : St α) (baEst : V3 α) (maEst : DVec α) (sfaEst : V3 α) : Out (Bool × V3 α × DVec α × V3 α) :=
  if maEst.n ≠ 6 then .ok (false, baEst, maEst, sfaEst)                              -- lines 64-68
  else do
    let b ← rd s.ba                                                                  -- lines 71-76
    let f ← rd s.sfa
    return (true, b, s.ma, f)

/-- `Compensator::getGyroscopeErrors`, src/inertial/compensator.cpp:81-100 -/
def getGyroscopeErrors (s : St α) (bgEst : V3 α) (mgEst : DVec α) (sfgEst : V3 α) : Out (Bool × V3 α × DVec α × V3 α) :=
  if mgEst.n ≠ 6 then .ok (false, bgEst, mgEst, sfgEst)                              -- lines 86-90
  else do
    let b ← rd s.bg                                                                  -- lines 93-98
    let f ← rd s.sfg
    return (true, b, s.mg, f)

/-- the arithmetic of `Compensator::compensateMeasurement`, src/inertial/compensator.cpp:149-165 -/
def applyErrors (b : V3 α) (m : DVec α) (sf : V3 α) (meas : V3 α) : Out (Bool × V3 α) := do
  let SF : M3 α := !![sf 0, Flt.lit 0, Flt.lit 0;                                    -- lines 150-153
                      Flt.lit 0, sf 1, Flt.lit 0;
                      Flt.lit 0, Flt.lit 0, sf 2]
  let m0 ← m.get 0                                                                   -- lines 156-159
  let m1 ← m.get 1
  let m2 ← m.get 2
  let m3 ← m.get 3
  let m4 ← m.get 4
  let m5 ← m.get 5
  let MIS : M3 α := !![Flt.lit 1, m0, m1;
                       m2, Flt.lit 1, m3;
                       m4, m5, Flt.lit 1]
  return (true, mvec (mmul SF MIS) (vsub meas b))                                    -- lines 162-165

/-- `Compensator::compensateMeasurement`, src/inertial/compensator.cpp:133-167.  An unknown `measType` (never passed) leaves `b` and `sf` indeterminate. -/
def compensateMeasurement (s : St α) (meas : V3 α) (measType : String) : Out (Bool × V3 α) :=
  if measType = "accel" then do                                                      -- lines 139-142
    let b ← rd s.ba
    let sf ← rd s.sfa
    applyErrors b s.ma sf meas
  else if measType = "gyro" then do                                                  -- lines 143-147
    let b ← rd s.bg
    let sf ← rd s.sfg
    applyErrors b s.mg sf meas
  else Out.ub .uninit

/-- `Compensator::compensateAccelerometer`, src/inertial/compensator.cpp:103-115; returns the `bool` and the new measurement -/
def compensateAccelerometer (s : St α) (dV : V3 α) : Out (Bool × V3 α) := do
  let r ← compensateMeasurement s dV "accel"
  if !r.1 then .ok (false, r.2) else .ok (true, r.2)

/-- `Compensator::compensateGyroscope`, src/inertial/compensator.cpp:118-130 -/
def compensateGyroscope (s : St α) (dTh : V3 α) : Out (Bool × V3 α) := do
  let r ← compensateMeasurement s dTh "gyro"
  if !r.1 then .ok (false, r.2) else .ok (true, r.2)

end NavFuse.Compensator
