import Verif.Model.Refs
import Verif.Model.Attitude
import Verif.Model.Eop
import Verif.Model.Init
import Verif.Model.J2000
import Verif.Model.Pva

/-! # Further calls on references

As `Verif/Model/Refs.lean`, for the remaining functions whose outputs can share memory with an input or with each other. A `double &` that is only
read is a function of the memory, evaluated where the code reads it, so that it may refer to any coefficient. -/

namespace NavFuse.Refs
open Gravity Kalman Rotations

variable {α : Type} [Add α] [Sub α] [Mul α] [Div α] [Neg α] [Flt α]

/-- `Gravity::gravityNed` on references, src/util/Gravity.cpp:29-62 -/
def gravityNed (lat h gN : Nat) (m : Mem α) : Bool × Mem α :=
  let clat := Flt.cos (m lat)                                        -- lines 34-41
  let slat := Flt.sin (m lat)
  let w : α := Flt.powi wE 2 * Flt.powi a 2 * b / kM
  let num := (a * gEq * Flt.powi clat 2) + (b * gPole * Flt.powi slat 2)
  let den := Flt.sqrt ((Flt.powi a 2 * Flt.powi clat 2) + (Flt.powi b 2 * Flt.powi slat 2))
  let gEarthEll := num / den
  let gDown := gEarthEll * (Flt.lit 1 - ((Flt.lit 2 / a) * (Flt.lit 1 + f + w - (Flt.lit 2 * f * Flt.powi slat 2)) * m h)
      + (Flt.lit 3 * Flt.powi (m h) 2 / Flt.powi a 2))               -- line 49
  let gNorth := -Flt.lit 8.08 * Flt.lit 1e-6 * (m h / Flt.lit 1000) * Flt.sin (Flt.lit 2 * m lat)  -- line 52
  let m := m.set gN gNorth                                           -- line 55
  let m := m.set (gN + 1) (Flt.lit 0)
  let m := m.set (gN + 2) gDown
  (true, m)

/-- assignment of the coefficient of a `Matrix3d` at `R`, stored column by column -/
def set33 (R : Nat) (i j : Nat) (x : α) (m : Mem α) : Mem α := m.set (R + (i + 3 * j)) x

/-- a comma initialisation of a `Matrix3d` writes row by row -/
def fill33 (R : Nat) (A : M3 α) (m : Mem α) : Mem α :=
  let m := set33 R 0 2 (A 0 2) (set33 R 0 1 (A 0 1) (set33 R 0 0 (A 0 0) m))
  let m := set33 R 1 2 (A 1 2) (set33 R 1 1 (A 1 1) (set33 R 1 0 (A 1 0) m))
  set33 R 2 2 (A 2 2) (set33 R 2 1 (A 2 1) (set33 R 2 0 (A 2 0) m))

/-- `Rotations::computeREcef2Ned` on references, src/util/Rotations.cpp:14-43 -/
def computeREcef2Ned (lat lon R : Nat) (m : Mem α) : Bool × Mem α :=
  if latLonBad (m lat) (m lon) then (false, m)
  else
    let slat := Flt.sin (m lat)
    let clat := Flt.cos (m lat)
    let slon := Flt.sin (m lon)
    let clon := Flt.cos (m lon)
    (true, fill33 R !![-slat * clon, -slat * slon, clat; -slon, clon, Flt.lit 0; -clat * clon, -clat * slon, -slat] m)

/-- `Rotations::computeRNed2Ecef` on references, src/util/Rotations.cpp:46-75 -/
def computeRNed2Ecef (lat lon R : Nat) (m : Mem α) : Bool × Mem α :=
  if latLonBad (m lat) (m lon) then (false, m)
  else
    let slat := Flt.sin (m lat)
    let clat := Flt.cos (m lat)
    let slon := Flt.sin (m lon)
    let clon := Flt.cos (m lon)
    (true, fill33 R !![-slat * clon, -slon, -clat * clon; -slat * slon, clon, -clat * slon; clat, Flt.lit 0, -slat] m)

/-- `Rotations::nutationAngles` on references, src/util/Rotations.cpp:663-817: the sums are accumulated in the outputs -/
def nutationAngles (mjdTt dpsi deps : Nat) (m : Mem α) : Bool × Mem α :=
  let T := (m mjdTt - mjdJ2000) / Flt.lit 36525                      -- line 668
  let A := argPolys T
  let l := reduceRev A.1                                             -- lines 781-800
  let lp := reduceRev A.2.1
  let F := reduceRev A.2.2.1
  let D := reduceRev A.2.2.2.1
  let Om := reduceRev A.2.2.2.2
  let m := m.set dpsi (Flt.lit 0)                                    -- lines 803-804
  let m := m.set deps (Flt.lit 0)
  let m := nutTable.foldl (fun m c =>                                -- lines 806-810
    let arg := nutArg l lp F D Om c
    let m := m.set dpsi (m dpsi + ((Flt.ofInt c.c5 + (Flt.ofInt c.c6 * T)) * Flt.sin arg))
    m.set deps (m deps + ((Flt.ofInt c.c7 + (Flt.ofInt c.c8 * T)) * Flt.cos arg))) m
  let m := m.set dpsi ((Flt.lit 0.00001 * m dpsi) / arcs)            -- lines 811-812
  let m := m.set deps ((Flt.lit 0.00001 * m deps) / arcs)
  (true, m)

/-- `Rotations::getCurrentEop` on references, src/util/Rotations.cpp:820-876 -/
def getCurrentEop (obj : Obj α) (mjd xPole yPole ut1Utc lod taiUtc : Nat) (m : Mem α) : Out (Bool × Mem α) :=
  if !obj.eopsSet then .ok (false, m)
  else
    let E := obj.eops
    let mjdStart := Flt.floor (m mjd)                                -- line 834
    match E.mjd.findIdx? (fun d => Flt.eq d mjdStart) with
    | none => .ok (false, m)
    | some idx => do
      let preX ← colGet E.xPole idx                                  -- lines 850-854
      let preY ← colGet E.yPole idx
      let preU ← colGet E.ut1Utc idx
      let preL ← colGet E.lod idx
      let preT ← colGet E.taiUtc idx
      let idx := if idx = E.mjd.length - 1 then idx else idx + 1
      let postX ← colGet E.xPole idx                                 -- lines 858-861
      let postY ← colGet E.yPole idx
      let postU ← colGet E.ut1Utc idx
      let postL ← colGet E.lod idx
      let fixf := m mjd - mjdStart                                   -- line 864
      let m := m.set xPole ((preX + ((postX - preX) * fixf)) / arcs) -- lines 867-871
      let m := m.set yPole ((preY + ((postY - preY) * fixf)) / arcs)
      let m := m.set ut1Utc (preU + ((postU - preU) * fixf))
      let m := m.set lod (preL + ((postL - preL) * fixf))
      let m := m.set taiUtc preT
      .ok (true, m)

/-- `Attitude::computeQuaternionFromRotationVec` on references, src/util/Attitude.cpp:116-146 -/
def computeQuaternionFromRotationVec (phi q : Nat) (s : Store α) : Out (Bool × Store α) :=
  if (s.vec phi).n ≠ 3 then .ok (false, s)
  else if (s.vec q).n ≠ 4 then .ok (false, s)
  else do
    let p0 ← (s.vec phi).get 0
    let p1 ← (s.vec phi).get 1
    let p2 ← (s.vec phi).get 2
    let phiMag := Flt.sqrt ((p0 * p0) + (p1 * p1) + (p2 * p2))       -- lines 131-135
    let q0 := Flt.cos (phiMag / Flt.lit 2)
    let q1 := (Flt.lit 1 / phiMag) * Flt.sin (phiMag / Flt.lit 2) * p0
    let q2 := (Flt.lit 1 / phiMag) * Flt.sin (phiMag / Flt.lit 2) * p1
    let q3 := (Flt.lit 1 / phiMag) * Flt.sin (phiMag / Flt.lit 2) * p2
    let v ← (s.vec q).set 0 q0                                       -- lines 138-141
    let s := s.setVec q v
    let v ← (s.vec q).set 1 q1
    let s := s.setVec q v
    let v ← (s.vec q).set 2 q2
    let s := s.setVec q v
    let v ← (s.vec q).set 3 q3
    let s := s.setVec q v
    return (true, s)

/-- `Initialization::fineAlignmentPredict` on references, src/inertial/initialization.cpp:47-102. The locals `Phik` and `Qk` live at addresses of their
own and are gone afterwards. -/
def fineAlignmentPredict (lat wE g r : Store α → α) (xk Pk xkp1 Pkp1 : Nat) (s : Store α) : Out (Bool × Store α) :=
  let numStates := (s.vec xk).n
  if (s.mat Pk).r ≠ numStates ∨ (s.mat Pk).c ≠ numStates then .ok (false, s)
  else if (s.vec xkp1).n ≠ numStates then .ok (false, s)
  else if (s.mat Pkp1).r ≠ numStates ∨ (s.mat Pkp1).c ≠ numStates then .ok (false, s)
  else do
    let Phik := Pk + Pkp1 + 1
    let Qk := Pk + Pkp1 + 2
    let t := (s.setMat Phik ⟨8, 8, Init.phi (lat s) (wE s) (g s) (r s)⟩).setMat Qk (DMat.zero numStates numStates)
    let res ← filterPredictS xk Pk Phik Qk xkp1 Pkp1 t               -- line 94
    let t := (res.2.setMat Phik (s.mat Phik)).setMat Qk (s.mat Qk)
    if !res.1 then .ok (false, t) else .ok (true, t)

/-- `Initialization::fineAlignmentAzimuthUpdate` on references, src/inertial/initialization.cpp:105-155 -/
def fineAlignmentAzimuthUpdate (L : LinSolver α) (azMeas dtAz azEst sigAz : Store α → α) (xk Pk xkp1 Pkp1 : Nat) (s : Store α) : Out (Bool × Store α) :=
  let numStates := (s.vec xk).n
  if (s.mat Pk).r ≠ numStates ∨ (s.mat Pk).c ≠ numStates then .ok (false, s)
  else if (s.vec xkp1).n ≠ numStates then .ok (false, s)
  else if (s.mat Pkp1).r ≠ numStates ∨ (s.mat Pkp1).c ≠ numStates then .ok (false, s)
  else do
    let azRes := azMeas s - azEst s                                  -- lines 133-136
    let sASq := sigAz s * sigAz s
    let o := Flt.lit 0
    let z := xk + xkp1 + 1
    let H := Pk + Pkp1 + 1
    let R := Pk + Pkp1 + 2
    let t := ((s.setVec z ⟨1, ![azRes]⟩).setMat H ⟨1, 8, !![o, o, Flt.lit 1, o, o, o, o, o]⟩).setMat R ⟨1, 1, !![sASq * dtAz s]⟩
    let res ← filterUpdateS L xk Pk z H R xkp1 Pkp1 t                -- line 147
    let t := ((res.2.setVec z (s.vec z)).setMat H (s.mat H)).setMat R (s.mat R)
    if !res.1 then .ok (false, t) else .ok (true, t)

/-- `Initialization::fineAlignmentVelocityUpdate` on references, src/inertial/initialization.cpp:158-206; `velMeas` is passed by value -/
def fineAlignmentVelocityUpdate (L : LinSolver α) (velMeas : Fin 2 → α) (dtVel sigVel : Store α → α) (xk Pk xkp1 Pkp1 : Nat) (s : Store α) :
    Out (Bool × Store α) :=
  let numStates := (s.vec xk).n
  if (s.mat Pk).r ≠ numStates ∨ (s.mat Pk).c ≠ numStates then .ok (false, s)
  else if (s.vec xkp1).n ≠ numStates then .ok (false, s)
  else if (s.mat Pkp1).r ≠ numStates ∨ (s.mat Pkp1).c ≠ numStates then .ok (false, s)
  else do
    let sVSq := sigVel s * sigVel s                                  -- line 185
    let o := Flt.lit 0
    let z := xk + xkp1 + 1
    let H := Pk + Pkp1 + 1
    let R := Pk + Pkp1 + 2
    let t := ((s.setVec z ⟨2, ![velMeas 0, velMeas 1]⟩).setMat H ⟨2, 8, !![o, o, o, o, o, o, Flt.lit 1, o; o, o, o, o, o, o, o, Flt.lit 1]⟩).setMat R
      ⟨2, 2, !![sVSq * dtVel s, o; o, sVSq * dtVel s]⟩
    let res ← filterUpdateS L xk Pk z H R xkp1 Pkp1 t                -- line 198
    let t := ((res.2.setVec z (s.vec z)).setMat H (s.mat H)).setMat R (s.mat R)
    if !res.1 then .ok (false, t) else .ok (true, t)

/-- assignment to a 3x3 block of a matrix object -/
def setBlock (A : Nat) (p q : Nat) (B : M3 α) (s : Store α) : Out (Store α) := do
  let M ← (s.mat A).setBlock3 p q B
  return s.setMat A M

/-- `PvaErrorDynamics::inertialErrorDynamics` on references, src/inertial/pvaErrorDynamics.cpp:15-63; the inputs are fixed-size objects, which cannot
lie inside the dynamic matrices `F` and `G` -/
def inertialErrorDynamics (aI : V3 α) (GI RS2I : M3 α) (F G : Nat) (s : Store α) : Out (Bool × Store α) :=
  if (s.mat F).r ≠ 9 ∨ (s.mat F).c ≠ 9 then .ok (false, s)
  else if (s.mat G).r ≠ 9 ∨ (s.mat G).c ≠ 9 then .ok (false, s)
  else do
    let s := s.setMat F (DMat.zero 9 9)                              -- lines 33-34
    let s := s.setMat G (DMat.zero 9 9)
    let aX := NavUtils.skewSymmetric aI
    if !aX.1 then .ok (false, s) else do
    let s ← setBlock F 3 0 aX.2 s                                    -- line 43
    let s ← setBlock F 6 3 mid s                                     -- line 46
    let s ← setBlock F 3 6 GI s                                      -- line 49
    let s ← setBlock G 0 0 (mneg RS2I) s                             -- line 52
    let s ← setBlock G 3 3 RS2I s                                    -- line 55
    let s ← setBlock G 3 6 mid s                                     -- line 58
    return (true, s)

/-- `PvaErrorDynamics::ecefErrorDynamics` on references, src/inertial/pvaErrorDynamics.cpp:66-121 -/
def ecefErrorDynamics (aE : V3 α) (GE RS2E OEI_E : M3 α) (F G : Nat) (s : Store α) : Out (Bool × Store α) :=
  if (s.mat F).r ≠ 9 ∨ (s.mat F).c ≠ 9 then .ok (false, s)
  else if (s.mat G).r ≠ 9 ∨ (s.mat G).c ≠ 9 then .ok (false, s)
  else do
    let s := s.setMat F (DMat.zero 9 9)                              -- lines 85-86
    let s := s.setMat G (DMat.zero 9 9)
    let s ← setBlock F 0 0 (mneg OEI_E) s                            -- line 89
    let aX := NavUtils.skewSymmetric aE
    if !aX.1 then .ok (false, s) else do
    let s ← setBlock F 3 0 aX.2 s                                    -- line 98
    let s ← setBlock F 3 3 (msmul (-Flt.lit 2) OEI_E) s              -- line 101
    let s ← setBlock F 6 3 mid s                                     -- line 104
    let s ← setBlock F 3 6 (mneg (msub (mmul OEI_E OEI_E) GE)) s     -- line 107
    let s ← setBlock G 0 0 (mneg RS2E) s                             -- line 110
    let s ← setBlock G 3 3 RS2E s                                    -- line 113
    let s ← setBlock G 3 6 mid s                                     -- line 116
    return (true, s)

/-- `PvaErrorDynamics::nedErrorDynamics` on references, src/inertial/pvaErrorDynamics.cpp:124-240 -/
def nedErrorDynamics (aN : V3 α) (GN RS2N : M3 α) (lla llaDot llaDDot : V3 α) (F G : Nat) (s : Store α) : Out (Bool × Store α) :=
  if (s.mat F).r ≠ 9 ∨ (s.mat F).c ≠ 9 then .ok (false, s)
  else if (s.mat G).r ≠ 9 ∨ (s.mat G).c ≠ 9 then .ok (false, s)
  else do
    let A ← (s.mat F).fill (Pva.nedF aN GN lla llaDot llaDDot)       -- lines 210-218
    let s := s.setMat F A
    let Dinv := inv3 (Pva.nedD lla)                                  -- line 225
    let s := s.setMat G (DMat.zero 9 9)                              -- line 228
    let s ← setBlock G 0 0 (mneg RS2N) s                             -- line 229
    let s ← setBlock G 3 3 (mmul Dinv RS2N) s                        -- line 232
    let s ← setBlock G 3 6 Dinv s                                    -- line 235
    return (true, s)

end NavFuse.Refs
