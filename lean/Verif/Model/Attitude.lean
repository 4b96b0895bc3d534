import Verif.Eigen

/-! # Model of src/util/Attitude.cpp

Every function returns its `bool` together with the new value of its output parameter.  The console messages are not modelled. -/

set_option linter.unusedSectionVars false

namespace NavFuse.Attitude

variable {α : Type} [Add α] [Sub α] [Mul α] [Div α] [Neg α] [Flt α]

/-- `Attitude::computeDcmFromQuaternion`, src/util/Attitude.cpp:15-57 -/
def computeDcmFromQuaternion (qA2B : DVec α) (RA2B : DMat α) : Out (Bool × DMat α) :=
  if qA2B.n ≠ 4 then .ok (false, RA2B)                                           -- lines 19-22
  else if RA2B.r ≠ 3 ∨ RA2B.c ≠ 3 then .ok (false, RA2B)                         -- lines 23-27
  else do
    let q0 ← qA2B.get 0                                                          -- lines 30-33
    let q1 ← qA2B.get 1
    let q2 ← qA2B.get 2
    let q3 ← qA2B.get 3
    let den := (q0 * q0) + (q1 * q1) + (q2 * q2) + (q3 * q3)                     -- line 36
    let R11 := ((q0 * q0) + (q1 * q1) - (q2 * q2) - (q3 * q3)) / den             -- lines 39-47
    let R12 := (Flt.lit 2 * ((q1 * q2) + (q0 * q3))) / den
    let R13 := (Flt.lit 2 * ((q1 * q3) - (q0 * q2))) / den
    let R21 := (Flt.lit 2 * ((q1 * q2) - (q0 * q3))) / den
    let R22 := ((q0 * q0) - (q1 * q1) + (q2 * q2) - (q3 * q3)) / den
    let R23 := (Flt.lit 2 * ((q2 * q3) + (q0 * q1))) / den
    let R31 := (Flt.lit 2 * ((q1 * q3) + (q0 * q2))) / den
    let R32 := (Flt.lit 2 * ((q2 * q3) - (q0 * q1))) / den
    let R33 := ((q0 * q0) - (q1 * q1) - (q2 * q2) + (q3 * q3)) / den
    let R ← RA2B.fill !![R11, R12, R13; R21, R22, R23; R31, R32, R33]            -- lines 50-52
    return (true, R)

/-- `v *= s`, coefficient-wise -/
def scaleBy (v : DVec α) (s : α) : DVec α := ⟨v.n, fun i => v.v i * s⟩

/-- `Attitude::computeQuaternionFromDcm`, src/util/Attitude.cpp:60-113 -/
def computeQuaternionFromDcm (RA2B : DMat α) (qA2B : DVec α) : Out (Bool × DVec α) :=
  if qA2B.n ≠ 4 then .ok (false, qA2B)                                           -- lines 64-67
  else if RA2B.r ≠ 3 ∨ RA2B.c ≠ 3 then .ok (false, qA2B)                         -- lines 68-72
  else do
    let R11 ← RA2B.get 0 0                                                       -- lines 75-83
    let R12 ← RA2B.get 0 1
    let R13 ← RA2B.get 0 2
    let R21 ← RA2B.get 1 0
    let R22 ← RA2B.get 1 1
    let R23 ← RA2B.get 1 2
    let R31 ← RA2B.get 2 0
    let R32 ← RA2B.get 2 1
    let R33 ← RA2B.get 2 2
    let qSq0 := Flt.lit 0.25 * (Flt.lit 1 + R11 + R22 + R33)                     -- lines 86-89
    let qSq1 := Flt.lit 0.25 * (Flt.lit 1 + R11 - R22 - R33)
    let qSq2 := Flt.lit 0.25 * (Flt.lit 1 - R11 + R22 - R33)
    let qSq3 := Flt.lit 0.25 * (Flt.lit 1 - R11 - R22 + R33)
    if Flt.lt qSq1 qSq0 && Flt.lt qSq2 qSq0 && Flt.lt qSq3 qSq0 then do          -- lines 92-95
      let q0 := Flt.sqrt qSq0
      let q ← qA2B.fill ![Flt.lit 4 * Flt.powi q0 2, R23 - R32, R31 - R13, R12 - R21]
      return (true, scaleBy q (Flt.lit 1 / (Flt.lit 4 * q0)))
    else if Flt.lt qSq0 qSq1 && Flt.lt qSq2 qSq1 && Flt.lt qSq3 qSq1 then do     -- lines 96-99
      let q1 := Flt.sqrt qSq1
      let q ← qA2B.fill ![R23 - R32, Flt.lit 4 * Flt.powi q1 2, R12 + R21, R31 + R13]
      return (true, scaleBy q (Flt.lit 1 / (Flt.lit 4 * q1)))
    else if Flt.lt qSq0 qSq2 && Flt.lt qSq1 qSq2 && Flt.lt qSq3 qSq2 then do     -- lines 100-103
      let q2 := Flt.sqrt qSq2
      let q ← qA2B.fill ![R31 - R13, R12 + R21, Flt.lit 4 * Flt.powi q2 2, R23 + R32]
      return (true, scaleBy q (Flt.lit 1 / (Flt.lit 4 * q2)))
    else do                                                                      -- lines 104-108
      let q3 := Flt.sqrt qSq3
      let q ← qA2B.fill ![R12 - R21, R31 + R13, R23 + R32, Flt.lit 4 * Flt.powi q3 2]
      return (true, scaleBy q (Flt.lit 1 / (Flt.lit 4 * q3)))

/-- `Attitude::computeQuaternionFromRotationVec`, src/util/Attitude.cpp:116-146 -/
def computeQuaternionFromRotationVec (phi qA2B : DVec α) : Out (Bool × DVec α) :=
  if phi.n ≠ 3 then .ok (false, qA2B)                                            -- lines 120-123
  else if qA2B.n ≠ 4 then .ok (false, qA2B)                                      -- lines 124-128
  else do
    let p0 ← phi.get 0
    let p1 ← phi.get 1
    let p2 ← phi.get 2
    let phiMag := Flt.sqrt ((p0 * p0) + (p1 * p1) + (p2 * p2))                   -- line 131
    let q0 := Flt.cos (phiMag / Flt.lit 2)                                       -- lines 132-135
    let q1 := (Flt.lit 1 / phiMag) * Flt.sin (phiMag / Flt.lit 2) * p0
    let q2 := (Flt.lit 1 / phiMag) * Flt.sin (phiMag / Flt.lit 2) * p1
    let q3 := (Flt.lit 1 / phiMag) * Flt.sin (phiMag / Flt.lit 2) * p2
    let q ← qA2B.set 0 q0                                                        -- lines 138-141
    let q ← q.set 1 q1
    let q ← q.set 2 q2
    let q ← q.set 3 q3
    return (true, q)

/-- `Attitude::computeRotationVecFromQuaternion`, src/util/Attitude.cpp:149-188 -/
def computeRotationVecFromQuaternion (qA2B phi : DVec α) : Out (Bool × DVec α) :=
  if phi.n ≠ 3 then .ok (false, phi)                                             -- lines 153-156
  else if qA2B.n ≠ 4 then .ok (false, phi)                                       -- lines 157-161
  else do
    let q1 ← qA2B.get 1
    let q2 ← qA2B.get 2
    let q3 ← qA2B.get 3
    let q0 ← qA2B.get 0
    let quatVec : V3 α := ![q1, q2, q3]                                          -- lines 164-165
    let quatVec : V3 α := if Flt.lt q0 (Flt.lit 0) then (fun i => quatVec i * Flt.lit (-1)) else quatVec  -- lines 166-168
    let length := vnorm quatVec                                                  -- line 171
    let r : α × V3 α :=                                                          -- lines 174-180
      if Flt.lt (Flt.lit 1.0e-6) length then (Flt.lit (-2) * Flt.asin length, vdiv quatVec length)
      else (Flt.lit 0, ![Flt.lit 1, Flt.lit 0, Flt.lit 0])
    return (true, ⟨3, vsmul r.1 r.2⟩)                                            -- line 183

/-- `Attitude::buildQuaternionEquivalent`, src/util/Attitude.cpp:191-220 -/
def buildQuaternionEquivalent (qA2B : DVec α) (QA2B : DMat α) : Out (Bool × DMat α) :=
  if qA2B.n ≠ 4 then .ok (false, QA2B)                                           -- lines 195-198
  else if QA2B.r ≠ 4 ∨ QA2B.c ≠ 4 then .ok (false, QA2B)                         -- lines 199-203
  else do
    let q0 ← qA2B.get 0                                                          -- lines 206-209
    let q1 ← qA2B.get 1
    let q2 ← qA2B.get 2
    let q3 ← qA2B.get 3
    let Q ← QA2B.fill !![q0, -q1, -q2, -q3;                                      -- lines 212-215
                         q1, q0, -q3, q2;
                         q2, q3, q0, -q1;
                         q3, -q2, q1, q0]
    return (true, Q)

/-- `Attitude::euler2Dcm`, src/util/Attitude.cpp:223-255. The parameters have fixed size, so nothing can go wrong. -/
def euler2Dcm (euler : V3 α) : Bool × M3 α :=
  let e1 := euler 0                                                              -- lines 227-229
  let e2 := euler 1
  let e3 := euler 2
  let R3 : M3 α := !![Flt.cos e3, Flt.sin e3, Flt.lit 0;                         -- lines 232-235
                      -Flt.sin e3, Flt.cos e3, Flt.lit 0;
                      Flt.lit 0, Flt.lit 0, Flt.lit 1]
  let R2 : M3 α := !![Flt.cos e2, Flt.lit 0, -Flt.sin e2;                        -- lines 238-241
                      Flt.lit 0, Flt.lit 1, Flt.lit 0;
                      Flt.sin e2, Flt.lit 0, Flt.cos e2]
  let R1 : M3 α := !![Flt.lit 1, Flt.lit 0, Flt.lit 0;                           -- lines 244-247
                      Flt.lit 0, Flt.cos e1, Flt.sin e1;
                      Flt.lit 0, -Flt.sin e1, Flt.cos e1]
  (true, mmul (mmul R1 R2) R3)                                                   -- line 250

/-- `Attitude::dcm2Euler`, src/util/Attitude.cpp:258-295 -/
def dcm2Euler (RB2N : M3 α) (euler : V3 α) : Bool × V3 α :=
  let R11 := RB2N 0 0                                                            -- lines 262-266
  let R12 := RB2N 0 1
  let R13 := RB2N 0 2
  let R23 := RB2N 1 2
  let R33 := RB2N 2 2
  if Flt.lt (Flt.abs R11) (Flt.lit 1e-9) || Flt.lt (Flt.abs R33) (Flt.lit 1e-9) then (false, euler)   -- lines 269-272
  else if Flt.lt (Flt.lit 1) R13 || Flt.lt R13 (Flt.lit (-1)) then (false, euler)                     -- lines 275-278
  else
    let roll := Flt.atan (R23 / R33)                                             -- line 281
    let pitch := -Flt.asin R13                                                   -- line 284
    let hdg := Flt.atan (R12 / R11)                                              -- line 287
    let hdg := if Flt.lt hdg (Flt.lit 0) then hdg + Flt.pi else hdg              -- lines 288-290
    (true, ![roll, pitch, hdg])

end NavFuse.Attitude
