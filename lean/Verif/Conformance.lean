import Verif.Model.Attitude
import Verif.Model.Compensator
import Verif.Model.Geodesy
import Verif.Model.Gravity
import Verif.Model.Init
import Verif.Model.J2000
import Verif.Model.Kalman
import Verif.Model.LeastSquares
import Verif.Model.NavUtils
import Verif.Model.Pva
import Verif.Model.Strapdown

/-! # Conformance checks: the model at `Float` against the repository's unit tests

These are tests of the model, not proofs of properties: no property in `MANIFEST.json` cites this file.  The definitions of
`Verif/Model` are run on IEEE doubles with the inputs of the numerical unit tests in `/repo/test`, and compared with the results that
those tests expect, at the tests' own tolerance.  They guard against slips of transcription that would make the theorems be about
another program. -/

namespace NavFuse.Conformance
open NavFuse

/-- `double` -/
instance : Flt Float where
  lit q := Float.ofInt q.num / Float.ofNat q.den
  ofInt := Float.ofInt
  pi := 3.141592653589793
  sqrt := Float.sqrt
  sin := Float.sin
  cos := Float.cos
  tan := Float.tan
  asin := Float.asin
  atan := Float.atan
  floor := Float.floor
  abs := Float.abs
  atan2 := Float.atan2
  fmod x y := let q := x / y; x - y * (if q < 0 then q.ceil else q.floor)
  powi x n := Float.pow x (Float.ofNat n)
  powq x q := Float.pow x (Float.ofInt q.num / Float.ofNat q.den)
  toLong x := if x.abs < 9223372036854775808 then some x.toInt64.toInt else none
  lt x y := decide (x < y)
  le x y := decide (x ≤ y)
  eq x y := x == y
  order := .left

/-- Gauss-Jordan elimination with partial pivoting on `[A | B]`, row-major; stands in for Eigen's LU and LDLᵀ. -/
def elim (n : Nat) (rows : Array (Array Float)) : Array (Array Float) := Id.run do
  let mut m := rows
  for k in [0:n] do
    let mut p := k
    for i in [k:n] do
      if (m[i]!)[k]!.abs > (m[p]!)[k]!.abs then p := i
    let rp := m[p]!
    m := (m.set! p m[k]!).set! k rp
    let d := (m[k]!)[k]!
    m := m.set! k (m[k]!.map (· / d))
    for i in [0:n] do
      if i != k then
        let f := (m[i]!)[k]!
        let rk := m[k]!
        m := m.set! i ((m[i]!.zip rk).map fun (a, b) => a - f * b)
  return m

/-- the linear solver used in these tests -/
def L : LinSolver Float where
  inv {n} A :=
    let m := elim n (Array.ofFn fun i : Fin n => Array.ofFn (fun j : Fin n => A i j) ++ Array.ofFn fun j : Fin n => if i = j then 1 else 0)
    fun i j => (m[i.val]!)[n + j.val]!
  ldltSolve {n} A b :=
    let m := elim n (Array.ofFn fun i : Fin n => (Array.ofFn fun j : Fin n => A i j).push (b i))
    fun i => (m[i.val]!)[n]!

/-- Eigen's `isApprox`: `‖u - v‖ ≤ p · min ‖u‖ ‖v‖` -/
def approx (p : Float) (u v : List Float) : Bool :=
  let nrm (l : List Float) : Float := (l.foldl (fun s x => s + x * x) 0).sqrt
  u.length == v.length && nrm ((u.zip v).map fun (a, b) => a - b) ≤ p * min (nrm u) (nrm v)

/-- a vector from its coefficients -/
def vec {n : Nat} (l : List Float) : Fin n → Float := fun i => l[i.val]!
/-- a matrix from its rows -/
def mat {r c : Nat} (l : List Float) : Matrix (Fin r) (Fin c) Float := fun i j => l[i.val * c + j.val]!
/-- coefficients of a vector -/
def lv {n : Nat} (v : Fin n → Float) : List Float := List.ofFn v
/-- coefficients of a matrix, row by row -/
def lm {r c : Nat} (A : Matrix (Fin r) (Fin c) Float) : List Float := (List.ofFn fun i => List.ofFn fun j => A i j).flatten
/-- a dynamic vector -/
def dv (l : List Float) : DVec Float := ⟨l.length, vec l⟩
/-- a dynamic matrix -/
def dm (r c : Nat) (l : List Float) : DMat Float := ⟨r, c, mat l⟩
/-- the call completed and its result passes the test -/
def ok {β : Type} (o : Out β) (p : β → Bool) : Bool := match o with | .ok b => p b | .error _ => false


/-! ## test/GravityTest.cpp -/

#guard approx 1e-6 (lv (Gravity.simpleGravity (vec [3682340.016, 3682136.045, 3682726.345])).2) [-5.656592, -5.656278, -5.657185]
#guard approx 1e-6 (lv (Gravity.gravityNed 0.7505 345.293 : Bool × V3 Float).2) [-0.000003, 0.000000, 9.80332]

/-! ## test/NavUtilsTest.cpp -/

#guard approx 1e-6 (lm (NavUtils.skewSymmetric (vec [1.0, 2.0, 3.0])).2) [0.0, -3.0, 2.0, 3.0, 0.0, -1.0, -2.0, 1.0, 0.0]
#guard ok (NavUtils.strapdownRk4 (dv [0.739, -1.240, 12.019, 2.928, 1.472, 0.005]) 10.000 (vec [0.002, 0.274, 0.162]) (vec [0.072, 0.013, 9.798]) (DVec.zero 6))
  fun r => r.1 && approx 1e-6 (lv r.2.v) [0.739005, -1.239996, -478.732187, 3.648595, 1.932334, 98.145153]

/-! ## test/StrapdownTest.cpp -/

#guard
  let s := Strapdown.init ({} : Strapdown.St Float) (vec [0.739, -1.240, 1.456]) (vec [4.278, 8.364, 0.564]) (vec [0, 0, 0]) (1664271553028564 - 1000000)
  s.1 && ok (Strapdown.integrate s.2 (vec [0.002, 0.003, -9.798]) (vec [0.002, 0.374, 0.046]) 1664271553028564) fun r =>
    r.1 && approx 1e-6 (lv (r.2.lla.getD (vec []))) [0.739000, -1.239998, 0.551308]
      && approx 1e-6 (lv (r.2.vNed.getD (vec []))) [0.700110, 8.303278, 1.245385]
      && approx 1e-6 (lm (r.2.RB2N.getD mid)) [0.9298401, -0.0445495, 0.3652570, 0.0452886, 0.9989524, 0.0065477, -0.3651661, 0.0104537, 0.9308837]

/-! ## test/CompensatorTest.cpp -/

#guard
  let s := Compensator.setAccelerometerErrors ({} : Compensator.St Float) (vec [0.00004, 3, 0.00007]) (dv [0.00001, 0.00002, 0.00003, 0.00004, 0.00005, 0.00006]) (vec [1.00031, 1.00046, 1.00035])
  s.1 && ok (Compensator.compensateAccelerometer s.2 (vec [7.1837, 9.3832, 6.2840])) fun r => r.1 && approx 1e-6 (lv r.2) [7.186077, 6.386603, 6.286872]
#guard
  let s := Compensator.setGyroscopeErrors ({} : Compensator.St Float) (vec [0.00004, 3, 0.00007]) (dv [0.00001, 0.00002, 0.00003, 0.00004, 0.00005, 0.00006]) (vec [1.00031, 1.00046, 1.00035])
  s.1 && ok (Compensator.compensateGyroscope s.2 (vec [7.1837, 9.3832, 6.2840])) fun r => r.1 && approx 1e-6 (lv r.2) [7.186077, 6.386603, 6.286872]

/-! ## test/AttitudeTest.cpp -/

#guard ok (Attitude.computeDcmFromQuaternion (dv [0.275, 0.372, 0.583, 0.856]) (DMat.zero 3 3)) fun r => r.1 && approx 1e-6 (lm r.2.m)
  [-0.667335077419064, 0.703037538258743, 0.245768415882061, -0.028794513435833, -0.354106917740399, 0.934761556122409, 0.744200759501148, 0.616722393470093, 0.256551591206202]
#guard ok (Attitude.computeQuaternionFromDcm (DMat.id 3) (DVec.zero 4)) fun r => r.1 && approx 1e-6 (lv r.2.v) [1, 0, 0, 0]
#guard ok (Attitude.computeQuaternionFromDcm (dm 3 3 [0.667, 0.703, 0.245, -0.028, -0.354, 0.934, 0.744, 0.616, -0.256]) (DVec.zero 4)) fun r =>
  r.1 && approx 1e-6 (lv r.2.v) [0.1053697, 0.7544866, 0.2236620, 0.3277063]
#guard ok (Attitude.computeQuaternionFromDcm (dm 3 3 [-0.667, 0.703, 0.245, -0.028, 0.354, 0.934, 0.744, 0.616, -0.256]) (DVec.zero 4)) fun r =>
  r.1 && approx 1e-6 (lv r.2.v) [0.1653442, 0.2236620, 0.7544865, 0.5135943]
#guard ok (Attitude.computeQuaternionFromDcm (dm 3 3 [-0.667, 0.703, 0.245, -0.028, -0.354, 0.934, 0.744, 0.616, 0.256]) (DVec.zero 4)) fun r =>
  r.1 && approx 1e-6 (lv r.2.v) [0.2422177, 0.3277063, 0.5135942, 0.7544866]
#guard ok (Attitude.computeQuaternionFromRotationVec (dv [0.384, 1.384, 4.291]) (DVec.zero 4)) fun r =>
  r.1 && approx 1e-6 (lv r.2.v) [-0.637848847370359, 0.0653574088345108, 0.235558994341049, 0.730335003408557]
#guard ok (Attitude.computeRotationVecFromQuaternion (dv [-0.638, 0.065, 0.235, 0.730]) (DVec.zero 3)) fun r =>
  r.1 && approx 1e-6 (lv r.2.v) [0.1483501, 0.53634298, 1.666087]
#guard ok (Attitude.computeRotationVecFromQuaternion (dv [1.0, 0.0, 0.0, 0.0]) (DVec.zero 3)) fun r =>
  r.1 && approx 1e-6 (lv r.2.v) [0.0, 0.0, 0.0]
#guard ok (Attitude.buildQuaternionEquivalent (dv [0.275, 0.372, 0.583, 0.856]) (DMat.zero 4 4)) fun r => r.1 && approx 1e-6 (lm r.2.m)
  [0.275, -0.372, -0.583, -0.856, 0.372, 0.275, -0.856, 0.583, 0.583, 0.856, 0.275, -0.372, 0.856, -0.583, 0.372, 0.275]
#guard approx 1e-6 (lm (Attitude.euler2Dcm (vec [0.349, 0.125, 2.094])).2)
  [-0.49575929590605, 0.85946432815914, -0.124674733385228, -0.83530495080520, -0.43260583128062, 0.339290191285157, 0.23767279962808, 0.27234768837635, 0.932383170672339]
#guard
  let r := Attitude.dcm2Euler (mat [-0.49575929590605, 0.85946432815914, -0.124674733385228, -0.83530495080520, -0.43260583128062, 0.339290191285157, 0.23767279962808, 0.27234768837635, 0.932383170672339]) (vec [0, 0, 0])
  r.1 && approx 1e-3 (lv r.2) [0.349, 0.125, 2.094]
#guard !(Attitude.dcm2Euler (mat [0.00000000000000, 0.85946432815914, -0.124674733385228, -0.83530495080520, -0.43260583128062, 0.339290191285157, 0.23767279962808, 0.27234768837635, 0.932383170672339]) (vec [0, 0, 0])).1
#guard !(Attitude.dcm2Euler (mat [-0.49575929590605, 0.85946432815914, -0.124674733385228, -0.83530495080520, -0.43260583128062, 0.339290191285157, 0.23767279962808, 0.27234768837635, 0.000000000000000]) (vec [0, 0, 0])).1
#guard !(Attitude.dcm2Euler (mat [-0.49575929590605, 0.85946432815914, 1.124674733385228, -0.83530495080520, -0.43260583128062, 0.339290191285157, 0.23767279962808, 0.27234768837635, 0.932383170672339]) (vec [0, 0, 0])).1
#guard !(Attitude.dcm2Euler (mat [-0.49575929590605, 0.85946432815914, -1.124674733385228, -0.83530495080520, -0.43260583128062, 0.339290191285157, 0.23767279962808, 0.27234768837635, 0.932383170672339]) (vec [0, 0, 0])).1

/-! ## test/RotationsTest.cpp -/

#guard (Rotations.computeREcef2Ned 0.731 (-1.24) mid : Bool × M3 Float).1 && approx 1e-6 (lm (Rotations.computeREcef2Ned 0.731 (-1.24) mid : Bool × M3 Float).2)
  [-0.2168387, 0.6314191, 0.7445072, 0.9457839, 0.3247963, 0, -0.2418132, 0.7041429, -0.6676145]
#guard approx 1e-6 (lm (Rotations.computeRNed2Ecef 0.731 (-1.24) mid : Bool × M3 Float).2)
  [-0.2168387, 0.9457839, -0.2418132, 0.6314191, 0.3247963, 0.7041429, 0.7445072, 0, -0.6676145]
#guard !(Rotations.computeREcef2Ned 1.6 0 mid : Bool × M3 Float).1 && !(Rotations.computeREcef2Ned 0 3.5 mid : Bool × M3 Float).1
#guard !(Rotations.computeRNed2Ecef 1.6 0 mid : Bool × M3 Float).1 && !(Rotations.computeRNed2Ecef 0 3.5 mid : Bool × M3 Float).1
#guard
  let r := Rotations.ecef2Lla (vec [1545471.693, -4488375.702, 4245603.836])
  r.1 && approx 1e-4 [r.2.1, r.2.2.1, r.2.2.2] [0.733038, -1.239184, -0.000753]
#guard approx 1e-6 (lv (Rotations.lla2Ecef 0.731 (-1.24) 0 (vec [0, 0, 0])).2) [1544623.562624, -4497835.476247, 4235955.233997]

/-- enough of `std::stod` for the rows below: an optional sign, digits and a decimal point -/
def stod (s : List Char) : Option Float :=
  let (neg, s) := match s with | '-' :: r => (true, r) | _ => (false, s)
  if s.isEmpty || !(s.all fun c => c.isDigit || c == '.') then none
  else
    let ip := s.takeWhile (· ≠ '.')
    let fp := (s.dropWhile (· ≠ '.')).drop 1
    let m := (ip ++ fp).foldl (fun a c => 10 * a + (c.toNat - 48)) 0
    let x := Float.ofScientific m true fp.length
    some (if neg then -x else x)

/-- the header and lines 1372-1373 of test/testData/EOP-Last5Years.csv -/
def eopCsv : String :=
  "DATE,MJD,X,Y,UT1-UTC,LOD,DPSI,DEPS,DX,DY,DAT,DATA_TYPE\n\
2020-10-02,59124,0.192652,0.323725,-0.1732413,-0.0001769,-0.116447,-0.008783,0.000171,-0.000016,37,O\n\
2020-10-03,59125,0.191328,0.322856,-0.1731044,-0.0001385,-0.116377,-0.008683,0.000158,-0.000014,37,O\n"

/-- the object after `getEops` -/
def eopObj : Rotations.Obj Float := (Rotations.getEops stod ⟨true, some eopCsv.toList⟩ Rotations.Obj.fresh).2

#guard (Rotations.getEops stod ⟨false, none⟩ (Rotations.Obj.fresh : Rotations.Obj Float)).1 == some false
#guard (Rotations.getEops stod ⟨true, some eopCsv.toList⟩ Rotations.Obj.fresh).1 == some true
#guard eopObj.eops.mjd == [59124, 59125] && eopObj.eops.taiUtc == [37, 37] && eopObj.eops.ut1Utc == [-0.1732413, -0.1731044]
#guard ok (Rotations.computeRJ2k2Ecef eopObj [2020, 10, 2, 23, 41, 24] [] mid) fun r => r.1 && approx 1e-6 (lm r.2.1)
  [0.9920445, 0.1258720, -0.0019661, -0.1258717, 0.9920465, 0.0002442, 0.0019812, 5.244e-06, 0.9999980]
#guard ok (Rotations.computeREcef2J2k eopObj [2020, 10, 2, 23, 41, 24] [] mid) fun r => r.1 && approx 1e-6 (lm r.2.1)
  [0.9920445, -0.1258717, 0.0019812, 0.1258720, 0.9920465, 5.244e-06, -0.0019661, 0.0002442, 0.9999980]
#guard ok (Rotations.computeRJ2k2Ecef eopObj [2022, 0, 0, 0, 0, 0, 0] [] mid) (!·.1) && ok (Rotations.computeREcef2J2k eopObj [2022, 0, 0, 0, 0, 0, 0] [] mid) (!·.1)
#guard ok (Rotations.computeRJ2k2Ecef eopObj [2025, 10, 2, 23, 41, 24] [] mid) (!·.1) && ok (Rotations.computeREcef2J2k eopObj [2025, 10, 2, 23, 41, 24] [] mid) (!·.1)
#guard ok (Rotations.computeRJ2k2Ecef eopObj [2022, 13, 0, 0, 0, 0] [] mid) (!·.1) && ok (Rotations.computeREcef2J2k eopObj [2022, 13, 0, 0, 0, 0] [] mid) (!·.1)
#guard ok (Rotations.computeRJ2k2Ecef eopObj [2022, -1, 0, 0, 0, 0] [] mid) (!·.1) && ok (Rotations.computeREcef2J2k eopObj [2022, -1, 0, 0, 0, 0] [] mid) (!·.1)
#guard ok (Rotations.computeRJ2k2Ecef eopObj [2022, 12, 32, 0, 0, 0] [] mid) (!·.1) && ok (Rotations.computeREcef2J2k eopObj [2022, 12, 32, 0, 0, 0] [] mid) (!·.1)
#guard ok (Rotations.computeRJ2k2Ecef eopObj [2022, 12, -1, 0, 0, 0] [] mid) (!·.1) && ok (Rotations.computeREcef2J2k eopObj [2022, 12, -1, 0, 0, 0] [] mid) (!·.1)
#guard ok (Rotations.computeRJ2k2Ecef eopObj [2022, 12, 30, 24, 0, 0] [] mid) (!·.1) && ok (Rotations.computeREcef2J2k eopObj [2022, 12, 30, 24, 0, 0] [] mid) (!·.1)
#guard ok (Rotations.computeRJ2k2Ecef eopObj [2022, 12, 30, -1, 0, 0] [] mid) (!·.1) && ok (Rotations.computeREcef2J2k eopObj [2022, 12, 30, -1, 0, 0] [] mid) (!·.1)
#guard ok (Rotations.computeRJ2k2Ecef eopObj [2022, 12, 30, 23, 60, 0] [] mid) (!·.1) && ok (Rotations.computeREcef2J2k eopObj [2022, 12, 30, 23, 60, 0] [] mid) (!·.1)
#guard ok (Rotations.computeRJ2k2Ecef eopObj [2022, 12, 30, 23, -1, 0] [] mid) (!·.1) && ok (Rotations.computeREcef2J2k eopObj [2022, 12, 30, 23, -1, 0] [] mid) (!·.1)
#guard ok (Rotations.computeRJ2k2Ecef eopObj [2022, 12, 30, 23, 59, 60] [] mid) (!·.1) && ok (Rotations.computeREcef2J2k eopObj [2022, 12, 30, 23, 59, 60] [] mid) (!·.1)
#guard ok (Rotations.computeRJ2k2Ecef eopObj [2022, 12, 30, 23, 59, -1] [] mid) (!·.1) && ok (Rotations.computeREcef2J2k eopObj [2022, 12, 30, 23, 59, -1] [] mid) (!·.1)
#guard ok (Rotations.computeRJ2k2Ecef (Rotations.Obj.fresh : Rotations.Obj Float) [2020, 10, 2, 23, 41, 24] [] mid) (!·.1)
#guard ok (Rotations.unixTimestampToDateVec 1672860613000000 ([] : List Float)) fun r => r.1 && r.2 == [2023, 1, 4, 19, 30, 13]

/-! ## test/InitializationTest.cpp -/

#guard approx 1e-6 (lm (Init.coarseAttitudeAlignment 0.7361 (7.292115 * 1e-5) (-9.798) (vec [0.00001, 0.00002, 0.00003]) (vec [0.0002, 0.0092, 0.0034])).2)
  [3.70087216369588, 170.240078845804, 62.914813837855, -0.000392825687754338, -0.0000528803810438532, 0.000166195483280682, 0.000001020616452337, 0.0000020412329046744, 0.0000030618493570]
/-- the state and covariance of the fine alignment tests -/
def fx : DVec Float := dv [3.452, 8.375, 5.285, 9.453, 3.582, 0.374, 6.283, 0.378]
/-- the covariance of the fine alignment tests -/
def fP : DMat Float := dm 8 8 [4.675, 0, 0, 0, 0, 0, 0, 0, 0, 6.295, 0, 0, 0, 0, 0, 0, 0, 0, 8.294, 0, 0, 0, 0, 0, 0, 0, 0, 4.385, 0, 0, 0, 0, 0, 0, 0, 0, 7.284, 0, 0, 0, 0, 0, 0, 0, 0, 9.733, 0, 0, 0, 0, 0, 0, 0, 0, 0.372, 0, 0, 0, 0, 0, 0, 0, 0, 4.283]
#guard ok (Init.fineAlignmentPredict 0.7361 (7.292115 * 1e-5) (-9.798) 6378256 fx fP (DVec.zero 8) (DMat.zero 8 8)) fun r =>
  r.1 && approx 1e-6 (lv r.2.1.v) [-9.4534099, -3.5815463, -0.3744525, 0, 0, 0, -82.0582870, 33.8233112] && approx 1e-6 (lm r.2.2.m)
  [4.385000, 0, 1.6656e-08, 0, 0, 0, 0.003019, 0, 0, 7.284000, 0, 0, 0, 0, 0, 0.002242, 1.6656e-08, 0, 9.733000, 0, 0, 0, 0.003333, 0, 0, 0, 0, 0, 0, 0, 0, 0, 0, 0, 0, 0, 0, 0, 0, 0, 0, 0, 0, 0, 0, 0, 0, 0, 0.003019, 0, 0.003333, 0, 0, 0, 604.325061, 0, 0, 0.002242, 0, 0, 0, 0, 0, 448.803758]
#guard ok (Init.fineAlignmentAzimuthUpdate L 0.368 0.1 0.365 0.001 fx fP (DVec.zero 8) (DMat.zero 8 8)) fun r =>
  r.1 && approx 1e-6 (lv r.2.1.v) [3.452, 8.375, 0.003, 9.453, 3.582, 0.374, 6.283, 0.378] && approx 1e-6 (lm r.2.2.m)
  [4.675, 0, 0, 0, 0, 0, 0, 0, 0, 6.295, 0, 0, 0, 0, 0, 0, 0, 0, 0.000, 0, 0, 0, 0, 0, 0, 0, 0, 4.385, 0, 0, 0, 0, 0, 0, 0, 0, 7.284, 0, 0, 0, 0, 0, 0, 0, 0, 9.733, 0, 0, 0, 0, 0, 0, 0, 0, 0.372, 0, 0, 0, 0, 0, 0, 0, 0, 4.283]
-- only the diagonal of the covariance, which the test expects to be diagonal, to keep the evaluation short
#guard ok (Init.fineAlignmentVelocityUpdate L (vec [0, 0]) 0.1 0.01 fx fP (DVec.zero 8) (DMat.zero 8 8)) fun r =>
  r.1 && approx 1e-6 (lv r.2.1.v) [3.452, 8.375, 5.285, 9.453, 3.582, 0.374, 0.0001688, 0.0000000] && r.2.2.r == 8 && r.2.2.c == 8 &&
  approx 1e-6 ((List.range 8).map fun i => match r.2.2.get i i with | .ok x => x | _ => 0)
  [4.675, 6.295, 8.294, 4.385, 7.284, 9.733, 9.99e-06, 9.99e-06]

/-! ## test/BatchLeastSquaresTest.cpp -/

#guard ok (Lsq.unweightedLinear L (dv [3.5624, 7.3716, 2.2897, 3.2618, 7.1234, 2.0987, 3.7215, 7.3546, 2.6815]) (dm 9 3 [1.07, 4.56, 2.21, 0.74, 1.45, 3.46, 2.12, 6.65, 9.45, 1.07, 4.56, 2.21, 0.74, 1.45, 3.46, 2.12, 6.65, 9.45, 1.07, 4.56, 2.21, 0.74, 1.45, 3.46, 2.12, 6.65, 9.45]) (DVec.zero 3) 0) fun r =>
  r.1 && approx 1e-6 (lv r.2.1.v) [48.635615, -8.307677, -4.815325] && (r.2.2 - 0.161998).abs ≤ 1e-6
#guard ok (Lsq.weightedLinear L (dv [3.5624, 7.3716, 2.2897, 3.2618, 7.1234, 2.0987, 3.7215, 7.3546, 2.6815]) (dm 9 3 [1.07, 4.56, 2.21, 0.74, 1.45, 3.46, 2.12, 6.65, 9.45, 1.07, 4.56, 2.21, 0.74, 1.45, 3.46, 2.12, 6.65, 9.45, 1.07, 4.56, 2.21, 0.74, 1.45, 3.46, 2.12, 6.65, 9.45]) (dm 9 9 [2.15, 0.00, 0.00, 0.00, 0.00, 0.00, 0.00, 0.00, 0.00, 0.00, 2.15, 0.00, 0.00, 0.00, 0.00, 0.00, 0.00, 0.00, 0.00, 0.00, 2.15, 0.00, 0.00, 0.00, 0.00, 0.00, 0.00, 0.00, 0.00, 0.00, 4.83, 0.00, 0.00, 0.00, 0.00, 0.00, 0.00, 0.00, 0.00, 0.00, 4.83, 0.00, 0.00, 0.00, 0.00, 0.00, 0.00, 0.00, 0.00, 0.00, 4.83, 0.00, 0.00, 0.00, 0.00, 0.00, 0.00, 0.00, 0.00, 0.00, 3.24, 0.00, 0.00, 0.00, 0.00, 0.00, 0.00, 0.00, 0.00, 0.00, 3.24, 0.00, 0.00, 0.00, 0.00, 0.00, 0.00, 0.00, 0.00, 0.00, 3.24]) (DVec.zero 3) 0) fun r =>
  r.1 && approx 1e-6 (lv r.2.1.v) [48.410241, -8.276837, -4.789958] && (r.2.2 - 0.168359).abs ≤ 1e-6

/-! ## test/KalmanFilterTest.cpp -/

#guard ok (Kalman.filterPredict (dv [3.452, 8.375, 5.285, 9.453]) (dm 4 4 [4.675, 0.000, 0.000, 0.000, 0.000, 6.295, 0.000, 0.000, 0.000, 0.000, 8.294, 0.000, 0.000, 0.000, 0.000, 4.385])
    (dm 4 4 [3.674, 0.375, 0.000, 0.000, 0.000, 4.284, 0.000, 8.294, 1.329, 4.295, 6.295, 0.000, 0.000, 0.000, 3.294, 7.184]) (dm 4 4 [3.284, 0.000, 0.000, 0.000, 0.000, 8.284, 0.000, 0.000, 0.000, 0.000, 8.394, 0.000, 0.000, 0.000, 0.000, 3.219]) (DVec.zero 4) (DMat.zero 4 4)) fun r =>
  r.1 && approx 1e-6 (lv r.2.1.v) [15.823273, 114.281682, 73.827408, 85.319142] && approx 1e-6 (lm r.2.2.m) [67.2737, 10.1129, 32.9657, 0.0000, 10.1129, 425.4600, 115.8266, 261.2763, 32.9657, 115.8266, 461.4417, 171.9821, 0.0000, 261.2763, 171.9821, 319.5217]
#guard ok (Kalman.filterUpdate L (dv [3.452, 8.375, 5.285, 9.453]) (dm 4 4 [4.675, 0.000, 0.000, 0.000, 0.000, 6.295, 0.000, 0.000, 0.000, 0.000, 8.294, 0.000, 0.000, 0.000, 0.000, 4.385]) (dv [101.744, 104.384])
    (dm 2 4 [3.573, 8.278, 2.485, 0.583, 1.573, 3.584, 7.284, 3.294]) (dm 2 2 [4.029, 0.000, 0.000, 6.294]) (DVec.zero 4) (DMat.zero 4 4)) fun r =>
  r.1 && approx 1e-6 (lv r.2.1.v) [3.515714, 8.575666, 5.106958, 9.396168] && approx 1e-3 (lm r.2.2.m) [4.1183, -1.7411, -0.0761, 0.0733, -1.7411, 0.8487, -0.1845, 0.2430, -0.0761, -0.1845, 1.0691, -1.8616, 0.0733, 0.2430, -1.8616, 3.8898]
#guard ok (Kalman.filterUkfPredict (dv [0.05, 0.10, 0.10, 0.20, 0.15, 0.20, 0.10, 0.10, 0.00])
    (dm 4 9 [0.21, 0.84, 0.19, 0.20, 0.92, 0.82, 0.02, 0.12, 0.36, 0.67, 0.15, 0.13, 0.13, 0.11, 0.92, 0.28, 0.10, 0.23, 0.25, 0.28, 0.93, 0.84, 0.15, 0.12, 0.15, 0.82, 0.73, 0.31, 0.49, 0.19, 0.47, 0.63, 0.46, 0.89, 0.91, 0.16]) (dm 4 4 [3.284, 0.000, 0.000, 0.000, 0.000, 8.284, 0.000, 0.000, 0.000, 0.000, 8.394, 0.000, 0.000, 0.000, 0.000, 3.219]) (DVec.zero 4) (DMat.zero 4 4)) fun r =>
  r.1 && approx 1e-6 (lv r.2.1.v) [0.469500, 0.326000, 0.445000, 0.544000] && approx 1e-5 (lm r.2.2.m) [3.4109, 0.0421, -0.0810, -0.0135, 0.0421, 8.3874, -0.0616, -0.0159, -0.0810, -0.0616, 8.5103, -0.0147, -0.0135, -0.0159, -0.0147, 3.2635]
#guard ok (Kalman.filterUkfUpdate L (dv [3.452, 8.375, 5.285, 9.453]) (dm 4 4 [4.675, 0.000, 0.000, 0.000, 0.000, 6.295, 0.000, 0.000, 0.000, 0.000, 8.294, 0.000, 0.000, 0.000, 0.000, 4.385])
    (dm 4 9 [0.21, 0.84, 0.19, 0.20, 0.92, 0.82, 0.02, 0.12, 0.36, 0.67, 0.15, 0.13, 0.13, 0.11, 0.92, 0.28, 0.10, 0.23, 0.25, 0.28, 0.93, 0.84, 0.15, 0.12, 0.15, 0.82, 0.73, 0.31, 0.49, 0.19, 0.47, 0.63, 0.46, 0.89, 0.91, 0.16]) (dv [0.05, 0.10, 0.10, 0.20, 0.15, 0.20, 0.10, 0.10, 0.00]) (dm 2 9 [101.738, 101.848, 101.482, 101.942, 101.039, 101.323, 101.583, 101.473, 101.484, 104.738, 104.848, 104.482, 104.942, 104.039, 104.323, 104.583, 104.473, 104.484]) (dv [101.744, 104.384]) (dm 2 2 [4.029, 0.000, 0.000, 6.294])
    (DVec.zero 4) (DMat.zero 4 4)) fun r =>
  r.1 && approx 1e-6 (lv r.2.1.v) [3.450376, 8.374325, 5.286477, 9.452684] && approx 1e-4 (lm r.2.2.m) [4.6736, -0.0006, 0.0013, -0.0003, -0.0006, 6.2948, 0.0005, -0.0001, 0.0013, 0.0005, 8.2928, 0.0002, -0.0003, -0.0001, 0.0002, 4.3849]

/-! ## test/PvaErrorDynamicsTest.cpp -/

#guard ok (Pva.inertialErrorDynamics (vec [0.362, 0.474, 0.367]) (mat [0.284, 0.001, 0.012, 0.028, 0.274, 0.008, 0.001, 0.003, 0.736]) mid (DMat.zero 9 9) (DMat.zero 9 9)) fun r =>
  r.1 && approx 1e-6 (lm r.2.1.m)
  [0, 0, 0, 0, 0, 0, 0, 0, 0, 0, 0, 0, 0, 0, 0, 0, 0, 0, 0, 0, 0, 0, 0, 0, 0, 0, 0, 0, -0.367, 0.474, 0, 0, 0, 0.284, 0.001, 0.012, 0.367, 0, -0.362, 0, 0, 0, 0.028, 0.274, 0.008, -0.474, 0.362, 0, 0, 0, 0, 0.001, 0.003, 0.736, 0, 0, 0, 1, 0, 0, 0, 0, 0, 0, 0, 0, 0, 1, 0, 0, 0, 0, 0, 0, 0, 0, 0, 1, 0, 0, 0]
  && approx 1e-6 (lm r.2.2.m)
  [-1, 0, 0, 0, 0, 0, 0, 0, 0, 0, -1, 0, 0, 0, 0, 0, 0, 0, 0, 0, -1, 0, 0, 0, 0, 0, 0, 0, 0, 0, 1, 0, 0, 1, 0, 0, 0, 0, 0, 0, 1, 0, 0, 1, 0, 0, 0, 0, 0, 0, 1, 0, 0, 1, 0, 0, 0, 0, 0, 0, 0, 0, 0, 0, 0, 0, 0, 0, 0, 0, 0, 0, 0, 0, 0, 0, 0, 0, 0, 0, 0]
#guard ok (Pva.ecefErrorDynamics (vec [0.362, 0.474, 0.367]) (mat [0.284, 0.001, 0.012, 0.028, 0.274, 0.008, 0.001, 0.003, 0.736]) mid (mat [0, -0.273, 0.163, 0.273, 0, -0.573, -0.163, 0.573, 0]) (DMat.zero 9 9) (DMat.zero 9 9)) fun r =>
  r.1 && approx 1e-6 (lm r.2.1.m)
  [0, 0.273, -0.163, 0, 0, 0, 0, 0, 0, -0.273, 0, 0.573, 0, 0, 0, 0, 0, 0, 0.163, -0.573, 0, 0, 0, 0, 0, 0, 0, 0, -0.367, 0.474, 0, 0.546, -0.326, 0.385098, -0.092399, -0.144429, 0.367, 0, -0.362, -0.546, 0, 1.146, -0.065399, 0.676858, -0.036499, -0.474, 0.362, 0, 0.326, -1.146, 0, -0.155429, -0.041499, 1.090898, 0, 0, 0, 1, 0, 0, 0, 0, 0, 0, 0, 0, 0, 1, 0, 0, 0, 0, 0, 0, 0, 0, 0, 1, 0, 0, 0]
  && approx 1e-6 (lm r.2.2.m)
  [-1, 0, 0, 0, 0, 0, 0, 0, 0, 0, -1, 0, 0, 0, 0, 0, 0, 0, 0, 0, -1, 0, 0, 0, 0, 0, 0, 0, 0, 0, 1, 0, 0, 1, 0, 0, 0, 0, 0, 0, 1, 0, 0, 1, 0, 0, 0, 0, 0, 0, 1, 0, 0, 1, 0, 0, 0, 0, 0, 0, 0, 0, 0, 0, 0, 0, 0, 0, 0, 0, 0, 0, 0, 0, 0, 0, 0, 0, 0, 0, 0]
/-- the call in the NED test -/
def nedCall : Out (Bool × DMat Float × DMat Float) :=
  Pva.nedErrorDynamics (vec [0.362, 0.474, 0.367]) (mat [0.284, 0.001, 0.012, 0.028, 0.274, 0.008, 0.001, 0.003, 0.736]) mid (vec [0.731, -1.240, 4.364]) (vec [0.002, 0.017, 0.001])
    (vec [0.012, 0.004, 0.005]) (DMat.zero 9 9) (DMat.zero 9 9)
#guard ok nedCall fun r => r.1 && approx 1e-6 (lm r.2.1.m)
  [0, -0.011398, 0.002, 0, 0.744507, 0, -0.011398, 0, 0, 0.011398, 0, 0.012711, -1, 0, 0, 0, 0, 0, -0.002, -0.012711, 0, 0, -0.667614, 0, -0.012711, 0, 0, 0, -5.77e-08, 7.43e-08, -1.37e-06, -0.016972, -6.27e-10, -3.16494e-05, 0, -1.89e-09, 7.75e-08, 0, -7.63e-08, 0.030619, 0.003587, -5.36e-09, 0.003655, 0, -6.18e-10, 0.474, -0.362, 0, 25503.121498, 120672.674050, 0, -1847.420312, 0, 0.736166, 0, 0, 0, 1, 0, 0, 0, 0, 0, 0, 0, 0, 0, 1, 0, 0, 0, 0, 0, 0, 0, 0, 0, 1, 0, 0, 0]
  && approx 1e-6 (lm r.2.2.m)
  [-1, 0, 0, 0, 0, 0, 0, 0, 0, 0, -1, 0, 0, 0, 0, 0, 0, 0, 0, 0, -1, 0, 0, 0, 0, 0, 0, 0, 0, 0, 1.57e-07, 0, 0, 1.57e-07, 0, 0, 0, 0, 0, 0, 2.10e-07, 0, 0, 2.10e-07, 0, 0, 0, 0, 0, 0, -1, 0, 0, -1, 0, 0, 0, 0, 0, 0, 0, 0, 0, 0, 0, 0, 0, 0, 0, 0, 0, 0, 0, 0, 0, 0, 0, 0, 0, 0, 0]
-- The test expects -6.18e-10 at `F(4,8)`, which is what the derivation gives; the code computes another value (`C64_f59_fails`), and the
-- test passes only because `isApprox` compares the whole matrices, whose largest entry is 1.2e5.
#guard ok nedCall fun r => (match r.2.1.get 4 8 with | .ok x => (x + 6.18e-10).abs > 5e-10 | _ => false)

end NavFuse.Conformance
