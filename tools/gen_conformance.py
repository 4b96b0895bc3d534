import re
T='/repo/test/'
head='''import Verif.Model.Attitude
import Verif.Model.Compensator
import Verif.Model.Geodesy
import Verif.Model.Gravity
import Verif.Model.Init
import Verif.Model.J2000
import Verif.Model.Kalman
import Verif.Model.LeastSquares
import Verif.Model.NavUtils
import Verif.Model.Pva
import Verif.Model.Strapdown

/-! # Conformance checks: the model at `Float` against the repository's unit tests

These are tests of the model, not proofs of properties: no property in `MANIFEST.json` cites this file.  The definitions of
`Verif/Model` are run on IEEE doubles with the inputs of the numerical unit tests in `/repo/test`, and compared with the results that
those tests expect, at the tests' own tolerance.  They guard against slips of transcription that would make the theorems be about
another program. -/

namespace NavFuse.Conformance
open NavFuse

/-- `double` -/
instance : Flt Float where
  lit q := Float.ofInt q.num / Float.ofNat q.den
  ofInt := Float.ofInt
  pi := 3.141592653589793
  sqrt := Float.sqrt
  sin := Float.sin
  cos := Float.cos
  tan := Float.tan
  asin := Float.asin
  atan := Float.atan
  floor := Float.floor
  abs := Float.abs
  atan2 := Float.atan2
  fmod x y := let q := x / y; x - y * (if q < 0 then q.ceil else q.floor)
  powi x n := Float.pow x (Float.ofNat n)
  powq x q := Float.pow x (Float.ofInt q.num / Float.ofNat q.den)
  toLong x := if x.abs < 9223372036854775808 then some x.toInt64.toInt else none
  lt x y := decide (x < y)
  le x y := decide (x ≤ y)
  eq x y := x == y

/-- Gauss-Jordan elimination with partial pivoting on `[A | B]`, row-major; stands in for Eigen's LU and LDLᵀ. -/
def elim (n : Nat) (rows : Array (Array Float)) : Array (Array Float) := Id.run do
  let mut m := rows
  for k in [0:n] do
    let mut p := k
    for i in [k:n] do
      if (m[i]!)[k]!.abs > (m[p]!)[k]!.abs then p := i
    let rp := m[p]!
    m := (m.set! p m[k]!).set! k rp
    let d := (m[k]!)[k]!
    m := m.set! k (m[k]!.map (· / d))
    for i in [0:n] do
      if i != k then
        let f := (m[i]!)[k]!
        let rk := m[k]!
        m := m.set! i ((m[i]!.zip rk).map fun (a, b) => a - f * b)
  return m

/-- the linear solver used in these tests -/
def L : LinSolver Float where
  inv {n} A :=
    let m := elim n (Array.ofFn fun i : Fin n => Array.ofFn (fun j : Fin n => A i j) ++ Array.ofFn fun j : Fin n => if i = j then 1 else 0)
    fun i j => (m[i.val]!)[n + j.val]!
  ldltSolve {n} A b :=
    let m := elim n (Array.ofFn fun i : Fin n => (Array.ofFn fun j : Fin n => A i j).push (b i))
    fun i => (m[i.val]!)[n]!

/-- Eigen's `isApprox`: `‖u - v‖ ≤ p · min ‖u‖ ‖v‖` -/
def approx (p : Float) (u v : List Float) : Bool :=
  let nrm (l : List Float) : Float := (l.foldl (fun s x => s + x * x) 0).sqrt
  u.length == v.length && nrm ((u.zip v).map fun (a, b) => a - b) ≤ p * min (nrm u) (nrm v)

/-- a vector from its coefficients -/
def vec {n : Nat} (l : List Float) : Fin n → Float := fun i => l[i.val]!
/-- a matrix from its rows -/
def mat {r c : Nat} (l : List Float) : Matrix (Fin r) (Fin c) Float := fun i j => l[i.val * c + j.val]!
/-- coefficients of a vector -/
def lv {n : Nat} (v : Fin n → Float) : List Float := List.ofFn v
/-- coefficients of a matrix, row by row -/
def lm {r c : Nat} (A : Matrix (Fin r) (Fin c) Float) : List Float := (List.ofFn fun i => List.ofFn fun j => A i j).flatten
/-- a dynamic vector -/
def dv (l : List Float) : DVec Float := ⟨l.length, vec l⟩
/-- a dynamic matrix -/
def dm (r c : Nat) (l : List Float) : DMat Float := ⟨r, c, mat l⟩
/-- the call completed and its result passes the test -/
def ok {β : Type} (o : Out β) (p : β → Bool) : Bool := match o with | .ok b => p b | .error _ => false
'''
def tests(f):
    s=open(T+f).read()
    return {m[1]:m[2] for m in re.finditer(r'TEST\(([^)]*)\)\s*\{(.*?)\n\}',s,re.S)}
def vals(t,name,k=0):
    ms=re.findall(r'\b'+name+r'\s*<<([^;]*);',t)
    v=[x.strip() for x in ms[k].replace('\n',' ').split(',')]
    return '['+', '.join(num(x) for x in v)+']'
def num(x):
    x=x.strip()
    if re.fullmatch(r'-?0+\d+',x): x=str(int(x,8))   # C++ octal literal
    return x
def sc(t,name):
    return num(re.search(r'double '+name+r'\s*=\s*([^;]*);',t)[1])
o=[head]
def sec(s): o.append(f'\n/-! ## {s} -/\n')
def w(s): o.append(s)
# Gravity
t=tests('GravityTest.cpp'); sec('test/GravityTest.cpp')
a=t['SimpleGravity, ComputeSimpleGravity']
w(f"#guard approx 1e-6 (lv (Gravity.simpleGravity (vec {vals(a,'rA')})).2) {vals(a,'gASol')}")
a=t['GravityNed, ComputeGravityNed']
w(f"#guard approx 1e-6 (lv (Gravity.gravityNed {sc(a,'lat')} {sc(a,'h')} : Bool × V3 Float).2) {vals(a,'gNSol')}")
# NavUtils
t=tests('NavUtilsTest.cpp'); sec('test/NavUtilsTest.cpp')
a=t['ComputeSkewSymmetric, ComputeResult']
w(f"#guard approx 1e-6 (lm (NavUtils.skewSymmetric (vec {vals(a,'vec')})).2) {vals(a,'vecXSol')}")
a=t['ComputeStrapdownRk4, ComputeResult']
w(f"#guard ok (NavUtils.strapdownRk4 (dv {vals(a,'ykm1')}) {sc(a,'dt')} (vec {vals(a,'dVN')}) (vec {vals(a,'gN')}) (DVec.zero 6))\n  fun r => r.1 && approx 1e-6 (lv r.2.v) {vals(a,'ykSol')}")
# Strapdown
t=tests('StrapdownTest.cpp'); sec('test/StrapdownTest.cpp')
a=t['Strapdown, Integrate']
w(f"""#guard
  let s := Strapdown.init ({{}} : Strapdown.St Float) (vec {vals(a,'llaPrev')}) (vec {vals(a,'vNedPrev')}) (vec [0, 0, 0]) (1664271553028564 - 1000000)
  s.1 && ok (Strapdown.integrate s.2 (vec {vals(a,'dV')}) (vec {vals(a,'dTh')}) 1664271553028564) fun r =>
    r.1 && approx 1e-6 (lv (r.2.lla.getD (vec []))) {vals(a,'llaSol')}
      && approx 1e-6 (lv (r.2.vNed.getD (vec []))) {vals(a,'vNedSol')}
      && approx 1e-6 (lm (r.2.RB2N.getD mid)) {vals(a,'RB2NSol')}""")
# Compensator
t=tests('CompensatorTest.cpp'); sec('test/CompensatorTest.cpp')
for nm,S,x,fn in [('CompensateAccelerometer, CompensateAccelerometer','Accelerometer','a','dV'),('CompensateGyroscope, CompensateGyroscope','Gyroscope','g','dTh')]:
    a=t[nm]
    w(f"""#guard
  let s := Compensator.set{S}Errors ({{}} : Compensator.St Float) (vec {vals(a,f'b{x}Est')}) (dv {vals(a,f'm{x}Est')}) (vec {vals(a,f'sf{x}Est')})
  s.1 && ok (Compensator.compensate{S} s.2 (vec {vals(a,fn)})) fun r => r.1 && approx 1e-6 (lv r.2) {vals(a,fn+'Sol')}""")
# Attitude
t=tests('AttitudeTest.cpp'); sec('test/AttitudeTest.cpp')
a=t['ComputeDcmFromQuat, ComputeResult']
w(f"#guard ok (Attitude.computeDcmFromQuaternion (dv {vals(a,'qA2B')}) (DMat.zero 3 3)) fun r => r.1 && approx 1e-6 (lm r.2.m)\n  {vals(a,'RA2BSol')}")
w("#guard ok (Attitude.computeQuaternionFromDcm (DMat.id 3) (DVec.zero 4)) fun r => r.1 && approx 1e-6 (lv r.2.v) [1, 0, 0, 0]")
for k in '123':
    a=t['ComputeQuatFromDcm, ComputeResultCase'+k]
    w(f"#guard ok (Attitude.computeQuaternionFromDcm (dm 3 3 {vals(a,'RA2B')}) (DVec.zero 4)) fun r =>\n  r.1 && approx 1e-6 (lv r.2.v) {vals(a,'qA2BSol')}")
a=t['ComputeQuatFromRotVec, ComputeResult']
w(f"#guard ok (Attitude.computeQuaternionFromRotationVec (dv {vals(a,'phi')}) (DVec.zero 4)) fun r =>\n  r.1 && approx 1e-6 (lv r.2.v) {vals(a,'qA2BSol')}")
for k in ['NegativeScalar','ZeroLengthQuaternionVector']:
    a=t['ComputeRotVecFromQuat, '+k]
    w(f"#guard ok (Attitude.computeRotationVecFromQuaternion (dv {vals(a,'qA2B')}) (DVec.zero 3)) fun r =>\n  r.1 && approx 1e-6 (lv r.2.v) {vals(a,'phiSol')}")
a=t['ComputeQuatEquivalent, ComputeResult']
w(f"#guard ok (Attitude.buildQuaternionEquivalent (dv {vals(a,'qA2B')}) (DMat.zero 4 4)) fun r => r.1 && approx 1e-6 (lm r.2.m)\n  {vals(a,'QA2BSol')}")
a=t['ComputeEuler2Dcm, ComputeResult']
w(f"#guard approx 1e-6 (lm (Attitude.euler2Dcm (vec {vals(a,'euler')})).2)\n  {vals(a,'RB2NSol')}")
a=t['ComputeDcm2Euler, ComputeResult']
w(f"#guard\n  let r := Attitude.dcm2Euler (mat {vals(a,'RB2N')}) (vec [0, 0, 0])\n  r.1 && approx 1e-3 (lv r.2) {vals(a,'eulerSol')}")
for k in ['Singularity','ArcsinDomain']:
    for i in (0,1):
        a=t['ComputeDcm2Euler, '+k]
        w(f"#guard !(Attitude.dcm2Euler (mat {vals(a,'RB2N',i)}) (vec [0, 0, 0])).1")
# Rotations
t=tests('RotationsTest.cpp'); sec('test/RotationsTest.cpp')
a=t['ComputeRE2N, ComputeResult']
w(f"#guard (Rotations.computeREcef2Ned 0.731 (-1.24) mid : Bool × M3 Float).1 && approx 1e-6 (lm (Rotations.computeREcef2Ned 0.731 (-1.24) mid : Bool × M3 Float).2)\n  {vals(a,'RE2NSol')}")
a=t['ComputeRN2E, ComputeResult']
w(f"#guard approx 1e-6 (lm (Rotations.computeRNed2Ecef 0.731 (-1.24) mid : Bool × M3 Float).2)\n  {vals(a,'RN2ESol')}")
w("#guard !(Rotations.computeREcef2Ned 1.6 0 mid : Bool × M3 Float).1 && !(Rotations.computeREcef2Ned 0 3.5 mid : Bool × M3 Float).1")
w("#guard !(Rotations.computeRNed2Ecef 1.6 0 mid : Bool × M3 Float).1 && !(Rotations.computeRNed2Ecef 0 3.5 mid : Bool × M3 Float).1")
a=t['ComputeEcef2Lla, ComputeResult']
w(f"#guard\n  let r := Rotations.ecef2Lla (vec {vals(a,'rE')})\n  r.1 && approx 1e-4 [r.2.1, r.2.2.1, r.2.2.2] {vals(a,'llaSol')}")
a=t['ComputeLla2Ecef, ComputeResult']
w(f"#guard approx 1e-6 (lv (Rotations.lla2Ecef 0.731 (-1.24) 0 (vec [0, 0, 0])).2) {vals(a,'rESol')}")
w("""
/-- enough of `std::stod` for the rows below: an optional sign, digits and a decimal point -/
def stod (s : List Char) : Option Float :=
  let (neg, s) := match s with | '-' :: r => (true, r) | _ => (false, s)
  if s.isEmpty || !(s.all fun c => c.isDigit || c == '.') then none
  else
    let ip := s.takeWhile (· ≠ '.')
    let fp := (s.dropWhile (· ≠ '.')).drop 1
    let m := (ip ++ fp).foldl (fun a c => 10 * a + (c.toNat - 48)) 0
    let x := Float.ofScientific m true fp.length
    some (if neg then -x else x)

/-- the header and lines 1372-1373 of test/testData/EOP-Last5Years.csv -/
def eopCsv : String :=
  "DATE,MJD,X,Y,UT1-UTC,LOD,DPSI,DEPS,DX,DY,DAT,DATA_TYPE\\n\\
2020-10-02,59124,0.192652,0.323725,-0.1732413,-0.0001769,-0.116447,-0.008783,0.000171,-0.000016,37,O\\n\\
2020-10-03,59125,0.191328,0.322856,-0.1731044,-0.0001385,-0.116377,-0.008683,0.000158,-0.000014,37,O\\n"

/-- the object after `getEops` -/
def eopObj : Rotations.Obj Float := (Rotations.getEops stod ⟨true, some eopCsv.toList⟩ Rotations.Obj.fresh).2

#guard (Rotations.getEops stod ⟨false, none⟩ (Rotations.Obj.fresh : Rotations.Obj Float)).1 == some false
#guard (Rotations.getEops stod ⟨true, some eopCsv.toList⟩ Rotations.Obj.fresh).1 == some true
#guard eopObj.eops.mjd == [59124, 59125] && eopObj.eops.taiUtc == [37, 37] && eopObj.eops.ut1Utc == [-0.1732413, -0.1731044]""")
a=t['ComputeRJ2E, ComputeResult']
w(f"#guard ok (Rotations.computeRJ2k2Ecef eopObj [2020, 10, 2, 23, 41, 24] [] mid) fun r => r.1 && approx 1e-6 (lm r.2.1)\n  {vals(a,'RJ2ESol')}")
a=t['ComputeRE2J, ComputeResult']
w(f"#guard ok (Rotations.computeREcef2J2k eopObj [2020, 10, 2, 23, 41, 24] [] mid) fun r => r.1 && approx 1e-6 (lm r.2.1)\n  {vals(a,'RE2JSol')}")
for d in ["[2022, 0, 0, 0, 0, 0, 0]","[2025, 10, 2, 23, 41, 24]","[2022, 13, 0, 0, 0, 0]","[2022, -1, 0, 0, 0, 0]","[2022, 12, 32, 0, 0, 0]","[2022, 12, -1, 0, 0, 0]","[2022, 12, 30, 24, 0, 0]","[2022, 12, 30, -1, 0, 0]","[2022, 12, 30, 23, 60, 0]","[2022, 12, 30, 23, -1, 0]","[2022, 12, 30, 23, 59, 60]","[2022, 12, 30, 23, 59, -1]"]:
    w(f"#guard ok (Rotations.computeRJ2k2Ecef eopObj {d} [] mid) (!·.1) && ok (Rotations.computeREcef2J2k eopObj {d} [] mid) (!·.1)")
w("#guard ok (Rotations.computeRJ2k2Ecef (Rotations.Obj.fresh : Rotations.Obj Float) [2020, 10, 2, 23, 41, 24] [] mid) (!·.1)")
w("#guard ok (Rotations.unixTimestampToDateVec 1672860613000000 ([] : List Float)) fun r => r.1 && r.2 == [2023, 1, 4, 19, 30, 13]")
# Init
t=tests('InitializationTest.cpp'); sec('test/InitializationTest.cpp')
a=t['CoarseAttitudeAlignment, ComputeResult']
w(f"#guard approx 1e-6 (lm (Init.coarseAttitudeAlignment 0.7361 (7.292115 * 1e-5) (-9.798) (vec {vals(a,'aB')}) (vec {vals(a,'wIB_B')})).2)\n  {vals(a,'RB2NSol')}")
a=t['FineAlignmentPredict, ComputeResult']
w(f"/-- the state and covariance of the fine alignment tests -/\ndef fx : DVec Float := dv {vals(a,'xk')}")
w(f"/-- the covariance of the fine alignment tests -/\ndef fP : DMat Float := dm 8 8 {vals(a,'Pk')}")
w(f"#guard ok (Init.fineAlignmentPredict 0.7361 (7.292115 * 1e-5) (-9.798) 6378256 fx fP (DVec.zero 8) (DMat.zero 8 8)) fun r =>\n  r.1 && approx 1e-6 (lv r.2.1.v) {vals(a,'xkp1Sol')} && approx 1e-6 (lm r.2.2.m)\n  {vals(a,'Pkp1Sol')}")
a=t['FineAlignmentAzimuthUpdate, ComputeResult']
w(f"#guard ok (Init.fineAlignmentAzimuthUpdate L 0.368 0.1 0.365 0.001 fx fP (DVec.zero 8) (DMat.zero 8 8)) fun r =>\n  r.1 && approx 1e-6 (lv r.2.1.v) {vals(a,'xkp1Sol')} && approx 1e-6 (lm r.2.2.m)\n  {vals(a,'Pkp1Sol')}")
a=t['FineAlignmentVelocityUpdate, ComputeResult']
w("-- only the diagonal of the covariance, which the test expects to be diagonal, to keep the evaluation short")
w(f"#guard ok (Init.fineAlignmentVelocityUpdate L (vec [0, 0]) 0.1 0.01 fx fP (DVec.zero 8) (DMat.zero 8 8)) fun r =>\n  r.1 && approx 1e-6 (lv r.2.1.v) {vals(a,'xkp1Sol')} && r.2.2.r == 8 && r.2.2.c == 8 &&\n  approx 1e-6 ((List.range 8).map fun i => match r.2.2.get i i with | .ok x => x | _ => 0)\n  [4.675, 6.295, 8.294, 4.385, 7.284, 9.733, 9.99e-06, 9.99e-06]")
# BLS
t=tests('BatchLeastSquaresTest.cpp'); sec('test/BatchLeastSquaresTest.cpp')
a=t['UnweightedLinearLeastSquares, ComputeLeastSquaresEstimate']
w(f"#guard ok (Lsq.unweightedLinear L (dv {vals(a,'yk')}) (dm 9 3 {vals(a,'Hk')}) (DVec.zero 3) 0) fun r =>\n  r.1 && approx 1e-6 (lv r.2.1.v) {vals(a,'xSol')} && (r.2.2 - {sc(a,'JSol')}).abs ≤ 1e-6")
a=t['WeightedLinearLeastSquares, ComputeLeastSquaresEstimate']
w(f"#guard ok (Lsq.weightedLinear L (dv {vals(a,'yk')}) (dm 9 3 {vals(a,'Hk')}) (dm 9 9 {vals(a,'Wk')}) (DVec.zero 3) 0) fun r =>\n  r.1 && approx 1e-6 (lv r.2.1.v) {vals(a,'xSol')} && (r.2.2 - {sc(a,'JSol')}).abs ≤ 1e-6")
# KF
t=tests('KalmanFilterTest.cpp'); sec('test/KalmanFilterTest.cpp')
a=t['FilterPredict, ComputeFilterPrediction']
w(f"#guard ok (Kalman.filterPredict (dv {vals(a,'xk')}) (dm 4 4 {vals(a,'Pk')})\n    (dm 4 4 {vals(a,'Phik')}) (dm 4 4 {vals(a,'Qk')}) (DVec.zero 4) (DMat.zero 4 4)) fun r =>\n  r.1 && approx 1e-6 (lv r.2.1.v) {vals(a,'xkSol')} && approx 1e-6 (lm r.2.2.m) {vals(a,'PkSol')}")
a=t['FilterUpdate, ComputeFilterUpdate']
w(f"#guard ok (Kalman.filterUpdate L (dv {vals(a,'xk')}) (dm 4 4 {vals(a,'Pk')}) (dv {vals(a,'zk')})\n    (dm 2 4 {vals(a,'H')}) (dm 2 2 {vals(a,'Rk')}) (DVec.zero 4) (DMat.zero 4 4)) fun r =>\n  r.1 && approx 1e-6 (lv r.2.1.v) {vals(a,'xkSol')} && approx 1e-3 (lm r.2.2.m) {vals(a,'PkSol')}")
a=t['FilterUkfPredict, ComputeFilterUkfPrediction']
w(f"#guard ok (Kalman.filterUkfPredict (dv {vals(a,'Wi')})\n    (dm 4 9 {vals(a,'yi')}) (dm 4 4 {vals(a,'Qk')}) (DVec.zero 4) (DMat.zero 4 4)) fun r =>\n  r.1 && approx 1e-6 (lv r.2.1.v) {vals(a,'xkSol')} && approx 1e-5 (lm r.2.2.m) {vals(a,'PkSol')}")
a=t['FilterUkfUpdate, ComputeFilterUkfUpdate']
w(f"#guard ok (Kalman.filterUkfUpdate L (dv {vals(a,'xk')}) (dm 4 4 {vals(a,'Pk')})\n    (dm 4 9 {vals(a,'yi')}) (dv {vals(a,'Wi')}) (dm 2 9 {vals(a,'zi')}) (dv {vals(a,'zk')}) (dm 2 2 {vals(a,'Rk')})\n    (DVec.zero 4) (DMat.zero 4 4)) fun r =>\n  r.1 && approx 1e-6 (lv r.2.1.v) {vals(a,'xkSol')} && approx 1e-4 (lm r.2.2.m) {vals(a,'PkSol')}")
# PVA
t=tests('PvaErrorDynamicsTest.cpp'); sec('test/PvaErrorDynamicsTest.cpp')
a=t['InertialErrorDynamics, ComputeMatrices']
w(f"#guard ok (Pva.inertialErrorDynamics (vec {vals(a,'aI')}) (mat {vals(a,'GI')}) mid (DMat.zero 9 9) (DMat.zero 9 9)) fun r =>\n  r.1 && approx 1e-6 (lm r.2.1.m)\n  {vals(a,'FSol')}\n  && approx 1e-6 (lm r.2.2.m)\n  {vals(a,'GSol')}")
a=t['EcefErrorDynamics, ComputeMatrices']
w(f"#guard ok (Pva.ecefErrorDynamics (vec {vals(a,'aE')}) (mat {vals(a,'GE')}) mid (mat {vals(a,'OEI_I')}) (DMat.zero 9 9) (DMat.zero 9 9)) fun r =>\n  r.1 && approx 1e-6 (lm r.2.1.m)\n  {vals(a,'FSol')}\n  && approx 1e-6 (lm r.2.2.m)\n  {vals(a,'GSol')}")
a=t['NedErrorDynamics, ComputeMatrices']
w(f"/-- the call in the NED test -/\ndef nedCall : Out (Bool × DMat Float × DMat Float) :=\n  Pva.nedErrorDynamics (vec {vals(a,'aN')}) (mat {vals(a,'GN')}) mid (vec {vals(a,'lla')}) (vec {vals(a,'llaDot')})\n    (vec {vals(a,'llaDDot')}) (DMat.zero 9 9) (DMat.zero 9 9)")
w(f"#guard ok nedCall fun r => r.1 && approx 1e-6 (lm r.2.1.m)\n  {vals(a,'FSol')}\n  && approx 1e-6 (lm r.2.2.m)\n  {vals(a,'GSol')}")
w("""-- The test expects -6.18e-10 at `F(4,8)`, which is what the derivation gives; the code computes another value (`C64_f59_fails`), and the
-- test passes only because `isApprox` compares the whole matrices, whose largest entry is 1.2e5.
#guard ok nedCall fun r => (match r.2.1.get 4 8 with | .ok x => (x + 6.18e-10).abs > 5e-10 | _ => false)""")
w("\nend NavFuse.Conformance\n")
open('/verif/lean/Verif/Conformance.lean','w').write('\n'.join(o))
