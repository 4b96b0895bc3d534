import Verif.Eigen

/-! # Model of `src/filter/KalmanFilter.cpp`

Every function returns the C++ return value together with the new values of the two output references `xkp1` and `Pkp1`.
`int numStates = xk.size()` is modelled without the narrowing from `Eigen::Index` to `int` (sizes below 2^31). -/

namespace NavFuse.Kalman

variable {α : Type} [Add α] [Sub α] [Mul α] [Div α] [Neg α] [Flt α]

/-- `KalmanFilter::filterPredict`, src/filter/KalmanFilter.cpp:16-58. -/
def filterPredict (xk : DVec α) (Pk Phik Qk : DMat α) (xkp1 : DVec α) (Pkp1 : DMat α) : Out (Bool × DVec α × DMat α) :=
  let numStates := xk.n
  if Pk.r ≠ numStates ∨ Pk.c ≠ numStates then .ok (false, xkp1, Pkp1)
  else if Phik.r ≠ numStates ∨ Phik.c ≠ numStates then .ok (false, xkp1, Pkp1)
  else if Qk.r ≠ numStates ∨ Qk.c ≠ numStates then .ok (false, xkp1, Pkp1)
  else if xkp1.n ≠ numStates then .ok (false, xkp1, Pkp1)
  else if Pkp1.r ≠ numStates ∨ Pkp1.c ≠ numStates then .ok (false, xkp1, Pkp1)
  else do
    let xkp1' ← Phik.mulVec xk                    -- line 50
    let t1 ← Phik.mul Pk                          -- line 53
    let t2 ← t1.mul Phik.tr
    let Pkp1' ← t2.add Qk
    return (true, xkp1', Pkp1')

/-- `KalmanFilter::filterUpdate`, src/filter/KalmanFilter.cpp:62-113.  `L` stands for Eigen's dynamic `inverse()`. -/
def filterUpdate (L : LinSolver α) (xk : DVec α) (Pk : DMat α) (zk : DVec α) (H Rk : DMat α) (xkp1 : DVec α) (Pkp1 : DMat α) :
    Out (Bool × DVec α × DMat α) :=
  let numStates := xk.n
  let numMeas := zk.n
  if Pk.r ≠ numStates ∨ Pk.c ≠ numStates then .ok (false, xkp1, Pkp1)
  else if H.r ≠ numMeas ∨ H.c ≠ numStates then .ok (false, xkp1, Pkp1)
  else if Rk.r ≠ numMeas ∨ Rk.c ≠ numMeas then .ok (false, xkp1, Pkp1)
  else if xkp1.n ≠ numStates then .ok (false, xkp1, Pkp1)
  else if Pkp1.r ≠ numStates ∨ Pkp1.c ≠ numStates then .ok (false, xkp1, Pkp1)
  else do
    let Hx ← H.mulVec xk                          -- line 98: nu = zk - H xk
    let nu ← zk.sub Hx
    let PHt ← Pk.mul H.tr                         -- line 101: K = Pk H' (H Pk H' + Rk)^-1
    let HP ← H.mul Pk
    let HPHt ← HP.mul H.tr
    let S ← HPHt.add Rk
    let Si ← S.inverse L
    let K ← PHt.mul Si
    let Knu ← K.mulVec nu                         -- line 104
    let xkp1' ← xk.add Knu
    let KH ← K.mul H                              -- line 107
    let IKH ← (DMat.id numStates).sub KH
    let a1 ← IKH.mul Pk                           -- line 108
    let a2 ← a1.mul IKH.tr
    let b1 ← K.mul Rk
    let b2 ← b1.mul K.tr
    let Pkp1' ← a2.add b2
    return (true, xkp1', Pkp1')

/-- One accumulation loop `for i in [0, N) { acc += W(i) * A.col(i) }`, lines 147-149 and 211-213. -/
def accumMean (W : DVec α) (A : DMat α) : List Nat → DVec α → Out (DVec α)
  | [], acc => .ok acc
  | i :: is, acc => do
    let w ← W.get i
    let c ← A.col i
    let acc' ← acc.add (DVec.smul w c)
    accumMean W A is acc'

/-- One accumulation loop `for i in [0, N) { acc += W(i) * (A.col(i) - a) * (B.col(i) - b).transpose() }`,
lines 153-155, 217-219 and 223-225. -/
def accumScatter (W : DVec α) (A : DMat α) (a : DVec α) (B : DMat α) (b : DVec α) : List Nat → DMat α → Out (DMat α)
  | [], acc => .ok acc
  | i :: is, acc => do
    let w ← W.get i
    let ca ← A.col i
    let da ← ca.sub a
    let cb ← B.col i
    let db ← cb.sub b
    let acc' ← acc.add ((DVec.smul w da).outer db)
    accumScatter W A a B b is acc'

/-- `KalmanFilter::filterUkfPredict`, src/filter/KalmanFilter.cpp:117-160. -/
def filterUkfPredict (Wi : DVec α) (yi Qk : DMat α) (xkp1 : DVec α) (Pkp1 : DMat α) : Out (Bool × DVec α × DMat α) :=
  let numStates := xkp1.n
  if Pkp1.r ≠ numStates ∨ Pkp1.c ≠ numStates then .ok (false, xkp1, Pkp1)
  else if Wi.n ≠ 2 * numStates + 1 then .ok (false, xkp1, Pkp1)
  else if yi.r ≠ numStates ∨ yi.c ≠ 2 * numStates + 1 then .ok (false, xkp1, Pkp1)
  else if Qk.r ≠ numStates ∨ Qk.c ≠ numStates then .ok (false, xkp1, Pkp1)
  else do
    let xkp1' ← accumMean Wi yi (List.range (2 * numStates + 1)) (DVec.zero numStates)        -- lines 146-149
    let Pkp1' ← accumScatter Wi yi xkp1' yi xkp1' (List.range (2 * numStates + 1)) Qk         -- lines 152-155
    return (true, xkp1', Pkp1')

/-- `KalmanFilter::filterUkfUpdate`, src/filter/KalmanFilter.cpp:164-247. -/
def filterUkfUpdate (L : LinSolver α) (xk : DVec α) (Pk yi : DMat α) (Wi : DVec α) (zi : DMat α) (zk : DVec α) (Rk : DMat α)
    (xkp1 : DVec α) (Pkp1 : DMat α) : Out (Bool × DVec α × DMat α) :=
  let numStates := xk.n
  let numMeas := zk.n
  if Pk.r ≠ numStates ∨ Pk.c ≠ numStates then .ok (false, xkp1, Pkp1)
  else if yi.r ≠ numStates ∨ yi.c ≠ 2 * numStates + 1 then .ok (false, xkp1, Pkp1)
  else if Wi.n ≠ 2 * numStates + 1 then .ok (false, xkp1, Pkp1)
  else if zi.r ≠ numMeas ∨ zi.c ≠ 2 * numStates + 1 then .ok (false, xkp1, Pkp1)
  else if Rk.r ≠ numMeas ∨ Rk.c ≠ numMeas then .ok (false, xkp1, Pkp1)
  else if xkp1.n ≠ numStates then .ok (false, xkp1, Pkp1)
  else if Pkp1.r ≠ numStates ∨ Pkp1.c ≠ numStates then .ok (false, xkp1, Pkp1)
  else do
    let idx := List.range (2 * numStates + 1)
    let zhat ← accumMean Wi zi idx (DVec.zero numMeas)                           -- lines 210-213
    let S ← accumScatter Wi zi zhat zi zhat idx Rk                               -- lines 216-219
    let T ← accumScatter Wi yi xk zi zhat idx (DMat.zero numStates numMeas)      -- lines 222-225
    let Si ← S.inverse L                                                         -- line 228
    let K ← T.mul Si
    if K.r ≠ numStates ∨ K.c ≠ numMeas then .ok (false, xkp1, Pkp1)              -- lines 229-233
    else do
      let nu ← zk.sub zhat
      let Knu ← K.mulVec nu
      let xkp1' ← xk.add Knu
      let KS ← K.mul S
      let KSKt ← KS.mul K.tr
      let Pkp1' ← Pk.sub KSKt
      return (true, xkp1', Pkp1')

end NavFuse.Kalman
