import Verif.Model.Kalman

/-! # The Kalman calls on references

The C++ functions take every argument by reference, so a caller may pass the same object as input and output (`filterPredict(x, P, F, Q, x, P)`).
This file transcribes the same lines of `src/filter/KalmanFilter.cpp` as `Verif/Model/Kalman.lean`, but over a store: arguments are object
identities, every read and write happens at its place in the statement sequence, and a write is visible to every later read through any
reference.  (Each Eigen assignment evaluates its right-hand side before writing: products are evaluated into temporaries by default.) -/

namespace NavFuse.Kalman

variable {α : Type} [Add α] [Sub α] [Mul α] [Div α] [Neg α] [Flt α]

/-- The caller's vector and matrix objects. -/
structure Store (α : Type) where
  vec : Nat → DVec α
  mat : Nat → DMat α

/-- assignment to a vector object -/
def Store.setVec (s : Store α) (i : Nat) (v : DVec α) : Store α := { s with vec := fun j => if j = i then v else s.vec j }
/-- assignment to a matrix object -/
def Store.setMat (s : Store α) (i : Nat) (A : DMat α) : Store α := { s with mat := fun j => if j = i then A else s.mat j }

/-- `KalmanFilter::filterPredict` on references, src/filter/KalmanFilter.cpp:16-58. -/
def filterPredictS (xk Pk Phik Qk xkp1 Pkp1 : Nat) (s : Store α) : Out (Bool × Store α) :=
  let numStates := (s.vec xk).n
  if (s.mat Pk).r ≠ numStates ∨ (s.mat Pk).c ≠ numStates then .ok (false, s)
  else if (s.mat Phik).r ≠ numStates ∨ (s.mat Phik).c ≠ numStates then .ok (false, s)
  else if (s.mat Qk).r ≠ numStates ∨ (s.mat Qk).c ≠ numStates then .ok (false, s)
  else if (s.vec xkp1).n ≠ numStates then .ok (false, s)
  else if (s.mat Pkp1).r ≠ numStates ∨ (s.mat Pkp1).c ≠ numStates then .ok (false, s)
  else do
    let v ← (s.mat Phik).mulVec (s.vec xk)                  -- line 50
    let s := s.setVec xkp1 v
    let t1 ← (s.mat Phik).mul (s.mat Pk)                    -- line 53
    let t2 ← t1.mul (s.mat Phik).tr
    let A ← t2.add (s.mat Qk)
    let s := s.setMat Pkp1 A
    return (true, s)

/-- `KalmanFilter::filterUpdate` on references, src/filter/KalmanFilter.cpp:62-113. -/
def filterUpdateS (L : LinSolver α) (xk Pk zk H Rk xkp1 Pkp1 : Nat) (s : Store α) : Out (Bool × Store α) :=
  let numStates := (s.vec xk).n
  let numMeas := (s.vec zk).n
  if (s.mat Pk).r ≠ numStates ∨ (s.mat Pk).c ≠ numStates then .ok (false, s)
  else if (s.mat H).r ≠ numMeas ∨ (s.mat H).c ≠ numStates then .ok (false, s)
  else if (s.mat Rk).r ≠ numMeas ∨ (s.mat Rk).c ≠ numMeas then .ok (false, s)
  else if (s.vec xkp1).n ≠ numStates then .ok (false, s)
  else if (s.mat Pkp1).r ≠ numStates ∨ (s.mat Pkp1).c ≠ numStates then .ok (false, s)
  else do
    let Hx ← (s.mat H).mulVec (s.vec xk)                    -- line 98
    let nu ← (s.vec zk).sub Hx
    let PHt ← (s.mat Pk).mul (s.mat H).tr                   -- line 101
    let HP ← (s.mat H).mul (s.mat Pk)
    let HPHt ← HP.mul (s.mat H).tr
    let S ← HPHt.add (s.mat Rk)
    let Si ← S.inverse L
    let K ← PHt.mul Si
    let Knu ← K.mulVec nu                                   -- line 104
    let v ← (s.vec xk).add Knu
    let s := s.setVec xkp1 v
    let KH ← K.mul (s.mat H)                                -- line 107
    let IKH ← (DMat.id numStates).sub KH
    let a1 ← IKH.mul (s.mat Pk)                             -- line 108
    let a2 ← a1.mul IKH.tr
    let b1 ← K.mul (s.mat Rk)
    let b2 ← b1.mul K.tr
    let A ← a2.add b2
    let s := s.setMat Pkp1 A
    return (true, s)

/-- loop `for i { xkp1 += Wi(i) * yi.col(i) }` writing to the object `out`, lines 147-149 -/
def accumMeanS (W A out : Nat) : List Nat → Store α → Out (Store α)
  | [], s => .ok s
  | i :: is, s => do
    let w ← (s.vec W).get i
    let c ← (s.mat A).col i
    let acc ← (s.vec out).add (DVec.smul w c)
    accumMeanS W A out is (s.setVec out acc)

/-- loop `for i { Pkp1 += Wi(i) * (yi.col(i) - xkp1) * (yi.col(i) - xkp1).transpose() }`, lines 153-155 -/
def accumScatterS (W A a out : Nat) : List Nat → Store α → Out (Store α)
  | [], s => .ok s
  | i :: is, s => do
    let w ← (s.vec W).get i
    let ca ← (s.mat A).col i
    let da ← ca.sub (s.vec a)
    let cb ← (s.mat A).col i
    let db ← cb.sub (s.vec a)
    let acc ← (s.mat out).add ((DVec.smul w da).outer db)
    accumScatterS W A a out is (s.setMat out acc)

/-- `KalmanFilter::filterUkfPredict` on references, src/filter/KalmanFilter.cpp:117-160. -/
def filterUkfPredictS (Wi yi Qk xkp1 Pkp1 : Nat) (s : Store α) : Out (Bool × Store α) :=
  let numStates := (s.vec xkp1).n
  if (s.mat Pkp1).r ≠ numStates ∨ (s.mat Pkp1).c ≠ numStates then .ok (false, s)
  else if (s.vec Wi).n ≠ 2 * numStates + 1 then .ok (false, s)
  else if (s.mat yi).r ≠ numStates ∨ (s.mat yi).c ≠ 2 * numStates + 1 then .ok (false, s)
  else if (s.mat Qk).r ≠ numStates ∨ (s.mat Qk).c ≠ numStates then .ok (false, s)
  else do
    let s := s.setVec xkp1 (DVec.zero numStates)                             -- line 146
    let s ← accumMeanS Wi yi xkp1 (List.range (2 * numStates + 1)) s         -- lines 147-149
    let s := s.setMat Pkp1 (s.mat Qk)                                        -- line 152
    let s ← accumScatterS Wi yi xkp1 Pkp1 (List.range (2 * numStates + 1)) s -- lines 153-155
    return (true, s)

/-- `KalmanFilter::filterUkfUpdate` on references, src/filter/KalmanFilter.cpp:164-247.  `zhat`, `S`, `T`, `K`, `nu` are locals. -/
def filterUkfUpdateS (L : LinSolver α) (xk Pk yi Wi zi zk Rk xkp1 Pkp1 : Nat) (s : Store α) : Out (Bool × Store α) :=
  let numStates := (s.vec xk).n
  let numMeas := (s.vec zk).n
  if (s.mat Pk).r ≠ numStates ∨ (s.mat Pk).c ≠ numStates then .ok (false, s)
  else if (s.mat yi).r ≠ numStates ∨ (s.mat yi).c ≠ 2 * numStates + 1 then .ok (false, s)
  else if (s.vec Wi).n ≠ 2 * numStates + 1 then .ok (false, s)
  else if (s.mat zi).r ≠ numMeas ∨ (s.mat zi).c ≠ 2 * numStates + 1 then .ok (false, s)
  else if (s.mat Rk).r ≠ numMeas ∨ (s.mat Rk).c ≠ numMeas then .ok (false, s)
  else if (s.vec xkp1).n ≠ numStates then .ok (false, s)
  else if (s.mat Pkp1).r ≠ numStates ∨ (s.mat Pkp1).c ≠ numStates then .ok (false, s)
  else do
    let idx := List.range (2 * numStates + 1)
    let zhat ← accumMean (s.vec Wi) (s.mat zi) idx (DVec.zero numMeas)
    let S ← accumScatter (s.vec Wi) (s.mat zi) zhat (s.mat zi) zhat idx (s.mat Rk)
    let T ← accumScatter (s.vec Wi) (s.mat yi) (s.vec xk) (s.mat zi) zhat idx (DMat.zero numStates numMeas)
    let Si ← S.inverse L
    let K ← T.mul Si
    if K.r ≠ numStates ∨ K.c ≠ numMeas then .ok (false, s)
    else do
      let nu ← (s.vec zk).sub zhat
      let Knu ← K.mulVec nu
      let v ← (s.vec xk).add Knu
      let s := s.setVec xkp1 v                                               -- line 239
      let KS ← K.mul S
      let KSKt ← KS.mul K.tr
      let A ← (s.mat Pk).sub KSKt                                            -- line 242
      let s := s.setMat Pkp1 A
      return (true, s)

end NavFuse.Kalman
