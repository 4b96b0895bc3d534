import Verif.Model.KalmanStore
import Verif.Model.Geodesy
import Verif.Model.LeastSquares
import Verif.Model.NavUtils

/-! # Calls on references

The C++ functions take their arguments by reference, so outputs may share memory with inputs.  This file transcribes the functions in which an
output can have the type of an input once more, over a memory: arguments are addresses, every read and write happens at its place in the
statement sequence.  (The Kalman calls are in `Verif/Model/KalmanStore.lean`.)  An Eigen assignment evaluates its right-hand side before
writing, coefficient by coefficient or through a temporary; the expressions here read a coefficient of the target, if any, only to compute
that same coefficient. -/

namespace NavFuse.Refs
open Gravity Kalman

variable {α : Type} [Add α] [Sub α] [Mul α] [Div α] [Neg α] [Flt α]

/-- memory that holds doubles; a `Vector3d` at `r` occupies `r`, `r + 1`, `r + 2` -/
abbrev Mem (α : Type) := Nat → α
/-- assignment to one double -/
def Mem.set (m : Mem α) (i : Nat) (x : α) : Mem α := fun j => if j = i then x else m j

/-- `Rotations::ecef2Lla` on references, src/util/Rotations.cpp:78-118 -/
def ecef2Lla (rE lat lon alt : Nat) (m : Mem α) : Bool × Mem α :=
  let x := m rE                                                      -- lines 84-86
  let y := m (rE + 1)
  let z := m (rE + 2)
  let e := Flt.sqrt (Flt.lit 1 - Flt.powi (Flt.lit 1 - f) 2)         -- lines 92-95
  let ep := Flt.sqrt ((Flt.powi a 2 - Flt.powi b 2) / Flt.powi b 2)
  let p := Flt.sqrt (Flt.powi x 2 + Flt.powi y 2)
  let th := Flt.atan2 (a * z) (b * p)
  let m := m.set lon (Flt.atan2 y x)                                 -- line 98
  let latY := z + (Flt.powi ep 2 * b * Flt.powi (Flt.sin th) 3)      -- lines 101-103
  let latX := p - (Flt.powi e 2 * a * Flt.powi (Flt.cos th) 3)
  let m := m.set lat (Flt.atan2 latY latX)
  let N := a / Flt.sqrt (Flt.lit 1 - (Flt.powi e 2 * Flt.powi (Flt.sin (m lat)) 2))  -- lines 106-107
  let m := m.set alt ((p / Flt.cos (m lat)) - N)
  let m := m.set lon (Flt.fmod (m lon) (Flt.lit 2 * Flt.pi))         -- lines 110-113
  let m := if Flt.lt Flt.pi (m lon) then m.set lon (m lon - (Flt.lit 2 * Flt.pi)) else m
  (true, m)

/-- `Rotations::lla2Ecef` on references, src/util/Rotations.cpp:121-153 -/
def lla2Ecef (lat lon alt rE : Nat) (m : Mem α) : Bool × Mem α :=
  if Rotations.latLonBad (m lat) (m lon) then (false, m)             -- lines 127-135
  else
    let e := Flt.sqrt (Flt.lit 1 - Flt.powi (Flt.lit 1 - f) 2)       -- line 140
    let N := a / Flt.sqrt (Flt.lit 1 - (Flt.powi e 2 * Flt.powi (Flt.sin (m lat)) 2))  -- line 143
    let m := m.set rE ((N + m alt) * Flt.cos (m lat) * Flt.cos (m lon))                -- line 146
    let m := m.set (rE + 1) ((N + m alt) * Flt.cos (m lat) * Flt.sin (m lon))          -- line 147
    let m := m.set (rE + 2) ((((Flt.lit 1 - Flt.powi e 2) * N) + m alt) * Flt.sin (m lat))  -- line 148
    (true, m)

/-- `Gravity::simpleGravity` on references, src/util/Gravity.cpp:14-26; `normalized()` returns a new vector -/
def simpleGravity (rA gA : Nat) (m : Mem α) : Bool × Mem α :=
  let rSq := vsqNorm ![m rA, m (rA + 1), m (rA + 2)]                 -- line 18
  let n := vnormalized ![m rA, m (rA + 1), m (rA + 2)]               -- line 21
  let c := (-G * mE) / rSq
  let m := m.set gA (c * n 0)
  let m := m.set (gA + 1) (c * n 1)
  let m := m.set (gA + 2) (c * n 2)
  (true, m)

/-- `NavUtils::strapdownDynamics` on references, src/util/NavUtils.cpp:100-141: everything is read before `f` is written -/
def strapdownDynamics (y f : Nat) (dVN gN : V3 α) (dt : α) (s : Store α) : Out (Bool × Store α) := do
  let lat ← (s.vec y).get 0                                          -- lines 107-112
  let _lon ← (s.vec y).get 1
  let h ← (s.vec y).get 2
  let vN ← (s.vec y).get 3
  let vE ← (s.vec y).get 4
  let vD ← (s.vec y).get 5
  let aN := vdiv dVN dt                                              -- lines 120-128
  let fE : α := Gravity.f
  let eSq := (Flt.lit 2 * fE) - Flt.powi fE 2
  let slat := Flt.sin lat
  let clat := Flt.cos lat
  let N := a / Flt.sqrt (Flt.lit 1 - (eSq * Flt.powi slat 2))
  let M := (a * (Flt.lit 1 - eSq)) / Flt.powq (Flt.lit 1 - (eSq * Flt.powi slat 2)) 1.5
  let latDot := vN / (M + h)
  let lonDot := vE / ((N + h) * clat)
  let hDot := -vD
  let f' ← (s.vec f).fill ![latDot, lonDot, hDot,                    -- lines 131-136
    aN 0 + gN 0 - (Flt.lit 2 * wE * slat * vE) + (latDot * vD) - (lonDot * slat * vE),
    aN 1 + gN 1 + (Flt.lit 2 * wE * slat * vN) + (Flt.lit 2 * wE * clat * vD) + (lonDot * slat * vN) + (lonDot * clat * vD),
    aN 2 + gN 2 - (Flt.lit 2 * wE * clat * vE) - (lonDot * clat * vE) - (latDot * vN)]
  return (true, s.setVec f f')

/-- `NavUtils::strapdownRk4` on references, src/util/NavUtils.cpp:33-97: `ykm1` is copied or read up to line 92, which writes `yk` coefficient by
coefficient -/
def strapdownRk4 (ykm1 : Nat) (dt : α) (dVN gN : V3 α) (yk : Nat) (s : Store α) : Out (Bool × Store α) :=
  if (s.vec ykm1).n ≠ 6 then .ok (false, s)
  else if (s.vec yk).n ≠ 6 then .ok (false, s)
  else do
    let r1 ← NavUtils.strapdownDynamics (s.vec ykm1) (DVec.zero 6) dVN gN dt          -- lines 51-59
    if !r1.1 then .ok (false, s) else do
    let K1 := DVec.smul dt r1.2
    let y ← (s.vec ykm1).add (K1.divs (Flt.lit 2))                                    -- lines 62-69
    let r2 ← NavUtils.strapdownDynamics y (DVec.zero 6) dVN gN dt
    if !r2.1 then .ok (false, s) else do
    let K2 := DVec.smul dt r2.2
    let y ← (s.vec ykm1).add (K2.divs (Flt.lit 2))                                    -- lines 72-79
    let r3 ← NavUtils.strapdownDynamics y (DVec.zero 6) dVN gN dt
    if !r3.1 then .ok (false, s) else do
    let K3 := DVec.smul dt r3.2
    let y ← (s.vec ykm1).add K3                                                       -- lines 82-89
    let r4 ← NavUtils.strapdownDynamics y (DVec.zero 6) dVN gN dt
    if !r4.1 then .ok (false, s) else do
    let K4 := DVec.smul dt r4.2
    let t ← (s.vec ykm1).add (DVec.smul (Flt.lit 1 / Flt.lit 6) K1)                   -- line 92
    let t ← t.add (DVec.smul (Flt.lit 1 / Flt.lit 3) K2)
    let t ← t.add (DVec.smul (Flt.lit 1 / Flt.lit 3) K3)
    let t ← t.add (DVec.smul (Flt.lit 1 / Flt.lit 6) K4)
    return (true, s.setVec yk t)

/-- `BatchLeastSquares::UnweightedLinearLeastSquares` on references, src/filter/BatchLeastSquares.cpp:18-49; returns the `bool`, `J` and the memory -/
def unweightedLinear (L : LinSolver α) (yk Hk xk : Nat) (J : α) (s : Store α) : Out (Bool × α × Store α) :=
  let numStates := (s.vec xk).n
  let measBatchSize := (s.vec yk).n
  if (s.mat Hk).r ≠ measBatchSize ∨ (s.mat Hk).c ≠ numStates then .ok (false, J, s)
  else if (s.mat Hk).c > (s.mat Hk).r then .ok (false, J, s)
  else do
    let N ← (s.mat Hk).tr.mul (s.mat Hk)                                              -- line 38
    let b ← (s.mat Hk).tr.mulVec (s.vec yk)
    let x ← N.ldltSolve L b
    let s := s.setVec xk x
    let r ← Lsq.computeCostFunction (s.vec yk) (s.mat Hk) (s.vec xk) J                -- lines 41-44
    if !r.1 then .ok (false, r.2, s) else return (true, r.2, s)

/-- `BatchLeastSquares::WeightedLinearLeastSquares` on references, src/filter/BatchLeastSquares.cpp:52-88 -/
def weightedLinear (L : LinSolver α) (yk Hk Wk xk : Nat) (J : α) (s : Store α) : Out (Bool × α × Store α) :=
  let numStates := (s.vec xk).n
  let measBatchSize := (s.vec yk).n
  if (s.mat Hk).r ≠ measBatchSize ∨ (s.mat Hk).c ≠ numStates then .ok (false, J, s)
  else if (s.mat Wk).r ≠ measBatchSize ∨ (s.mat Wk).c ≠ measBatchSize then .ok (false, J, s)
  else if (s.mat Hk).c > (s.mat Hk).r then .ok (false, J, s)
  else do
    let HtW ← (s.mat Hk).tr.mul (s.mat Wk)                                            -- line 77
    let N ← HtW.mul (s.mat Hk)
    let HtW' ← (s.mat Hk).tr.mul (s.mat Wk)
    let b ← HtW'.mulVec (s.vec yk)
    let x ← N.ldltSolve L b
    let s := s.setVec xk x
    let r ← Lsq.computeCostFunction (s.vec yk) (s.mat Hk) (s.vec xk) J                -- lines 80-83
    if !r.1 then .ok (false, r.2, s) else return (true, r.2, s)

/-- variables of the iteration: the two local vectors and the caller's memory -/
structure NlRef (α : Type) where
  yx : DVec α
  res : DVec α
  mem : Store α

/-- loop body of the unweighted solver on references, src/filter/BatchLeastSquares.cpp:123-146 -/
def bodyU (L : LinSolver α) (M : Lsq.MeasModel α) (yk Hk xk xkp1 : Nat) (s : NlRef α) : Out (Bool × NlRef α) := do
  let p ← M.predicted (s.mem.vec xk) s.yx                                             -- lines 126-129
  if !p.1 then .ok (false, { s with yx := p.2 })
  else do
    let q ← M.relinearize (s.mem.vec xk) (s.mem.mat Hk)                               -- lines 132-135
    let m := s.mem.setMat Hk q.2
    if !q.1 then .ok (false, { s with yx := p.2, mem := m })
    else do
      let N ← (m.mat Hk).tr.mul (m.mat Hk)                                            -- line 138
      let d ← (m.vec yk).sub p.2
      let b ← (m.mat Hk).tr.mulVec d
      let dx ← N.ldltSolve L b
      let x ← (m.vec xk).add dx
      let m := m.setVec xkp1 x
      let r ← (m.vec xkp1).sub (m.vec xk)                                             -- line 141
      let m := m.setVec xk (m.vec xkp1)                                               -- line 144
      return (true, { yx := p.2, res := r, mem := m })

/-- `BatchLeastSquares::UnweightedNonlinearLeastSquares` on references, src/filter/BatchLeastSquares.cpp:91-157. `none`: not finished after `fuel`
rounds. -/
def unweightedNonlinear (L : LinSolver α) (M : Lsq.MeasModel α) (fuel : Nat) (yk Hk xk : Nat) (eps : α) (xkp1 : Nat) (J : α) (s : Store α) :
    Option (Out (Bool × α × Store α)) :=
  let numStates := (s.vec xk).n
  let measBatchSize := (s.vec yk).n
  if (s.mat Hk).r ≠ measBatchSize ∨ (s.mat Hk).c ≠ numStates then some (.ok (false, J, s))
  else if (s.vec xkp1).n ≠ numStates then some (.ok (false, J, s))
  else if (s.mat Hk).c > (s.mat Hk).r then some (.ok (false, J, s))
  else match (s.vec xkp1).sub (s.vec xk) with                                         -- line 120
    | .error e => some (.error e)
    | .ok res =>
      match Lsq.whileLoop (fun s => Flt.lt eps s.res.norm) (bodyU L M yk Hk xk xkp1) fuel ⟨⟨0, Fin.elim0⟩, res, s⟩ with
      | none => none
      | some (.error e) => some (.error e)
      | some (.ok (false, s)) => some (.ok (false, J, s.mem))
      | some (.ok (true, s)) => some (do
          let r ← Lsq.computeCostFunction (s.mem.vec yk) (s.mem.mat Hk) (s.mem.vec xkp1) J   -- lines 149-155
          return (r.1, r.2, s.mem))

/-- loop body of the weighted solver on references, src/filter/BatchLeastSquares.cpp:197-220 -/
def bodyW (L : LinSolver α) (M : Lsq.MeasModel α) (yk Hk Wk xk xkp1 : Nat) (s : NlRef α) : Out (Bool × NlRef α) := do
  let p ← M.predicted (s.mem.vec xk) s.yx                                             -- lines 200-203
  if !p.1 then .ok (false, { s with yx := p.2 })
  else do
    let q ← M.relinearize (s.mem.vec xk) (s.mem.mat Hk)                               -- lines 206-209
    let m := s.mem.setMat Hk q.2
    if !q.1 then .ok (false, { s with yx := p.2, mem := m })
    else do
      let HtW ← (m.mat Hk).tr.mul (m.mat Wk)                                          -- line 212
      let N ← HtW.mul (m.mat Hk)
      let HtW' ← (m.mat Hk).tr.mul (m.mat Wk)
      let d ← (m.vec yk).sub p.2
      let b ← HtW'.mulVec d
      let dx ← N.ldltSolve L b
      let x ← (m.vec xk).add dx
      let m := m.setVec xkp1 x
      let r ← (m.vec xkp1).sub (m.vec xk)                                             -- line 215
      let m := m.setVec xk (m.vec xkp1)                                               -- line 218
      return (true, { yx := p.2, res := r, mem := m })

/-- `BatchLeastSquares::WeightedNonlinearLeastSquares` on references, src/filter/BatchLeastSquares.cpp:160-231. `none`: not finished after `fuel`
rounds. -/
def weightedNonlinear (L : LinSolver α) (M : Lsq.MeasModel α) (fuel : Nat) (yk Hk xk Wk : Nat) (eps : α) (xkp1 : Nat) (J : α) (s : Store α) :
    Option (Out (Bool × α × Store α)) :=
  let numStates := (s.vec xk).n
  let measBatchSize := (s.vec yk).n
  if (s.mat Hk).r ≠ measBatchSize ∨ (s.mat Hk).c ≠ numStates then some (.ok (false, J, s))
  else if (s.vec xkp1).n ≠ numStates then some (.ok (false, J, s))
  else if (s.mat Hk).c > (s.mat Hk).r then some (.ok (false, J, s))
  else if (s.mat Wk).r ≠ measBatchSize ∨ (s.mat Wk).c ≠ measBatchSize then some (.ok (false, J, s))
  else match (s.vec xkp1).sub (s.vec xk) with                                         -- line 194
    | .error e => some (.error e)
    | .ok res =>
      match Lsq.whileLoop (fun s => Flt.lt eps s.res.norm) (bodyW L M yk Hk Wk xk xkp1) fuel ⟨⟨0, Fin.elim0⟩, res, s⟩ with
      | none => none
      | some (.error e) => some (.error e)
      | some (.ok (false, s)) => some (.ok (false, J, s.mem))
      | some (.ok (true, s)) => some (do
          let r ← Lsq.computeCostFunction (s.mem.vec yk) (s.mem.mat Hk) (s.mem.vec xkp1) J   -- lines 223-229
          return (r.1, r.2, s.mem))

end NavFuse.Refs
