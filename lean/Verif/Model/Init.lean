import Verif.Model.Kalman

/-! # Model of `src/inertial/initialization.cpp`

The class has no data of its own besides a stateless `KalmanFilter` object, so its member functions are plain functions. Reference parameters that
are only read are passed by value. `L` stands for Eigen's dynamic `inverse()` used by `KalmanFilter::filterUpdate`. -/

namespace NavFuse.Init

variable {α : Type} [Add α] [Sub α] [Mul α] [Div α] [Neg α] [Flt α]

/-- The matrix `A` of `coarseAttitudeAlignment`, src/inertial/initialization.cpp:23-30. -/
def alignA (lat wE g : α) : M3 α :=
  let slat := Flt.sin lat
  let clat := Flt.cos lat
  !![Flt.lit 0, Flt.lit 0, -g;
     wE * clat, Flt.lit 0, -wE * slat;
     Flt.lit 0, g * wE * clat, Flt.lit 0]

/-- The matrix `B` of `coarseAttitudeAlignment`, src/inertial/initialization.cpp:33-36; `-aB.cross(wIB_B)` negates the cross product. -/
def alignB (aB wIB_B : V3 α) : M3 α :=
  let c := vcross aB wIB_B
  !![aB 0, aB 1, aB 2; wIB_B 0, wIB_B 1, wIB_B 2; -c 0, -c 1, -c 2]

/-- `Initialization::coarseAttitudeAlignment`, src/inertial/initialization.cpp:15-44. Returns the return value and `RB2N`. -/
def coarseAttitudeAlignment (lat wE g : α) (aB wIB_B : V3 α) : Bool × M3 α :=
  (true, mmul (inv3 (alignA lat wE g)) (alignB aB wIB_B))

/-- The matrix `Phik` of `fineAlignmentPredict`, src/inertial/initialization.cpp:74-88. -/
def phi (lat wE g r : α) : Matrix (Fin 8) (Fin 8) α :=
  let slat := Flt.sin lat
  let clat := Flt.cos lat
  let tlat := Flt.tan lat
  let o := Flt.lit 0
  !![o, -wE * slat, o, -Flt.lit 1, o, o, o, Flt.lit 1 / r;
     wE * slat, o, wE * clat, o, -Flt.lit 1, o, -Flt.lit 1 / r, o;
     o, -wE * clat, o, o, o, -Flt.lit 1, o, tlat / r;
     o, o, o, o, o, o, o, o;
     o, o, o, o, o, o, o, o;
     o, o, o, o, o, o, o, o;
     o, g, o, o, o, o, o, -Flt.lit 2 * wE * slat;
     -g, o, o, o, o, o, Flt.lit 2 * wE * slat, o]

/-- `Initialization::fineAlignmentPredict`, src/inertial/initialization.cpp:47-102. -/
def fineAlignmentPredict (lat wE g r : α) (xk : DVec α) (Pk : DMat α) (xkp1 : DVec α) (Pkp1 : DMat α) : Out (Bool × DVec α × DMat α) :=
  let numStates := xk.n
  if Pk.r ≠ numStates ∨ Pk.c ≠ numStates then .ok (false, xkp1, Pkp1)
  else if xkp1.n ≠ numStates then .ok (false, xkp1, Pkp1)
  else if Pkp1.r ≠ numStates ∨ Pkp1.c ≠ numStates then .ok (false, xkp1, Pkp1)
  else do
    let Phik : DMat α := ⟨8, 8, phi lat wE g r⟩
    let Qk := DMat.zero numStates numStates                                              -- line 91
    let res ← Kalman.filterPredict xk Pk Phik Qk xkp1 Pkp1                               -- line 94
    if !res.1 then .ok (false, res.2.1, res.2.2)
    else .ok (true, res.2.1, res.2.2)

/-- `Initialization::fineAlignmentAzimuthUpdate`, src/inertial/initialization.cpp:105-155. -/
def fineAlignmentAzimuthUpdate (L : LinSolver α) (azMeas dtAz azEst sigAz : α) (xk : DVec α) (Pk : DMat α) (xkp1 : DVec α) (Pkp1 : DMat α) :
    Out (Bool × DVec α × DMat α) :=
  let numStates := xk.n
  if Pk.r ≠ numStates ∨ Pk.c ≠ numStates then .ok (false, xkp1, Pkp1)
  else if xkp1.n ≠ numStates then .ok (false, xkp1, Pkp1)
  else if Pkp1.r ≠ numStates ∨ Pkp1.c ≠ numStates then .ok (false, xkp1, Pkp1)
  else do
    let azRes := azMeas - azEst                                                          -- line 133
    let sASq := sigAz * sigAz                                                            -- line 136
    let o := Flt.lit 0
    let z : DVec α := ⟨1, ![azRes]⟩
    let H : DMat α := ⟨1, 8, !![o, o, Flt.lit 1, o, o, o, o, o]⟩
    let R : DMat α := ⟨1, 1, !![sASq * dtAz]⟩
    let res ← Kalman.filterUpdate L xk Pk z H R xkp1 Pkp1                                -- line 147
    if !res.1 then .ok (false, res.2.1, res.2.2)
    else .ok (true, res.2.1, res.2.2)

/-- `Initialization::fineAlignmentVelocityUpdate`, src/inertial/initialization.cpp:158-206. -/
def fineAlignmentVelocityUpdate (L : LinSolver α) (velMeas : Fin 2 → α) (dtVel sigVel : α) (xk : DVec α) (Pk : DMat α) (xkp1 : DVec α)
    (Pkp1 : DMat α) : Out (Bool × DVec α × DMat α) :=
  let numStates := xk.n
  if Pk.r ≠ numStates ∨ Pk.c ≠ numStates then .ok (false, xkp1, Pkp1)
  else if xkp1.n ≠ numStates then .ok (false, xkp1, Pkp1)
  else if Pkp1.r ≠ numStates ∨ Pkp1.c ≠ numStates then .ok (false, xkp1, Pkp1)
  else do
    let sVSq := sigVel * sigVel                                                          -- line 185
    let o := Flt.lit 0
    let z : DVec α := ⟨2, ![velMeas 0, velMeas 1]⟩
    let H : DMat α := ⟨2, 8, !![o, o, o, o, o, o, Flt.lit 1, o; o, o, o, o, o, o, o, Flt.lit 1]⟩
    let R : DMat α := ⟨2, 2, !![sVSq * dtVel, o; o, sVSq * dtVel]⟩
    let res ← Kalman.filterUpdate L xk Pk z H R xkp1 Pkp1                                -- line 198
    if !res.1 then .ok (false, res.2.1, res.2.2)
    else .ok (true, res.2.1, res.2.2)

end NavFuse.Init
