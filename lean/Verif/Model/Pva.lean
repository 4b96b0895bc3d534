import Verif.Model.NavUtils

/-! # Model of `src/inertial/pvaErrorDynamics.cpp`

Every function returns the C++ return value together with the new values of the output references `F` and `G`. The member `Gravity` is only used for its
constants (see `Verif/Model/Gravity.lean`). -/

namespace NavFuse.Pva
open Gravity NavUtils

variable {α : Type} [Add α] [Sub α] [Mul α] [Div α] [Neg α] [Flt α]

/-- `PvaErrorDynamics::inertialErrorDynamics`, src/inertial/pvaErrorDynamics.cpp:15-63. -/
def inertialErrorDynamics (aI : V3 α) (GI RS2I : M3 α) (F G : DMat α) : Out (Bool × DMat α × DMat α) :=
  if F.r ≠ 9 ∨ F.c ≠ 9 then .ok (false, F, G)                         -- lines 22-30
  else if G.r ≠ 9 ∨ G.c ≠ 9 then .ok (false, F, G)
  else do
    let F := DMat.zero 9 9                                            -- lines 33-34
    let G := DMat.zero 9 9
    let aX := skewSymmetric aI                                        -- lines 37-42
    if !aX.1 then .ok (false, F, G) else do
    let F ← F.setBlock3 3 0 aX.2                                      -- line 43
    let F ← F.setBlock3 6 3 mid                                       -- line 46
    let F ← F.setBlock3 3 6 GI                                        -- line 49
    let G ← G.setBlock3 0 0 (mneg RS2I)                               -- line 52
    let G ← G.setBlock3 3 3 RS2I                                      -- line 55
    let G ← G.setBlock3 3 6 mid                                       -- line 58
    return (true, F, G)

/-- `PvaErrorDynamics::ecefErrorDynamics`, src/inertial/pvaErrorDynamics.cpp:66-121. -/
def ecefErrorDynamics (aE : V3 α) (GE RS2E OEI_E : M3 α) (F G : DMat α) : Out (Bool × DMat α × DMat α) :=
  if F.r ≠ 9 ∨ F.c ≠ 9 then .ok (false, F, G)                         -- lines 74-82
  else if G.r ≠ 9 ∨ G.c ≠ 9 then .ok (false, F, G)
  else do
    let F := DMat.zero 9 9                                            -- lines 85-86
    let G := DMat.zero 9 9
    let F ← F.setBlock3 0 0 (mneg OEI_E)                              -- line 89
    let aX := skewSymmetric aE                                        -- lines 92-97
    if !aX.1 then .ok (false, F, G) else do
    let F ← F.setBlock3 3 0 aX.2                                      -- line 98
    let F ← F.setBlock3 3 3 (msmul (-Flt.lit 2) OEI_E)                -- line 101
    let F ← F.setBlock3 6 3 mid                                       -- line 104
    let F ← F.setBlock3 3 6 (mneg (msub (mmul OEI_E OEI_E) GE))       -- line 107
    let G ← G.setBlock3 0 0 (mneg RS2E)                               -- line 110
    let G ← G.setBlock3 3 3 RS2E                                      -- line 113
    let G ← G.setBlock3 3 6 mid                                       -- line 116
    return (true, F, G)

/-- First eccentricity squared, src/inertial/pvaErrorDynamics.cpp:164. -/
def eSq : α := (Flt.lit 2 * Gravity.f) - Flt.powi Gravity.f 2
/-- Prime-vertical radius `N`, src/inertial/pvaErrorDynamics.cpp:170. -/
def radN (lat : α) : α := a / (Flt.sqrt (Flt.lit 1 - (eSq * Flt.powi (Flt.sin lat) 2)))
/-- Meridian radius `M`, src/inertial/pvaErrorDynamics.cpp:171. -/
def radM (lat : α) : α := (a * (Flt.lit 1 - eSq)) / Flt.powq (Flt.lit 1 - (eSq * Flt.powi (Flt.sin lat) 2)) 1.5
/-- Gaussian mean radius `RPhi`, src/inertial/pvaErrorDynamics.cpp:172. -/
def radPhi (lat : α) : α := Flt.powq (radN lat * radM lat) 0.5

/-- The matrix written to `F` by `nedErrorDynamics`, src/inertial/pvaErrorDynamics.cpp:145-218. -/
def nedF (aN : V3 α) (GN : M3 α) (lla llaDot llaDDot : V3 α) : Matrix (Fin 9) (Fin 9) α :=
  let lat := lla 0
  let h := lla 2
  let latDot := llaDot 0
  let lonDot := llaDot 1
  let hDot := llaDot 2
  let latDDot := llaDDot 0
  let lonDDot := llaDDot 1
  let a1 := aN 0
  let a2 := aN 1
  let a3 := aN 2
  let G33 := GN 2 2
  let slat := Flt.sin lat
  let clat := Flt.cos lat
  let tlat := Flt.tan lat
  let s2lat := Flt.sin (Flt.lit 2 * lat)
  let c2lat := Flt.cos (Flt.lit 2 * lat)
  let r := radPhi lat + h
  let l1Dot := lonDot + wE
  let l2Dot := lonDot + (Flt.lit 2 * wE)
  let F12 := -l1Dot * slat                                            -- lines 178-207
  let F13 := latDot
  let F15 := clat
  let F17 := -l1Dot * slat
  let F21 := l1Dot * slat
  let F23 := l1Dot * clat
  let F31 := -latDot
  let F32 := -l1Dot * clat
  let F35 := -slat
  let F37 := -l1Dot * clat
  let F42 := -a3 / r
  let F43 := a2 / r
  let F44 := -Flt.lit 2 * hDot / r
  let F45 := -l1Dot * s2lat
  let F46 := -Flt.lit 2 * latDot / r
  let F47 := -lonDot * l2Dot * c2lat
  let F49 := (latDDot + (Flt.lit 0.5 * lonDot * l2Dot * s2lat)) / (-r)
  let F51 := a3 / (r * clat)
  let F53 := -a1 / (r * clat)
  let F54 := Flt.lit 2 * l1Dot * tlat
  let F55 := Flt.lit 2 * ((latDot * tlat) - (hDot / r))
  let F56 := -Flt.lit 2 * l1Dot / r
  let F57 := (Flt.lit 2 * l1Dot * (latDot + (hDot * tlat / r))) + (lonDDot * tlat)
  let F59 := ((Flt.lit 2 * latDot * tlat) - lonDDot) / r
  let F61 := a2
  let F62 := -a1
  let F64 := Flt.lit 2 * r * latDot
  let F65 := Flt.lit 2 * r * l1Dot * Flt.powi clat 2
  let F67 := -r * lonDot * l2Dot * s2lat
  let F69 := (latDot * latDot) + (lonDot * l2Dot * Flt.powi clat 2) + G33
  let o := Flt.lit 0
  let i := Flt.lit 1
  !![o, F12, F13, o, F15, o, F17, o, o;                               -- lines 210-218
     F21, o, F23, -i, o, o, o, o, o;
     F31, F32, o, o, F35, o, F37, o, o;
     o, F42, F43, F44, F45, F46, F47, o, F49;
     F51, o, F53, F54, F55, F56, F57, o, F59;
     F61, F62, o, F64, F65, o, F67, o, F69;
     o, o, o, i, o, o, o, o, o;
     o, o, o, o, i, o, o, o, o;
     o, o, o, o, o, i, o, o, o]

/-- The matrix `D` of `nedErrorDynamics`, src/inertial/pvaErrorDynamics.cpp:221-224. -/
def nedD (lla : V3 α) : M3 α :=
  let lat := lla 0
  let h := lla 2
  !![radM lat + h, Flt.lit 0, Flt.lit 0;
     Flt.lit 0, (radN lat + h) * Flt.cos lat, Flt.lit 0;
     Flt.lit 0, Flt.lit 0, -Flt.lit 1]

/-- `PvaErrorDynamics::nedErrorDynamics`, src/inertial/pvaErrorDynamics.cpp:124-240. -/
def nedErrorDynamics (aN : V3 α) (GN RS2N : M3 α) (lla llaDot llaDDot : V3 α) (F G : DMat α) : Out (Bool × DMat α × DMat α) :=
  if F.r ≠ 9 ∨ F.c ≠ 9 then .ok (false, F, G)                         -- lines 134-142
  else if G.r ≠ 9 ∨ G.c ≠ 9 then .ok (false, F, G)
  else do
    let F ← F.fill (nedF aN GN lla llaDot llaDDot)                    -- lines 210-218
    let Dinv := inv3 (nedD lla)                                       -- line 225
    let G := DMat.zero 9 9                                            -- line 228
    let G ← G.setBlock3 0 0 (mneg RS2N)                               -- line 229
    let G ← G.setBlock3 3 3 (mmul Dinv RS2N)                          -- line 232
    let G ← G.setBlock3 3 6 Dinv                                      -- line 235
    return (true, F, G)

end NavFuse.Pva
