import Verif.Model.Gravity

/-! # `NavUtils` (src/util/NavUtils.cpp) -/

namespace NavFuse.NavUtils
open Gravity

variable {α : Type} [Add α] [Sub α] [Mul α] [Div α] [Neg α] [Flt α]

/-- `NavUtils::skewSymmetric`, src/util/NavUtils.cpp:14-30 -/
def skewSymmetric (vec : V3 α) : Bool × M3 α :=
  let v1 := vec 0                                                    -- lines 18-20
  let v2 := vec 1
  let v3 := vec 2
  (true, !![Flt.lit 0, -v3, v2;                                      -- lines 23-25
            v3, Flt.lit 0, -v1;
            -v2, v1, Flt.lit 0])

/-- `NavUtils::strapdownDynamics`, src/util/NavUtils.cpp:100-141. Returns the `bool` and the new `f`. -/
def strapdownDynamics (y f : DVec α) (dVN gN : V3 α) (dt : α) : Out (Bool × DVec α) := do
  let lat ← y.get 0                                                  -- lines 107-112 (lon is read and not used)
  let _lon ← y.get 1
  let h ← y.get 2
  let vN ← y.get 3
  let vE ← y.get 4
  let vD ← y.get 5
  let aN := vdiv dVN dt                                              -- line 120
  let fE : α := Gravity.f
  let eSq := (Flt.lit 2 * fE) - Flt.powi fE 2                        -- line 121
  let slat := Flt.sin lat
  let clat := Flt.cos lat
  let N := a / Flt.sqrt (Flt.lit 1 - (eSq * Flt.powi slat 2))        -- line 124
  let M := (a * (Flt.lit 1 - eSq)) / Flt.powq (Flt.lit 1 - (eSq * Flt.powi slat 2)) 1.5   -- line 125
  let latDot := vN / (M + h)                                         -- lines 126-128
  let lonDot := vE / ((N + h) * clat)
  let hDot := -vD
  let f' ← f.fill ![latDot, lonDot, hDot,                            -- lines 131-136
    aN 0 + gN 0 - (Flt.lit 2 * wE * slat * vE) + (latDot * vD) - (lonDot * slat * vE),
    aN 1 + gN 1 + (Flt.lit 2 * wE * slat * vN) + (Flt.lit 2 * wE * clat * vD) + (lonDot * slat * vN) + (lonDot * clat * vD),
    aN 2 + gN 2 - (Flt.lit 2 * wE * clat * vE) - (lonDot * clat * vE) - (latDot * vN)]
  return (true, f')

/-- `NavUtils::strapdownRk4`, src/util/NavUtils.cpp:33-97. Returns the `bool` and the new `yk`. The local vectors `f1`…`f4` are
`VectorXd(6)`; their uninitialised contents are never read, and are represented by zeros. -/
def strapdownRk4 (ykm1 : DVec α) (dt : α) (dVN gN : V3 α) (yk : DVec α) : Out (Bool × DVec α) :=
  if ykm1.n ≠ 6 then .ok (false, yk)                                 -- lines 40-43
  else if yk.n ≠ 6 then .ok (false, yk)                              -- lines 44-48
  else do
    let r1 ← strapdownDynamics ykm1 (DVec.zero 6) dVN gN dt          -- lines 51-59
    if !r1.1 then .ok (false, yk) else do
    let K1 := DVec.smul dt r1.2
    let y ← ykm1.add (K1.divs (Flt.lit 2))                           -- lines 62-69
    let r2 ← strapdownDynamics y (DVec.zero 6) dVN gN dt
    if !r2.1 then .ok (false, yk) else do
    let K2 := DVec.smul dt r2.2
    let y ← ykm1.add (K2.divs (Flt.lit 2))                           -- lines 72-79
    let r3 ← strapdownDynamics y (DVec.zero 6) dVN gN dt
    if !r3.1 then .ok (false, yk) else do
    let K3 := DVec.smul dt r3.2
    let y ← ykm1.add K3                                              -- lines 82-89
    let r4 ← strapdownDynamics y (DVec.zero 6) dVN gN dt
    if !r4.1 then .ok (false, yk) else do
    let K4 := DVec.smul dt r4.2
    let s ← ykm1.add (DVec.smul (Flt.lit 1 / Flt.lit 6) K1)          -- line 92
    let s ← s.add (DVec.smul (Flt.lit 1 / Flt.lit 3) K2)
    let s ← s.add (DVec.smul (Flt.lit 1 / Flt.lit 3) K3)
    let s ← s.add (DVec.smul (Flt.lit 1 / Flt.lit 6) K4)
    return (true, s)

end NavFuse.NavUtils
