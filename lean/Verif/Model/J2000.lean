import Verif.Model.Eop
import Verif.Model.NutTable
import Verif.Model.Calendar
import Verif.Eigen

/-! # `Rotations`: J2000 inertial to ECEF (src/util/Rotations.cpp:156-289 and 531-817) -/

namespace NavFuse.Rotations

variable {α : Type} [Add α] [Sub α] [Mul α] [Div α] [Neg α] [Flt α]

/-- a 3×3 matrix of the form used for `Rx1`, `Rx2`, `Rx` (e.g. src/util/Rotations.cpp:584-586): frame rotation about the first axis -/
def frameX (t : α) : M3 α :=
  !![Flt.lit 1, Flt.lit 0, Flt.lit 0; Flt.lit 0, Flt.cos t, Flt.sin t; Flt.lit 0, -Flt.sin t, Flt.cos t]
/-- a 3×3 matrix of the form used for `Ry` (e.g. src/util/Rotations.cpp:551-553): frame rotation about the second axis -/
def frameY (t : α) : M3 α :=
  !![Flt.cos t, Flt.lit 0, -Flt.sin t; Flt.lit 0, Flt.lit 1, Flt.lit 0; Flt.sin t, Flt.lit 0, Flt.cos t]
/-- a 3×3 matrix of the form used for `Rz1`, `Rz2`, `Rz`, `RGha` (e.g. src/util/Rotations.cpp:548-550): frame rotation about the third
axis -/
def frameZ (t : α) : M3 α :=
  !![Flt.cos t, Flt.sin t, Flt.lit 0; -Flt.sin t, Flt.cos t, Flt.lit 0; Flt.lit 0, Flt.lit 0, Flt.lit 1]

/-- `Rotations::computePrecession`, src/util/Rotations.cpp:531-564; always returns true -/
def computePrecession (mjd1 mjd2 : α) : M3 α :=
  let T := (mjd1 - mjdJ2000) / Flt.lit 36525                         -- lines 536-537
  let dT := (mjd2 - mjd1) / Flt.lit 36525
  let zeta := (((Flt.lit 2306.2181 + (Flt.lit 1.39656 - Flt.lit 0.000139 * T) * T) +  -- lines 540-545
    ((Flt.lit 0.30188 - Flt.lit 0.000344 * T) + Flt.lit 0.017998 * dT) * dT) * dT) / arcs
  let z := zeta + ((((Flt.lit 0.79280 + Flt.lit 0.000411 * T) + Flt.lit 0.000205 * dT) * dT) * dT) / arcs
  let theta := (((Flt.lit 2004.3109 - (Flt.lit 0.85330 + Flt.lit 0.000217 * T) * T) -
    ((Flt.lit 0.42665 + Flt.lit 0.000217 * T) + Flt.lit 0.041833 * dT) * dT) * dT) / arcs
  mmul (mmul (frameZ (-z)) (frameY theta)) (frameZ (-zeta))          -- lines 548-559

/-- `rev`, src/util/Rotations.cpp:671 -/
def rev : α := Flt.lit 360 * Flt.lit 3600

/-- one of the five fundamental arguments: `std::fmod` and the correction to non-negative, e.g. src/util/Rotations.cpp:781-784 -/
def reduceRev (x : α) : α :=
  let l := Flt.fmod x rev
  if Flt.lt l (Flt.lit 0) then l + rev else l

/-- the polynomials of the fundamental arguments l, l', F, D, Ω, src/util/Rotations.cpp:668-670, 781-800 -/
def argPolys (T : α) : α × α × α × α × α :=
  let T2 := T * T
  let T3 := T2 * T
  (((Flt.lit 485866.733 + ((Flt.lit 1325 * rev) + Flt.lit 715922.633) * T) + Flt.lit 31.310 * T2) + Flt.lit 0.064 * T3,
   ((Flt.lit 1287099.804 + ((Flt.lit 99 * rev) + Flt.lit 1292581.224) * T) - Flt.lit 0.577 * T2) - Flt.lit 0.012 * T3,
   ((Flt.lit 335778.877 + ((Flt.lit 1342 * rev) + Flt.lit 295263.137) * T) - Flt.lit 13.257 * T2) + Flt.lit 0.011 * T3,
   ((Flt.lit 1072261.307 + ((Flt.lit 1236 * rev) + Flt.lit 1105601.328) * T) - Flt.lit 6.891 * T2) + Flt.lit 0.019 * T3,
   ((Flt.lit 450160.280 - ((Flt.lit 5 * rev) + Flt.lit 482890.539) * T) + Flt.lit 7.455 * T2) + Flt.lit 0.008 * T3)

/-- `arg`, src/util/Rotations.cpp:807 -/
def nutArg (l lp F D Om : α) (c : NutRow) : α :=
  (((((Flt.ofInt c.c0 * l) + (Flt.ofInt c.c1 * lp)) + (Flt.ofInt c.c2 * F)) + (Flt.ofInt c.c3 * D)) + (Flt.ofInt c.c4 * Om)) / arcs

/-- `Rotations::nutationAngles`, src/util/Rotations.cpp:663-817: `dpsi` and `deps`; always returns true -/
def nutationAngles (mjdTt : α) : α × α :=
  let T := (mjdTt - mjdJ2000) / Flt.lit 36525                        -- line 668
  let (l, lp, F, D, Om) := argPolys T
  let l := reduceRev l                                               -- lines 781-800
  let lp := reduceRev lp
  let F := reduceRev F
  let D := reduceRev D
  let Om := reduceRev Om
  let s := nutTable.foldl (fun (s : α × α) c =>                      -- lines 803-810
    let arg := nutArg l lp F D Om c
    (s.1 + ((Flt.ofInt c.c5 + (Flt.ofInt c.c6 * T)) * Flt.sin arg),
     s.2 + ((Flt.ofInt c.c7 + (Flt.ofInt c.c8 * T)) * Flt.cos arg))) (Flt.lit 0, Flt.lit 0)
  ((Flt.lit 0.00001 * s.1) / arcs, (Flt.lit 0.00001 * s.2) / arcs)   -- lines 811-812

/-- mean obliquity of the ecliptic, src/util/Rotations.cpp:571-573 and 622-623 -/
def meanObliquity (mjdTt : α) : α :=
  let T := (mjdTt - mjdJ2000) / Flt.lit 36525
  radC * (Flt.lit 23.43929111 - (((Flt.lit 46.8150 + ((Flt.lit 0.00059 - (Flt.lit 0.001813 * T)) * T)) * T) / Flt.lit 3600))

/-- `Rotations::computeNutation`, src/util/Rotations.cpp:567-600; always returns true -/
def computeNutation (mjdTt : α) : M3 α :=
  let ep := meanObliquity mjdTt
  let (dpsi, deps) := nutationAngles mjdTt                           -- lines 576-580
  mmul (mmul (frameX ((-ep) - deps)) (frameZ (-dpsi))) (frameX ep)   -- lines 583-595

/-- Greenwich mean sidereal time in seconds, src/util/Rotations.cpp:608-613 -/
def gmstSec (mjdUt1 : α) : α :=
  let secs := Flt.lit 86400
  let mjd0 := Flt.floor mjdUt1
  let Ut1 := secs * (mjdUt1 - mjd0)
  let t0 := (mjd0 - mjdJ2000) / Flt.lit 36525
  let t := (mjdUt1 - mjdJ2000) / Flt.lit 36525
  ((Flt.lit 24110.54841 + (Flt.lit 8640184.812866 * t0)) + (Flt.lit 1.002737909350795 * Ut1)) +
    (((Flt.lit 0.093104 - (Flt.lit 0.0000062 * t)) * t) * t)

/-- `gsTime`, src/util/Rotations.cpp:608-628: Greenwich apparent sidereal time as an angle -/
def gsTime (mjdUt1 mjdTt : α) : α :=
  let secs := Flt.lit 86400
  let gmst := gmstSec mjdUt1
  let gmsTime := (Flt.lit 2 * Flt.pi) * ((gmst / secs) - Flt.floor (gmst / secs))  -- line 614
  let (dpsi, _) := nutationAngles mjdTt                              -- lines 617-624
  let EqE := dpsi * Flt.cos (meanObliquity mjdTt)
  Flt.fmod (gmsTime + EqE) (Flt.lit 2 * Flt.pi)                      -- line 628

/-- `Rotations::computeGreenwichHourAngle`, src/util/Rotations.cpp:603-638; always returns true -/
def computeGreenwichHourAngle (mjdUt1 mjdTt : α) : M3 α := frameZ (gsTime mjdUt1 mjdTt)

/-- `Rotations::polarRotation`, src/util/Rotations.cpp:641-660; always returns true -/
def polarRotation (xPole yPole : α) : M3 α := mmul (frameY (-xPole)) (frameX (-yPole))

/-- the product of the four matrices, src/util/Rotations.cpp:181-216 and 249-284 -/
def j2kProduct (mjdUtc : α) (e : EopVal α) : M3 α :=
  let ttTai := Flt.lit 32.184                                        -- lines 181-185
  let utcTai := -e.taiUtc
  let ttUtc := ttTai - utcTai
  let mjdUt1 := mjdUtc + (e.ut1Utc / Flt.lit 86400)
  let mjdTt := mjdUtc + (ttUtc / Flt.lit 86400)
  mmul (mmul (mmul (polarRotation e.xPole e.yPole) (computeGreenwichHourAngle mjdUt1 mjdTt)) (computeNutation mjdTt))
    (computePrecession mjdJ2000 mjdTt)

/-- `Rotations::computeRJ2k2Ecef`, src/util/Rotations.cpp:156-221; also returns the object as it is afterwards.  `mjdUtc` is
uninitialised before it is written; `convertDatevec2Mjd` does not read it. -/
def computeRJ2k2Ecef (obj : Obj α) (dateVec : List α) (_eopFile : List Char) (RJ2E : M3 α) : Out (Bool × M3 α × Obj α) :=
  if dateVec.length ≠ 6 then .ok (false, RJ2E, obj)                  -- lines 161-164
  else do
    let (ok, mjdUtc) ← convertDatevec2Mjd dateVec (Flt.lit 0)        -- lines 167-171
    if !ok then .ok (false, RJ2E, obj)
    else
      match ← getCurrentEop obj mjdUtc with                          -- lines 174-178
      | none => .ok (false, RJ2E, obj)
      | some e => .ok (true, j2kProduct mjdUtc e, obj)               -- lines 181-219

/-- `Rotations::computeREcef2J2k`, src/util/Rotations.cpp:224-289 -/
def computeREcef2J2k (obj : Obj α) (dateVec : List α) (_eopFile : List Char) (RE2J : M3 α) : Out (Bool × M3 α × Obj α) :=
  if dateVec.length ≠ 6 then .ok (false, RE2J, obj)                  -- lines 229-232
  else do
    let (ok, mjdUtc) ← convertDatevec2Mjd dateVec (Flt.lit 0)        -- lines 235-239
    if !ok then .ok (false, RE2J, obj)
    else
      match ← getCurrentEop obj mjdUtc with                          -- lines 242-246
      | none => .ok (false, RE2J, obj)
      | some e => .ok (true, mtr (j2kProduct mjdUtc e), obj)         -- lines 249-287

end NavFuse.Rotations
