import Mathlib.Analysis.SpecialFunctions.Trigonometric.Basic
import Mathlib.LinearAlgebra.Matrix.Notation
import Verif.Spec.Rotation

/-! # Earth orientation conventions, independent of the model

Precession angles of the IAU 1976 model, mean obliquity and mean sidereal time of the IAU 1980/1982 models, as functions of Julian
centuries since J2000; the customary `R1 R2 R3`, which rotate the frame (so vectors turn the other way). -/

namespace NavFuse.Spec

open Matrix

/-- frame rotation about the first axis -/
noncomputable def R1 (t : ℝ) : Matrix (Fin 3) (Fin 3) ℝ := (rotX t)ᵀ
/-- frame rotation about the second axis -/
noncomputable def R2 (t : ℝ) : Matrix (Fin 3) (Fin 3) ℝ := (rotY t)ᵀ
/-- frame rotation about the third axis -/
noncomputable def R3 (t : ℝ) : Matrix (Fin 3) (Fin 3) ℝ := (rotZ t)ᵀ

/-- one second of arc -/
noncomputable def arcsec : ℝ := Real.pi / 648000

/-- Julian centuries from J2000.0 to a Modified Julian Date -/
noncomputable def centuries (mjd : ℝ) : ℝ := (mjd - 51544.5) / 36525

/-- IAU 1976 precession angles -/
noncomputable def iauZeta (T : ℝ) : ℝ := (2306.2181 * T + 0.30188 * T ^ 2 + 0.017998 * T ^ 3) * arcsec
noncomputable def iauZ (T : ℝ) : ℝ := (2306.2181 * T + 1.09468 * T ^ 2 + 0.018203 * T ^ 3) * arcsec
noncomputable def iauTheta (T : ℝ) : ℝ := (2004.3109 * T - 0.42665 * T ^ 2 - 0.041833 * T ^ 3) * arcsec

/-- mean obliquity of the ecliptic, 23°26'21.448" at J2000 (the code's decimal degrees are 84381.447996") -/
noncomputable def iauObliquity (T : ℝ) : ℝ := (84381.447996 - 46.8150 * T - 0.00059 * T ^ 2 + 0.001813 * T ^ 3) * arcsec

/-- precession, nutation by the given angles, Earth rotation by the given sidereal angle, polar motion -/
noncomputable def iauMatrix (T dpsi deps gast xp yp : ℝ) : Matrix (Fin 3) (Fin 3) ℝ :=
  (R2 (-xp) * R1 (-yp)) * R3 gast * (R1 (-(iauObliquity T + deps)) * R3 (-dpsi) * R1 (iauObliquity T)) *
    (R3 (-iauZ T) * R2 (iauTheta T) * R3 (-iauZeta T))

end NavFuse.Spec
