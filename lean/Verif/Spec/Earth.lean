import Mathlib.LinearAlgebra.CrossProduct
import Mathlib.Analysis.SpecialFunctions.Trigonometric.Basic
import Mathlib.Analysis.SpecialFunctions.Pow.Real

/-! # The earth ellipsoid, the navigation equations and the Runge-Kutta method, independent of the model -/

namespace NavFuse.Spec

open Matrix

/-- GRS 80 equatorial radius in metres -/
noncomputable def semiMajor : ℝ := 6378137
/-- GRS 80 flattening -/
noncomputable def flattening : ℝ := 1 / 298.257222101
/-- polar radius of the ellipsoid -/
noncomputable def semiMinor : ℝ := semiMajor * (1 - flattening)
/-- squared first eccentricity -/
noncomputable def ecc2 : ℝ := 1 - (semiMinor / semiMajor) ^ 2
/-- rotation rate of the earth in radians per second -/
noncomputable def earthRate : ℝ := 7.292115e-5

/-- radius of curvature of the ellipsoid in the prime vertical (east-west), at geodetic latitude `φ` -/
noncomputable def primeVertical (φ : ℝ) : ℝ := semiMajor / Real.sqrt (1 - ecc2 * Real.sin φ ^ 2)
/-- radius of curvature of the ellipsoid in the meridian (north-south), at geodetic latitude `φ` -/
noncomputable def meridian (φ : ℝ) : ℝ := semiMajor * (1 - ecc2) / (Real.sqrt (1 - ecc2 * Real.sin φ ^ 2)) ^ 3

/-- A position (latitude, longitude, altitude) at which the geodetic coordinates are regular: off the poles and away from the centres
of curvature. -/
structure RegularPos (lat h : ℝ) : Prop where
  pole : Real.cos lat ≠ 0
  merid : meridian lat + h ≠ 0
  prime : primeVertical lat + h ≠ 0

/-- Rates of latitude, longitude and altitude of a point moving with north-east-down velocity `v`. -/
noncomputable def posRates (lat h : ℝ) (v : Fin 3 → ℝ) : Fin 3 → ℝ :=
  ![v 0 / (meridian lat + h), v 1 / ((primeVertical lat + h) * Real.cos lat), -v 2]

/-- Angular velocity of the earth in north-east-down coordinates. -/
noncomputable def earthVec (lat : ℝ) : Fin 3 → ℝ := earthRate • ![Real.cos lat, 0, -Real.sin lat]
/-- Angular velocity of the north-east-down frame relative to the earth (transport rate). -/
noncomputable def transportVec (lat latDot lonDot : ℝ) : Fin 3 → ℝ := ![lonDot * Real.cos lat, -latDot, -lonDot * Real.sin lat]

/-- Acceleration in north-east-down coordinates of a vehicle with specific force `s` and gravity `g`:
`dv/dt = s + g - (2 Ω + ω) × v`. -/
noncomputable def velRates (lat h : ℝ) (v s g : Fin 3 → ℝ) : Fin 3 → ℝ :=
  s + g - ((2 : ℝ) • earthVec lat + transportVec lat (posRates lat h v 0) (posRates lat h v 1)) ⨯₃ v

/-- The navigation equations for the state (lat, lon, alt, vN, vE, vD). -/
noncomputable def navRates (s g : Fin 3 → ℝ) (y : Fin 6 → ℝ) : Fin 6 → ℝ :=
  let p := posRates (y 0) (y 2) ![y 3, y 4, y 5]
  let q := velRates (y 0) (y 2) ![y 3, y 4, y 5] s g
  ![p 0, p 1, p 2, q 0, q 1, q 2]

/-- One step of the classical fourth-order Runge-Kutta method for `y' = F y`. -/
noncomputable def rk4 {n : ℕ} (F : (Fin n → ℝ) → Fin n → ℝ) (dt : ℝ) (y : Fin n → ℝ) : Fin n → ℝ :=
  let k1 := F y
  let k2 := F (y + (dt / 2) • k1)
  let k3 := F (y + (dt / 2) • k2)
  let k4 := F (y + dt • k3)
  y + (dt / 6) • (k1 + (2 : ℝ) • k2 + (2 : ℝ) • k3 + k4)

end NavFuse.Spec
