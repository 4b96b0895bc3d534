import Verif.Model.Geodesy
import Verif.Lemmas.NavEval
import Verif.Lemmas.Rot
import Mathlib.Analysis.SpecialFunctions.Trigonometric.Deriv
import Mathlib.Analysis.SpecialFunctions.Sqrt
import Mathlib.Analysis.Calculus.Deriv.Prod

/-! The geodetic functions at ℝ, and calculus on the ellipsoid. -/

set_option linter.unusedSimpArgs false

namespace NavFuse.Rotations
open Matrix Spec Gravity NavUtils

/-- latitude and longitude in the accepted range -/
def InRange (lat lon : ℝ) : Prop := |lat| ≤ Real.pi / 2 ∧ |lon| ≤ Real.pi

theorem bad_R (lat lon : ℝ) : latLonBad lat lon = true ↔ ¬InRange lat lon := by
  simp only [latLonBad, rsimp, Bool.or_eq_true, InRange, not_and_or, not_le]

theorem bad_false {lat lon : ℝ} (h : InRange lat lon) : latLonBad lat lon = false := by
  rw [← Bool.not_eq_true, bad_R, not_not]; exact h

/-- the code's first eccentricity, squared -/
theorem e_sq : (Flt.powi (Flt.sqrt (Flt.lit 1 - Flt.powi (Flt.lit 1 - (Gravity.f : ℝ)) 2)) 2 : ℝ) = ecc2 := by
  have hf : (Gravity.f : ℝ) = flattening := by simp only [Gravity.f, rsimp, flattening]
  simp only [rsimp, hf]
  have : (1 : ℝ) - (1 - flattening) ^ 2 = ecc2 := by rw [ecc2_eq]; ring
  rw [this, Real.sq_sqrt ecc2_pos.le]

/-- the position written by `lla2Ecef` -/
noncomputable def ellPoint (lat lon h : ℝ) : V3 ℝ :=
  ![(primeVertical lat + h) * Real.cos lat * Real.cos lon, (primeVertical lat + h) * Real.cos lat * Real.sin lon,
    ((1 - ecc2) * primeVertical lat + h) * Real.sin lat]

theorem lla2Ecef_R {lat lon : ℝ} (h : InRange lat lon) (alt : ℝ) (r0 : V3 ℝ) : lla2Ecef lat lon alt r0 = (true, ellPoint lat lon alt) := by
  simp only [lla2Ecef, bad_false h, e_sq, a_R]
  simp only [rsimp]
  rfl

/-- the matrix written by `computeRNed2Ecef` -/
noncomputable def ned2ecef (lat lon : ℝ) : M3 ℝ :=
  !![-Real.sin lat * Real.cos lon, -Real.sin lon, -Real.cos lat * Real.cos lon;
     -Real.sin lat * Real.sin lon, Real.cos lon, -Real.cos lat * Real.sin lon;
     Real.cos lat, 0, -Real.sin lat]

theorem ned2ecef_R {lat lon : ℝ} (h : InRange lat lon) (R0 : M3 ℝ) : computeRNed2Ecef lat lon R0 = (true, ned2ecef lat lon) := by
  simp only [computeRNed2Ecef, bad_false h]
  simp only [rsimp]
  rfl

theorem ned2ecef_isRot (lat lon : ℝ) : IsRot (ned2ecef lat lon) := by
  have h1 := Real.sin_sq_add_cos_sq lat
  have h2 := Real.sin_sq_add_cos_sq lon
  constructor
  · ext i j
    fin_cases i <;> fin_cases j <;> simp [ned2ecef, mul_apply, Fin.sum_univ_three] <;> grind
  · simp [ned2ecef, det_fin_three]; grind

/-! Calculus. -/

theorem W_sq (φ : ℝ) : Real.sqrt (1 - ecc2 * Real.sin φ ^ 2) ^ 2 = 1 - ecc2 * Real.sin φ ^ 2 := Real.sq_sqrt (w_pos φ).le

theorem hasDerivAt_W (φ : ℝ) : HasDerivAt (fun φ => Real.sqrt (1 - ecc2 * Real.sin φ ^ 2))
    (-(ecc2 * Real.sin φ * Real.cos φ) / Real.sqrt (1 - ecc2 * Real.sin φ ^ 2)) φ := by
  have hs : HasDerivAt (fun φ => Real.sin φ ^ 2) _ φ := (Real.hasDerivAt_sin φ).pow 2
  have h := ((hs.const_mul ecc2).const_sub 1).sqrt (w_pos φ).ne'
  refine h.congr_deriv ?_
  have := (Real.sqrt_pos.2 (w_pos φ)).ne'
  push_cast
  field_simp

theorem hasDerivAt_N (φ : ℝ) : HasDerivAt primeVertical
    (semiMajor * (ecc2 * Real.sin φ * Real.cos φ) / Real.sqrt (1 - ecc2 * Real.sin φ ^ 2) ^ 3) φ := by
  have h := (hasDerivAt_const φ semiMajor).div (hasDerivAt_W φ) (Real.sqrt_pos.2 (w_pos φ)).ne'
  refine h.congr_deriv ?_
  have := (Real.sqrt_pos.2 (w_pos φ)).ne'
  field_simp
  ring

/-- the distance from the axis changes with latitude at the rate `-M sin φ` -/
theorem hasDerivAt_Ncos (φ : ℝ) : HasDerivAt (fun φ => primeVertical φ * Real.cos φ) (-(meridian φ * Real.sin φ)) φ := by
  refine ((hasDerivAt_N φ).mul (Real.hasDerivAt_cos φ)).congr_deriv ?_
  have hW := (Real.sqrt_pos.2 (w_pos φ)).ne'
  have h2 := W_sq φ
  have h1 := Real.sin_sq_add_cos_sq φ
  simp only [primeVertical, meridian]
  generalize Real.sqrt (1 - ecc2 * Real.sin φ ^ 2) = W at *
  field_simp
  rw [h2]
  have hc : Real.cos φ ^ 2 = 1 - Real.sin φ ^ 2 := by linarith
  rw [hc]; ring

/-- the height above the equatorial plane changes with latitude at the rate `M cos φ` -/
theorem hasDerivAt_Nsin (φ : ℝ) : HasDerivAt (fun φ => (1 - ecc2) * primeVertical φ * Real.sin φ) (meridian φ * Real.cos φ) φ := by
  refine (((hasDerivAt_N φ).const_mul (1 - ecc2)).mul (Real.hasDerivAt_sin φ)).congr_deriv ?_
  have hW := (Real.sqrt_pos.2 (w_pos φ)).ne'
  have h2 := W_sq φ
  simp only [primeVertical, meridian]
  generalize Real.sqrt (1 - ecc2 * Real.sin φ ^ 2) = W at *
  field_simp
  rw [h2]
  ring

/-- velocity of a point whose geodetic coordinates change along curves -/
theorem hasDerivAt_ellPoint {lat lon h : ℝ → ℝ} {t lat' lon' h' : ℝ} (h1 : HasDerivAt lat lat' t) (h2 : HasDerivAt lon lon' t)
    (h3 : HasDerivAt h h' t) :
    HasDerivAt (fun t => ellPoint (lat t) (lon t) (h t))
      (ned2ecef (lat t) (lon t) *ᵥ ![(meridian (lat t) + h t) * lat', (primeVertical (lat t) + h t) * Real.cos (lat t) * lon', -h']) t := by
  have hA := (hasDerivAt_Ncos (lat t)).comp t h1
  have hB := (hasDerivAt_Nsin (lat t)).comp t h1
  have hc := (Real.hasDerivAt_cos (lat t)).comp t h1
  have hs := (Real.hasDerivAt_sin (lat t)).comp t h1
  have hcl := (Real.hasDerivAt_cos (lon t)).comp t h2
  have hsl := (Real.hasDerivAt_sin (lon t)).comp t h2
  rw [hasDerivAt_pi]
  intro i
  fin_cases i
  · refine (((hA.add (h3.mul hc)).mul hcl).congr_deriv ?_).congr_of_eventuallyEq (Filter.Eventually.of_forall fun t => ?_)
    · simp [ned2ecef, mulVec, dotProduct, Fin.sum_univ_three]; ring
    · simp [ellPoint, -mul_eq_mul_right_iff]; ring
  · refine (((hA.add (h3.mul hc)).mul hsl).congr_deriv ?_).congr_of_eventuallyEq (Filter.Eventually.of_forall fun t => ?_)
    · simp [ned2ecef, mulVec, dotProduct, Fin.sum_univ_three]; ring
    · simp [ellPoint, -mul_eq_mul_right_iff]; ring
  · refine ((hB.add (h3.mul hs)).congr_deriv ?_).congr_of_eventuallyEq (Filter.Eventually.of_forall fun t => ?_)
    · simp [ned2ecef, mulVec, dotProduct, Fin.sum_univ_three]; ring
    · simp [ellPoint, -mul_eq_mul_right_iff]; ring

end NavFuse.Rotations
