import Verif.Model.NavUtils
import Verif.XR
import Verif.Spec.Earth

/-! Evaluation of the gravity and navigation functions on arguments of the right size, and facts about the ellipsoid. -/

set_option linter.unusedSectionVars false
set_option linter.unusedSimpArgs false

namespace NavFuse.NavUtils
open Matrix Spec Gravity

section generic
variable {α : Type} [Add α] [Sub α] [Mul α] [Div α] [Neg α] [Flt α]

/-- squared eccentricity as computed by `strapdownDynamics` -/
def eSqG : α := (Flt.lit 2 * Gravity.f) - Flt.powi Gravity.f 2

/-- the rates written by `strapdownDynamics` -/
def dynG (dVN gN : V3 α) (dt : α) (y : Fin 6 → α) : Fin 6 → α :=
  let aN := vdiv dVN dt
  let slat := Flt.sin (y 0)
  let clat := Flt.cos (y 0)
  let N := a / Flt.sqrt (Flt.lit 1 - (eSqG * Flt.powi slat 2))
  let M := (a * (Flt.lit 1 - eSqG)) / Flt.powq (Flt.lit 1 - (eSqG * Flt.powi slat 2)) 1.5
  let latDot := y 3 / (M + y 2)
  let lonDot := y 4 / ((N + y 2) * clat)
  ![latDot, lonDot, -y 5,
    aN 0 + gN 0 - (Flt.lit 2 * wE * slat * y 4) + (latDot * y 5) - (lonDot * slat * y 4),
    aN 1 + gN 1 + (Flt.lit 2 * wE * slat * y 3) + (Flt.lit 2 * wE * clat * y 5) + (lonDot * slat * y 3) + (lonDot * clat * y 5),
    aN 2 + gN 2 - (Flt.lit 2 * wE * clat * y 4) - (lonDot * clat * y 4) - (latDot * y 3)]

theorem dyn_eval (dVN gN : V3 α) (dt : α) (y f0 : Fin 6 → α) :
    strapdownDynamics ⟨6, y⟩ ⟨6, f0⟩ dVN gN dt = .ok (true, ⟨6, dynG dVN gN dt y⟩) := by
  simp only [strapdownDynamics, DVec.get, show ((0 : ℕ) < 6) = True by simp, show ((1 : ℕ) < 6) = True by simp, show ((2 : ℕ) < 6) = True by simp,
    show ((3 : ℕ) < 6) = True by simp, show ((4 : ℕ) < 6) = True by simp, show ((5 : ℕ) < 6) = True by simp, dite_true, osimp, dynG, eSqG,
    Fin.zero_eta, Fin.mk_one, Fin.reduceFinMk]

/-- the state written by `strapdownRk4` -/
def rk4G (dVN gN : V3 α) (dt : α) (y : Fin 6 → α) : Fin 6 → α :=
  let K1 := vsmul dt (dynG dVN gN dt y)
  let K2 := vsmul dt (dynG dVN gN dt (vadd y (vdiv K1 (Flt.lit 2))))
  let K3 := vsmul dt (dynG dVN gN dt (vadd y (vdiv K2 (Flt.lit 2))))
  let K4 := vsmul dt (dynG dVN gN dt (vadd y K3))
  vadd (vadd (vadd (vadd y (vsmul (Flt.lit 1 / Flt.lit 6) K1)) (vsmul (Flt.lit 1 / Flt.lit 3) K2)) (vsmul (Flt.lit 1 / Flt.lit 3) K3))
    (vsmul (Flt.lit 1 / Flt.lit 6) K4)

theorem rk4_eval (dVN gN : V3 α) (dt : α) (y y0 : Fin 6 → α) :
    strapdownRk4 ⟨6, y⟩ dt dVN gN ⟨6, y0⟩ = .ok (true, ⟨6, rk4G dVN gN dt y⟩) := by
  simp [strapdownRk4, DVec.zero, dyn_eval, osimp, rk4G]

end generic

/-! Ellipsoid facts. -/

theorem semiMajor_pos : 0 < semiMajor := by norm_num [semiMajor]
theorem ecc2_eq : ecc2 = 2 * flattening - flattening ^ 2 := by
  have := semiMajor_pos.ne'
  simp only [ecc2, semiMinor]; field_simp; ring
theorem ecc2_pos : 0 < ecc2 := by rw [ecc2_eq]; norm_num [flattening]
theorem ecc2_lt : ecc2 < 1 := by rw [ecc2_eq]; norm_num [flattening]
theorem w_pos (φ : ℝ) : 0 < 1 - ecc2 * Real.sin φ ^ 2 := by
  have := Real.sin_sq_le_one φ
  nlinarith [ecc2_pos, ecc2_lt, sq_nonneg (Real.sin φ)]
theorem primeVertical_pos (φ : ℝ) : 0 < primeVertical φ := div_pos semiMajor_pos (Real.sqrt_pos.2 (w_pos φ))
theorem meridian_pos (φ : ℝ) : 0 < meridian φ :=
  div_pos (mul_pos semiMajor_pos (by linarith [ecc2_lt])) (pow_pos (Real.sqrt_pos.2 (w_pos φ)) 3)

theorem eSq_R : (eSqG : ℝ) = ecc2 := by
  rw [ecc2_eq]; simp only [eSqG, Gravity.f, rsimp, flattening]
theorem a_R : (Gravity.a : ℝ) = semiMajor := by simp only [Gravity.a, rsimp, semiMajor]
theorem wE_R : (Gravity.wE : ℝ) = earthRate := by simp only [Gravity.wE, rsimp, earthRate]; norm_num
theorem pow15 {w : ℝ} (h : 0 < w) : w ^ ((1.5 : ℚ) : ℝ) = Real.sqrt w ^ 3 := by
  rw [Real.sqrt_eq_rpow, ← Real.rpow_natCast, ← Real.rpow_mul h.le]; norm_num

theorem dyn_R (dVN gN : V3 ℝ) (dt : ℝ) (y : Fin 6 → ℝ) : dynG dVN gN dt y = navRates (dt⁻¹ • dVN) gN y := by
  simp only [dynG, eSq_R, a_R, wE_R, rsimp]
  rw [← Rat.cast_ofScientific, pow15 (w_pos _)]
  ext i
  fin_cases i <;>
    simp [navRates, posRates, velRates, primeVertical, meridian, earthVec, transportVec, crossProduct] <;> ring

theorem rk4_R (dVN gN : V3 ℝ) (dt : ℝ) (y : Fin 6 → ℝ) : rk4G dVN gN dt y = rk4 (navRates (dt⁻¹ • dVN) gN) dt y := by
  simp only [rk4G, dyn_R, rsimp, rk4]
  simp only [smul_smul, show (2 : ℝ)⁻¹ * dt = dt / 2 by ring]
  ext i
  simp only [Pi.add_apply, Pi.smul_apply, smul_eq_mul]; ring

end NavFuse.NavUtils

namespace NavFuse.NavUtils
open Matrix Spec Gravity XR

/-! At `XR`. -/

theorem a_X : (Gravity.a : XR) = fin semiMajor := by rw [← a_R]; rfl
theorem b_X : (Gravity.b : XR) = fin Gravity.b := rfl
theorem wE_X : (Gravity.wE : XR) = fin earthRate := by rw [← wE_R]; rfl
theorem f_X : (Gravity.f : XR) = fin flattening := by
  simp only [Gravity.f, xsimp, flattening]
  rw [fin_div _ _ (by norm_num)]
theorem eSq_X : (eSqG : XR) = fin ecc2 := by
  rw [ecc2_eq]; simp only [eSqG, f_X, xsimp]

theorem dyn_X (dVN gN : V3 ℝ) (dt : ℝ) (y : Fin 6 → ℝ) (hdt : dt ≠ 0) (hr : RegularPos (y 0) (y 2)) :
    dynG (finV dVN) (finV gN) (fin dt) (finV y) = finV (dynG dVN gN dt y) := by
  have hw := w_pos (y 0)
  have hs : Real.sqrt (1 - ecc2 * Real.sin (y 0) ^ 2) ≠ 0 := (Real.sqrt_pos.2 hw).ne'
  have hp : (1 - ecc2 * Real.sin (y 0) ^ 2) ^ ((1.5 : ℚ) : ℝ) ≠ 0 := by
    rw [pow15 hw]; exact pow_ne_zero _ hs
  have h1 := hr.merid
  rw [meridian, ← pow15 hw] at h1
  rw [Rat.cast_ofScientific] at hp h1
  have h2 := hr.prime
  rw [primeVertical] at h2
  have h3 := mul_ne_zero h2 hr.pole
  ext i
  fin_cases i <;>
    simp [dynG, eSq_X, a_X, wE_X, eSq_R, a_R, wE_R, xsimp, rsimp, X_sqrt _ hw.le, X_powq _ _ hw, fin_div _ _ hs, fin_div _ _ hp,
      fin_div _ _ h1, fin_div _ _ h3, X_vdiv _ _ hdt]

end NavFuse.NavUtils
