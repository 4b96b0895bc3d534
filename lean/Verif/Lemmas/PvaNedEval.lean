import Verif.Lemmas.PvaEval
import Mathlib.Analysis.SpecialFunctions.Trigonometric.Deriv
import Mathlib.Analysis.Calculus.Deriv.Inv

/-! Evaluation of the north-east-down error matrices. -/

set_option linter.unusedSimpArgs false

namespace NavFuse.Pva
open Matrix NavFuse.Spec NavFuse.XR

theorem eSqP_R : (eSq : ℝ) = ecc2 := NavUtils.eSq_R
theorem eSqP_X : (eSq : XR) = fin ecc2 := NavUtils.eSq_X

theorem radN_R (φ : ℝ) : radN φ = primeVertical φ := by simp only [radN, eSqP_R, NavUtils.a_R, rsimp, primeVertical]
theorem radM_R (φ : ℝ) : radM φ = meridian φ := by
  simp only [radM, eSqP_R, NavUtils.a_R, rsimp, meridian]
  rw [← Rat.cast_ofScientific, NavUtils.pow15 (NavUtils.w_pos _)]
theorem half_pow (x : ℝ) : x ^ ((0.5 : ℚ) : ℝ) = Real.sqrt x := by rw [Real.sqrt_eq_rpow]; norm_num
theorem radPhi_R (φ : ℝ) : radPhi φ = gaussRadius φ := by
  rw [radPhi, radN_R, radM_R, R_powq, half_pow, gaussRadius]

theorem radN_X (φ : ℝ) : radN (fin φ) = fin (primeVertical φ) := by
  have hw := NavUtils.w_pos φ
  simp [radN, eSqP_X, NavUtils.a_X, xsimp, X_sqrt _ hw.le, fin_div _ _ (Real.sqrt_pos.2 hw).ne', primeVertical]
theorem radM_X (φ : ℝ) : radM (fin φ) = fin (meridian φ) := by
  have hw := NavUtils.w_pos φ
  have hp : (1 - ecc2 * Real.sin φ ^ 2) ^ ((1.5 : ℚ) : ℝ) ≠ 0 := by
    rw [NavUtils.pow15 hw]; exact pow_ne_zero _ (Real.sqrt_pos.2 hw).ne'
  have e : meridian φ = semiMajor * (1 - ecc2) / (1 - ecc2 * Real.sin φ ^ 2) ^ ((1.5 : ℚ) : ℝ) := by rw [NavUtils.pow15 hw, meridian]
  rw [e]
  simp only [radM, eSqP_X, NavUtils.a_X, X_sin, X_powi, X_lit, fin_mul, fin_sub, Rat.cast_one, X_powq _ _ hw, fin_div _ _ hp]
theorem radPhi_X (φ : ℝ) : radPhi (fin φ) = fin (gaussRadius φ) := by
  rw [radPhi, radN_X, radM_X, fin_mul, X_powq _ _ (mul_pos (NavUtils.primeVertical_pos φ) (NavUtils.meridian_pos φ)), half_pow, gaussRadius]

theorem nedF_X (s : V3 ℝ) (Γ : M3 ℝ) (p rate acc : V3 ℝ) (hc : Real.cos (p 0) ≠ 0) (hr : gaussRadius (p 0) + p 2 ≠ 0) :
    nedF (finV s) (finM Γ) (finV p) (finV rate) (finV acc) = finM (nedF s Γ p rate acc) := by
  have hrc := mul_ne_zero hr hc
  have hn := neg_ne_zero.2 hr
  simp only [nedF, finV_apply, finM_apply, radPhi_X, radPhi_R, X_sin, X_cos, X_tan _ hc, X_lit, X_powi, fin_add, fin_mul, fin_sub, fin_neg, NavUtils.wE_X,
    NavUtils.wE_R, fin_div _ _ hr, fin_div _ _ hn, fin_div _ _ hrc, rsimp, R_lit]
  ext i j
  fin_cases i <;> fin_cases j <;> rfl

end NavFuse.Pva
