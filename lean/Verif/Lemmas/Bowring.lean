import Verif.Lemmas.Ellipsoid
import Verif.XR

/-! `ecef2Lla` at ℝ and at `XR`, and the error of Bowring's latitude formula. -/

set_option linter.unusedSimpArgs false

namespace NavFuse.Rotations
open Matrix Spec Gravity NavUtils XR

/-- the polar radius the code uses; it is not exactly `a (1 - f)` -/
noncomputable def polarC : ℝ := 6356752.3141

theorem b_R : (Gravity.b : ℝ) = polarC := by simp only [Gravity.b, rsimp, polarC]
theorem polarC_pos : 0 < polarC := by norm_num [polarC]

/-- the code's `ep^2 b` -/
noncomputable def kC : ℝ := (semiMajor ^ 2 - polarC ^ 2) / polarC

theorem kC_pos : 0 < kC := by norm_num [kC, semiMajor, polarC]

/-- the auxiliary angle, line 95 -/
noncomputable def thR (p z : ℝ) : ℝ := Complex.arg ⟨polarC * p, semiMajor * z⟩
noncomputable def latYR (p z : ℝ) : ℝ := z + kC * Real.sin (thR p z) ^ 3
noncomputable def latXR (p z : ℝ) : ℝ := p - ecc2 * semiMajor * Real.cos (thR p z) ^ 3
noncomputable def latR (p z : ℝ) : ℝ := Complex.arg ⟨latXR p z, latYR p z⟩

theorem ep_sq : (Flt.powi (Flt.sqrt ((Flt.powi (Gravity.a : ℝ) 2 - Flt.powi Gravity.b 2) / Flt.powi Gravity.b 2)) 2 : ℝ) * Gravity.b = kC := by
  simp only [a_R, b_R, rsimp]
  rw [Real.sq_sqrt (by norm_num [semiMajor, polarC]), kC]
  have := polarC_pos.ne'
  field_simp

theorem fmod_arg (w : ℂ) : fmodR w.arg (2 * Real.pi) = w.arg := by
  have hp := Real.pi_pos
  have h := Complex.arg_mem_Ioc w
  have : truncR (w.arg / (2 * Real.pi)) = 0 := by
    have h1 : w.arg / (2 * Real.pi) ≤ 1 / 2 := by rw [div_le_iff₀ (by linarith)]; linarith [h.2]
    have h2 : -1 / 2 < w.arg / (2 * Real.pi) := by rw [lt_div_iff₀ (by linarith)]; linarith [h.1]
    rw [truncR]
    split_ifs with h0
    · exact Int.floor_eq_zero_iff.2 ⟨h0, by linarith⟩
    · exact Int.ceil_eq_zero_iff.2 ⟨by linarith, by linarith⟩
  rw [fmodR, this]; simp

theorem ecef2Lla_R (r : V3 ℝ) :
    let p := Real.sqrt (r 0 ^ 2 + r 1 ^ 2)
    ecef2Lla r = (true, latR p (r 2), Complex.arg ⟨r 0, r 1⟩, p / Real.cos (latR p (r 2)) - primeVertical (latR p (r 2))) := by
  have h2 : ¬ Real.pi < Complex.arg ⟨r 0, r 1⟩ := not_lt.2 (Complex.arg_mem_Ioc _).2
  simp only [ecef2Lla, e_sq, ep_sq]
  simp only [a_R, b_R, rsimp, fmod_arg, h2, if_false, latR, latXR, latYR, thR, primeVertical]

theorem e_X : (Flt.sqrt (Flt.lit 1 - Flt.powi (Flt.lit 1 - (Gravity.f : XR)) 2) : XR) = fin (Real.sqrt ecc2) := by
  have : (1 : ℝ) - (1 - flattening) ^ 2 = ecc2 := by rw [ecc2_eq]; ring
  simp only [f_X, xsimp, Rat.cast_one, this]
  rw [X_sqrt _ ecc2_pos.le]

theorem ecef2Lla_X (r : V3 ℝ) :
    let p := Real.sqrt (r 0 ^ 2 + r 1 ^ 2)
    ecef2Lla (finV r) = (true, fin (latR p (r 2)), fin (Complex.arg ⟨r 0, r 1⟩),
      fin p / fin (Real.cos (latR p (r 2))) - fin (primeVertical (latR p (r 2)))) := by
  have h2 : ¬ Real.pi < Complex.arg ⟨r 0, r 1⟩ := not_lt.2 (Complex.arg_mem_Ioc _).2
  have hpi : (2 : ℝ) * Real.pi ≠ 0 := by positivity
  have hb : polarC ^ 2 ≠ 0 := (pow_pos polarC_pos 2).ne'
  have hbX : (Gravity.b : XR) = fin polarC := by rw [b_X, b_R]
  have hep : 0 ≤ (semiMajor ^ 2 - polarC ^ 2) / polarC ^ 2 := by norm_num [semiMajor, polarC]
  have hk : Real.sqrt ((semiMajor ^ 2 - polarC ^ 2) / polarC ^ 2) ^ 2 * polarC = kC := by
    rw [Real.sq_sqrt hep, kC]
    have := polarC_pos.ne'
    field_simp
  have hr : 0 ≤ r 0 ^ 2 + r 1 ^ 2 := by positivity
  have hw : ∀ φ, Flt.sqrt (fin (1 - ecc2 * Real.sin φ ^ 2)) = fin (Real.sqrt (1 - ecc2 * Real.sin φ ^ 2)) := fun φ => X_sqrt _ (w_pos φ).le
  have hd : ∀ φ, (fin semiMajor : XR) / fin (Real.sqrt (1 - ecc2 * Real.sin φ ^ 2)) = fin (primeVertical φ) := fun φ => by
    rw [fin_div _ _ (Real.sqrt_pos.2 (w_pos φ)).ne', primeVertical]
  have he2 : Real.sqrt ecc2 ^ 2 = ecc2 := Real.sq_sqrt ecc2_pos.le
  simp only [ecef2Lla, e_X]
  simp only [a_X, hbX, xsimp, fin_div _ _ hb, X_sqrt _ hep, X_sqrt _ hr, Rat.cast_one, Rat.cast_ofNat, X_fmod _ _ hpi, fmod_arg,
    R_lt, h2, if_false, he2, hk, hw, hd, decide_false, Bool.false_eq_true]
  simp only [latR, latXR, latYR, thR]

/-! ## Bowring's formula -/

theorem norm_mk (x y : ℝ) : ‖(⟨x, y⟩ : ℂ)‖ = Real.sqrt (x ^ 2 + y ^ 2) := by
  rw [Complex.norm_def, Complex.normSq_apply]; simp [sq]

/-- the exact second-order form of the bracket in the latitude error -/
theorem bracket_eq {s c r ρ W Y : ℝ} (hr : r ≠ 0) (hW : W ≠ 0) (hW2 : W ^ 2 = c ^ 2 + r ^ 2 * s ^ 2)
    (hY2 : Y ^ 2 = c ^ 2 + ρ ^ 2 * s ^ 2) :
    c ^ 2 + ρ ^ 3 * s ^ 2 / r - Y ^ 3 / W
      = s ^ 2 * ((ρ - r) ^ 2 * (2 * ρ + r) / (2 * r)) - (Y - W) ^ 2 * (2 * Y + W) / (2 * W) := by
  have e : Y ^ 3 / W = (Y - W) ^ 2 * (2 * Y + W) / (2 * W) + 3 / 2 * Y ^ 2 - W ^ 2 / 2 := by
    field_simp; ring
  rw [e, hW2, hY2]; field_simp; ring

theorem rem_bounds {s c r ρ W Y : ℝ} (hr : 0 < r) (hρ : r ≤ ρ) (hW : 0 < W) (hY : 0 < Y) (hW2 : W ^ 2 = c ^ 2 + r ^ 2 * s ^ 2)
    (hY2 : Y ^ 2 = c ^ 2 + ρ ^ 2 * s ^ 2) :
    0 ≤ (Y - W) ^ 2 * (2 * Y + W) / (2 * W) ∧
      (Y - W) ^ 2 * (2 * Y + W) / (2 * W) ≤ 3 / 8 * ((ρ - r) ^ 2 * (ρ + r) ^ 2 * s ^ 4 / W ^ 2) := by
  constructor
  · positivity
  · have hYW : W ≤ Y := by
      have : W ^ 2 ≤ Y ^ 2 := by
        rw [hW2, hY2]
        have : r ^ 2 ≤ ρ ^ 2 := by nlinarith
        nlinarith [sq_nonneg s]
      exact le_of_abs_le (abs_le_of_sq_le_sq this hY.le)
    have e : (ρ - r) ^ 2 * (ρ + r) ^ 2 * s ^ 4 = (Y - W) ^ 2 * (Y + W) ^ 2 := by
      have : (Y - W) * (Y + W) = (ρ - r) * (ρ + r) * s ^ 2 := by linear_combination hY2 - hW2
      calc _ = ((ρ - r) * (ρ + r) * s ^ 2) ^ 2 := by ring
        _ = _ := by rw [← this]; ring
    rw [e]
    have : 3 / 8 * ((Y - W) ^ 2 * (Y + W) ^ 2 / W ^ 2) - (Y - W) ^ 2 * (2 * Y + W) / (2 * W)
        = (Y - W) ^ 2 * ((3 * Y + W) * (Y - W)) / (8 * W ^ 2) := by
      field_simp; ring
    have h2 : 0 ≤ (Y - W) ^ 2 * ((3 * Y + W) * (Y - W)) / (8 * W ^ 2) := by
      apply div_nonneg _ (by positivity)
      exact mul_nonneg (sq_nonneg _) (mul_nonneg (by linarith) (by linarith))
    linarith

/-- the same remainder below the ellipsoid -/
theorem rem_bounds_below {s c r ρ W Y : ℝ} (hρ0 : 0 < ρ) (hρ : ρ ≤ r) (hW : 0 < W) (hY : 0 < Y) (hW2 : W ^ 2 = c ^ 2 + r ^ 2 * s ^ 2)
    (hY2 : Y ^ 2 = c ^ 2 + ρ ^ 2 * s ^ 2) :
    0 ≤ (Y - W) ^ 2 * (2 * Y + W) / (2 * W) ∧ (Y - W) ^ 2 * (2 * Y + W) / (2 * W) ≤ 3 / 2 * ((ρ - r) ^ 2 * s ^ 2) := by
  constructor
  · positivity
  · have hYW : Y ≤ W := by
      have : Y ^ 2 ≤ W ^ 2 := by
        rw [hW2, hY2]
        have : ρ ^ 2 ≤ r ^ 2 := by nlinarith
        nlinarith [sq_nonneg s]
      exact le_of_abs_le (abs_le_of_sq_le_sq this hW.le)
    have y1 : ρ * |s| ≤ Y := by
      refine le_of_abs_le (abs_le_of_sq_le_sq ?_ hY.le)
      rw [mul_pow, sq_abs, hY2]; linarith [sq_nonneg c]
    have w1 : r * |s| ≤ W := by
      refine le_of_abs_le (abs_le_of_sq_le_sq ?_ hW.le)
      rw [mul_pow, sq_abs, hW2]; linarith [sq_nonneg c]
    have e : (Y - W) ^ 2 * (Y + W) ^ 2 = ((ρ - r) ^ 2 * s ^ 2) * ((ρ + r) * |s|) ^ 2 := by
      have : (Y - W) * (Y + W) = (ρ - r) * (ρ + r) * s ^ 2 := by linear_combination hY2 - hW2
      calc _ = ((Y - W) * (Y + W)) ^ 2 := by ring
        _ = ((ρ - r) * (ρ + r)) ^ 2 * s ^ 2 * s ^ 2 := by rw [this]; ring
        _ = _ := by rw [mul_pow (ρ + r), sq_abs]; ring
    have q : ((ρ + r) * |s|) ^ 2 ≤ (Y + W) ^ 2 :=
      pow_le_pow_left₀ (mul_nonneg (by linarith) (abs_nonneg s)) (by linarith) 2
    have d : (Y - W) ^ 2 ≤ (ρ - r) ^ 2 * s ^ 2 := by
      have := mul_le_mul_of_nonneg_left q (by positivity : 0 ≤ (ρ - r) ^ 2 * s ^ 2)
      rw [← e] at this
      exact le_of_mul_le_mul_right this (by positivity)
    rw [div_le_iff₀ (by linarith)]
    nlinarith [mul_le_mul d (show 2 * Y + W ≤ 3 * W by linarith) (by linarith) (by positivity)]

end NavFuse.Rotations
