import Verif.Props.J2000
import Verif.Model.Gravity
import Mathlib.Analysis.Real.Pi.Bounds
/-! # C170: the Earth turns at the same rate in the sidereal time and in the navigation equations -/

namespace NavFuse.Props
open Matrix Spec Rotations

/-- two turns about the third axis add up -/
theorem R3_turns_add (s t : ℝ) : R3 s * R3 t = R3 (s + t) := by
  simp only [R3, rotZ, Real.cos_add, Real.sin_add]
  ext i j; fin_cases i <;> fin_cases j <;> simp [Matrix.mul_apply, Fin.sum_univ_three] <;> ring

/-- radians of mean sidereal time per second of UT1, from the linear term of the IAU polynomial, against the constant of the navigation equations -/
theorem rate_close : |2 * Real.pi * (86400 + 8640184.812866 / 36525) / 86400 - 7.292115e-5 * 86400| ≤ 0.88e-11 * 86400 := by
  have h1 := Real.pi_gt_d20
  have h2 := Real.pi_lt_d20
  rw [abs_le]
  constructor <;> norm_num at h1 h2 ⊢ <;> linarith

/-- C170. Between any two instants from 1900 to 2100 the Earth-rotation matrix of `computeGreenwichHourAngle` (nutation held fixed) turns about the pole by the
angle that the rotation rate `wE` of the navigation equations gives for the elapsed time, to within 9e-12 rad per second and 2e-14 rad. -/
theorem C170_rates_agree (u₁ u₂ tt : ℝ) (h₁ : 15020 ≤ u₁ ∧ u₁ ≤ 88069) (h₂ : 15020 ≤ u₂ ∧ u₂ ≤ 88069) :
    ∃ δ, |δ| ≤ 9e-12 * |86400 * (u₂ - u₁)| + 2e-14 ∧
      computeGreenwichHourAngle u₂ tt = R3 (Gravity.wE * (86400 * (u₂ - u₁)) + δ) * computeGreenwichHourAngle u₁ tt := by
  obtain ⟨k1, g1⟩ := C89_gmst u₁
  obtain ⟨k2, g2⟩ := C89_gmst u₂
  obtain ⟨n1, m1⟩ := gsTime_R u₁ tt
  obtain ⟨n2, m2⟩ := gsTime_R u₂ tt
  have hw : (Gravity.wE : ℝ) = 7.292115e-5 := by simp only [Gravity.wE, rsimp]; norm_num
  -- the angle between, without whole turns
  set δ := 2 * Real.pi * (gmstSec u₂ - 86400 * k2 - (gmstSec u₁ - 86400 * k1)) / 86400 - 7.292115e-5 * (86400 * (u₂ - u₁)) with hδ
  refine ⟨δ, ?_, ?_⟩
  · have hp1 := Real.pi_gt_d20
    have hp2 := Real.pi_lt_d20
    set r₁ := gmstSec u₁ - (iauGmst (centuries u₁) + 86400 * k1)
    set r₂ := gmstSec u₂ - (iauGmst (centuries u₂) + 86400 * k2)
    have hr : |2 * Real.pi / 86400 * (r₂ - r₁)| ≤ 2e-14 := by
      rw [abs_mul, abs_of_pos (by positivity)]
      have : |r₂ - r₁| ≤ 2e-10 := (abs_sub _ _).trans (by norm_num at g1 g2 ⊢; linarith)
      have h3 : 2 * Real.pi / 86400 ≤ 1e-4 := by rw [div_le_iff₀ (by norm_num)]; norm_num at hp2 ⊢; linarith
      exact (mul_le_mul h3 this (abs_nonneg _) (by norm_num)).trans (by norm_num)
    set T₁ := centuries u₁ with hT1
    set T₂ := centuries u₂ with hT2
    have hT : T₂ - T₁ = (u₂ - u₁) / 36525 := by simp only [hT1, hT2, centuries]; ring
    have hb1 : |T₁| ≤ 1 := by
      rw [hT1, centuries, abs_div, abs_of_pos (by norm_num : (0 : ℝ) < 36525), div_le_one (by norm_num), abs_le]
      constructor <;> linarith [h₁.1, h₁.2]
    have hb2 : |T₂| ≤ 1 := by
      rw [hT2, centuries, abs_div, abs_of_pos (by norm_num : (0 : ℝ) < 36525), div_le_one (by norm_num), abs_le]
      constructor <;> linarith [h₂.1, h₂.2]
    set q := 0.093104 * (T₂ + T₁) - 0.0000062 * (T₂ ^ 2 + T₂ * T₁ + T₁ ^ 2) with hq
    have hqb : |q| ≤ 0.2 := by
      obtain ⟨a1, a2⟩ := abs_le.1 hb1
      obtain ⟨b1, b2⟩ := abs_le.1 hb2
      rw [hq, abs_le]
      constructor <;> nlinarith
    have e : δ = 2 * Real.pi / 86400 * (r₂ - r₁) + (2 * Real.pi * (86400 + 8640184.812866 / 36525) / 86400 - 7.292115e-5 * 86400) * (u₂ - u₁)
        + 2 * Real.pi / 86400 * q / 36525 * (u₂ - u₁) := by
      have e1 : iauGmst T₂ - iauGmst T₁ = (876600 * 3600 + 8640184.812866) * (T₂ - T₁) + q * (T₂ - T₁) := by
        rw [hq, iauGmst, iauGmst]; ring
      have e2 : gmstSec u₂ - 86400 * k2 - (gmstSec u₁ - 86400 * k1) = (r₂ - r₁) + (iauGmst T₂ - iauGmst T₁) := by simp only [r₁, r₂]; ring
      rw [hδ, e2, e1, hT]; ring
    rw [e, abs_mul 86400, abs_of_pos (by norm_num : (0 : ℝ) < 86400)]
    have hd := abs_nonneg (u₂ - u₁)
    have i1 : |(2 * Real.pi * (86400 + 8640184.812866 / 36525) / 86400 - 7.292115e-5 * 86400) * (u₂ - u₁)| ≤ 0.88e-11 * 86400 * |u₂ - u₁| := by
      rw [abs_mul]; exact mul_le_mul_of_nonneg_right rate_close hd
    have i2 : |2 * Real.pi / 86400 * q / 36525 * (u₂ - u₁)| ≤ 1e-9 * |u₂ - u₁| := by
      rw [abs_mul]
      refine mul_le_mul_of_nonneg_right ?_ hd
      rw [abs_div, abs_mul, abs_of_pos (show 0 < 2 * Real.pi / 86400 by positivity), abs_of_pos (by norm_num : (0 : ℝ) < 36525), div_le_iff₀ (by norm_num)]
      have h3 : 2 * Real.pi / 86400 ≤ 1e-4 := by rw [div_le_iff₀ (by norm_num)]; norm_num at hp2 ⊢; linarith
      exact (mul_le_mul h3 hqb (abs_nonneg _) (by norm_num)).trans (by norm_num)
    refine (abs_add_le _ _).trans ?_
    refine (add_le_add (abs_add_le _ _) le_rfl).trans ?_
    norm_num at hr i1 i2 ⊢
    linarith
  · rw [computeGreenwichHourAngle, computeGreenwichHourAngle, frameZ_R, frameZ_R, R3_turns_add, m1, m2, R3_add_turns, ← add_assoc, R3_add_turns, hw, hδ]
    rw [show 7.292115e-5 * (86400 * (u₂ - u₁)) + (2 * Real.pi * (gmstSec u₂ - 86400 * k2 - (gmstSec u₁ - 86400 * k1)) / 86400 - 7.292115e-5 * (86400 * (u₂ - u₁)))
      + (2 * Real.pi * (gmstSec u₁ / 86400) + (nutationAngles tt).1 * Real.cos (iauObliquity (centuries tt)))
      = (2 * Real.pi * (gmstSec u₂ / 86400) + (nutationAngles tt).1 * Real.cos (iauObliquity (centuries tt))) + ((k1 - k2 : ℤ) : ℝ) * (2 * Real.pi) by
        push_cast; ring, R3_add_turns]

/-- one second after the start of 2026 -/
example : ∃ δ, |δ| ≤ 1e-11 ∧ computeGreenwichHourAngle (61041 + 1 / 86400) 61041 = R3 (Gravity.wE * 1 + δ) * computeGreenwichHourAngle (61041 : ℝ) 61041 := by
  obtain ⟨δ, h1, h2⟩ := C170_rates_agree 61041 (61041 + 1 / 86400) 61041 (by norm_num) (by norm_num)
  refine ⟨δ, ?_, ?_⟩
  · refine h1.trans ?_; norm_num
  · rw [h2]; norm_num

end NavFuse.Props
