import Verif.Lemmas.NavEval
import Verif.Spec.Rotation

/-! # Gravity: C45–C47 -/

set_option linter.unusedSimpArgs false

namespace NavFuse.Props
open Matrix Spec Gravity XR NavUtils

/-- gravitational parameter `G M` of the simple model in m³/s², from the two published constants -/
noncomputable def simpleGM : ℝ := 6.674e-11 * 5.972e24

theorem GM_R : (-Gravity.G * Gravity.mE : ℝ) = -simpleGM := by
  simp only [Gravity.G, Gravity.mE, rsimp, simpleGM]; norm_num

theorem len3_dot (r : V3 ℝ) : len3 r = Real.sqrt (r ⬝ᵥ r) := by
  simp [len3, dotProduct, Fin.sum_univ_three, pow_two]

theorem dot_pos {r : V3 ℝ} (h : r ≠ 0) : 0 < r ⬝ᵥ r := by
  rcases (lt_or_eq_of_le (show 0 ≤ r ⬝ᵥ r from Finset.sum_nonneg fun i _ => mul_self_nonneg (r i))) with h' | h'
  · exact h'
  · exact absurd (dotProduct_self_eq_zero.1 h'.symm) h

/-- C45: the simple model is Newton's inverse square law `-GM r / |r|³`. -/
theorem C45_inverse_square (r : V3 ℝ) (h : r ≠ 0) :
    simpleGravity r = (true, (-simpleGM / len3 r ^ 3) • r) ∧
    len3 (simpleGravity r).2 = simpleGM / len3 r ^ 2 := by
  have hp := dot_pos h
  have hs := Real.sqrt_pos.2 hp
  have h1 : simpleGravity r = (true, (-simpleGM / len3 r ^ 3) • r) := by
    have hlt : Flt.lt (0 : ℝ) (r ⬝ᵥ r) = true := by simp only [rsimp]; exact hp
    simp only [simpleGravity, vnormalized, GM_R, rsimp, hlt, if_true, len3_dot]
    rw [smul_smul]
    congr 2
    have : Real.sqrt (r ⬝ᵥ r) ^ 3 = (r ⬝ᵥ r) * Real.sqrt (r ⬝ᵥ r) := by
      rw [pow_succ, Real.sq_sqrt hp.le]
    rw [this]; field_simp
  refine ⟨h1, ?_⟩
  have hg : 0 < simpleGM := by norm_num [simpleGM]
  have hl : 0 < len3 r := by rw [len3_dot]; exact hs
  have hc : len3 ((-simpleGM / len3 r ^ 3) • r) = |-simpleGM / len3 r ^ 3| * len3 r := by
    rw [len3_dot, len3_dot, smul_dotProduct, dotProduct_smul, smul_eq_mul, smul_eq_mul, ← mul_assoc, ← pow_two,
      Real.sqrt_mul (sq_nonneg _), Real.sqrt_sq_eq_abs]
  rw [h1, hc, abs_div, abs_neg, abs_of_pos hg, abs_of_pos (pow_pos hl 3)]
  field_simp

/-- A point 7000 km from the centre. -/
example : (![7000000, 0, 0] : V3 ℝ) ≠ 0 := by
  intro h; have := congrFun h 0; norm_num at this

/-- C45: turning the position by any rotation (or reflection) turns the gravity vector with it, and mirroring the position mirrors it. -/
theorem C45_rotation_equivariant (R : Matrix (Fin 3) (Fin 3) ℝ) (hR : IsRot R) (r : V3 ℝ) (h : r ≠ 0) :
    (simpleGravity (R *ᵥ r)).2 = R *ᵥ (simpleGravity r).2 ∧ (simpleGravity (-r)).2 = -(simpleGravity r).2 := by
  have hT : Rᵀ * R = 1 := mul_eq_one_comm.1 hR.1
  have hd : (R *ᵥ r) ⬝ᵥ (R *ᵥ r) = r ⬝ᵥ r := by
    rw [dotProduct_mulVec, vecMul_mulVec, ← dotProduct_mulVec, hT, one_mulVec]
  have hne : R *ᵥ r ≠ 0 := by
    intro h0; rw [h0] at hd; simp at hd; exact h (dotProduct_self_eq_zero.1 hd.symm)
  constructor
  · rw [(C45_inverse_square _ hne).1, (C45_inverse_square _ h).1]
    simp only [len3_dot, hd, mulVec_smul]
  · rw [(C45_inverse_square _ (neg_ne_zero.2 h)).1, (C45_inverse_square _ h).1]
    simp [len3_dot]

example : IsRot (1 : Matrix (Fin 3) (Fin 3) ℝ) := by constructor <;> simp

/-- C45, outside its domain: at the centre of the earth the function still reports success, with NaN in every component. -/
theorem C45_centre_is_nan : simpleGravity (finV (0 : V3 ℝ)) = (true, fun _ => nan) := by
  simp only [simpleGravity, vnormalized, xsimp, dotProduct_zero]
  have h1 : (-Gravity.G * Gravity.mE : XR) = fin (-simpleGM) := by rw [← GM_R]; rfl
  rw [h1, neg_div_zero _ (by norm_num [simpleGM])]
  have hlt : Flt.lt (0 : ℝ) 0 = false := by simp [Flt.lt]
  simp only [hlt]
  ext i <;> simp [vsmul, finV, ninf_mul_zero]

/-- the Somigliana quotient on the ellipsoid, and the ratio `m`, as the code has them at ℝ -/
noncomputable def ellG (lat : ℝ) : ℝ :=
  (6378137 * 9.7803267715 * Real.cos lat ^ 2 + 6356752.3141 * 9.8321863685 * Real.sin lat ^ 2) /
    Real.sqrt (6378137 ^ 2 * Real.cos lat ^ 2 + 6356752.3141 ^ 2 * Real.sin lat ^ 2)
noncomputable def mR : ℝ := (7.292115 * 1e-5) ^ 2 * 6378137 ^ 2 * 6356752.3141 / (3.986005 * 1e14)
/-- the altitude factor of the code at ℝ -/
noncomputable def altFactor (lat h : ℝ) : ℝ :=
  1 - (2 / 6378137) * (1 + 1 / 298.257222101 + mR - 2 * (1 / 298.257222101) * Real.sin lat ^ 2) * h + 3 * h ^ 2 / 6378137 ^ 2

theorem gravity_R (lat h : ℝ) : gravityNed lat h =
    (true, ![-8.08 * 1e-6 * (h / 1000) * Real.sin (2 * lat), 0, ellG lat * altFactor lat h]) := by
  simp only [gravityNed, Gravity.a, Gravity.b, Gravity.f, Gravity.gEq, Gravity.gPole, Gravity.wE, Gravity.kM, rsimp, ellG, altFactor, mR]

theorem ellG_den_pos (lat : ℝ) : 0 < (6378137 : ℝ) ^ 2 * Real.cos lat ^ 2 + 6356752.3141 ^ 2 * Real.sin lat ^ 2 := by
  nlinarith [Real.sin_sq_add_cos_sq lat, sq_nonneg (Real.sin lat), sq_nonneg (Real.cos lat)]

theorem ellG_bounds (lat : ℝ) : 9.7803267715 ≤ ellG lat ∧ ellG lat ≤ 9.8321863685 := by
  have hd := ellG_den_pos lat
  have hs := Real.sqrt_pos.2 hd
  have hc : Real.cos lat ^ 2 = 1 - Real.sin lat ^ 2 := by linarith [Real.sin_sq_add_cos_sq lat]
  have hu0 := sq_nonneg (Real.sin lat)
  have hu1 := Real.sin_sq_le_one lat
  unfold ellG
  constructor
  · rw [le_div_iff₀ hs]
    refine le_of_abs_le (abs_le_of_sq_le_sq ?_ (by nlinarith [sq_nonneg (Real.cos lat)]))
    rw [mul_pow, Real.sq_sqrt hd.le, hc]
    generalize Real.sin lat ^ 2 = u at *
    nlinarith [mul_nonneg hu0 (sub_nonneg.2 hu1), mul_nonneg hu0 hu0]
  · rw [div_le_iff₀ hs]
    refine le_of_abs_le (abs_le_of_sq_le_sq ?_ (by positivity))
    rw [mul_pow _ (Real.sqrt _), Real.sq_sqrt hd.le, hc]
    generalize Real.sin lat ^ 2 = u at *
    nlinarith [mul_nonneg hu0 (sub_nonneg.2 hu1), mul_nonneg hu0 hu0]

/-- C46: gravity on the ellipsoid. At every latitude it lies between the published equatorial and polar values, and it has no horizontal
component. -/
theorem C46_ellipsoid_bounds (lat : ℝ) : ∃ gd : ℝ, gravityNed lat 0 = (true, ![0, 0, gd]) ∧ 9.7803267715 ≤ gd ∧ gd ≤ 9.8321863685 := by
  refine ⟨ellG lat, ?_, ellG_bounds lat⟩
  rw [gravity_R]; simp [altFactor]

/-- C46: the bounds are attained, at the equator and at both poles. -/
theorem C46_bounds_attained : gravityNed (0 : ℝ) 0 = (true, ![0, 0, 9.7803267715]) ∧
    gravityNed (Real.pi / 2) 0 = (true, ![0, 0, 9.8321863685]) ∧ gravityNed (-(Real.pi / 2)) 0 = (true, ![0, 0, 9.8321863685]) := by
  have h1 : ellG 0 = 9.7803267715 := by
    simp only [ellG, Real.cos_zero, Real.sin_zero]
    rw [show (6378137 : ℝ) ^ 2 * 1 ^ 2 + 6356752.3141 ^ 2 * 0 ^ 2 = 6378137 ^ 2 by norm_num, Real.sqrt_sq (by norm_num)]; norm_num
  have h2 : ellG (Real.pi / 2) = 9.8321863685 := by
    simp only [ellG, Real.cos_pi_div_two, Real.sin_pi_div_two]
    rw [show (6378137 : ℝ) ^ 2 * 0 ^ 2 + 6356752.3141 ^ 2 * 1 ^ 2 = 6356752.3141 ^ 2 by norm_num, Real.sqrt_sq (by norm_num)]; norm_num
  have h3 : ellG (-(Real.pi / 2)) = 9.8321863685 := by
    rw [← h2]; simp [ellG]
  simp [gravity_R, h1, h2, h3, altFactor]

/-- C46: at every latitude and altitude the east component is zero, the down component is even and the north component odd in latitude. -/
theorem C46_symmetry (lat h : ℝ) :
    (gravityNed lat h).2 1 = 0 ∧ (gravityNed (-lat) h).2 2 = (gravityNed lat h).2 2 ∧ (gravityNed (-lat) h).2 0 = -(gravityNed lat h).2 0 := by
  simp [gravity_R, ellG, altFactor]

theorem mR_bounds : 0 ≤ mR ∧ mR ≤ 0.01 := by constructor <;> norm_num [mR]

theorem altFactor_strictAnti (lat h₁ h₂ : ℝ) (h : h₁ < h₂) (h20 : h₂ ≤ 20000) : altFactor lat h₂ < altFactor lat h₁ := by
  have hu0 := sq_nonneg (Real.sin lat)
  have hu1 := Real.sin_sq_le_one lat
  have hm := mR_bounds
  unfold altFactor
  generalize Real.sin lat ^ 2 = u at *
  generalize mR = m at *
  have key : 0 < (h₂ - h₁) * ((2 / 6378137) * (1 + 1 / 298.257222101 + m - 2 * (1 / 298.257222101) * u) - 3 * (h₁ + h₂) / 6378137 ^ 2) := by
    apply mul_pos (sub_pos.2 h)
    norm_num
    nlinarith
  nlinarith

theorem altFactor_pos (lat h : ℝ) (h20 : h ≤ 20000) : 0 < altFactor lat h := by
  have h2 : 0 < altFactor lat 20000 := by
    have hu0 := sq_nonneg (Real.sin lat)
    have hm := mR_bounds
    unfold altFactor
    generalize Real.sin lat ^ 2 = u at *
    generalize mR = m at *
    norm_num
    linarith
  rcases h20.lt_or_eq with h' | rfl
  · exact h2.trans (altFactor_strictAnti lat _ _ h' le_rfl)
  · exact h2

/-- C47: at every latitude, for altitudes up to the 20 km for which the model is documented, the down component of gravity is positive and
strictly decreasing in altitude. -/
theorem C47_decreasing (lat h₁ h₂ : ℝ) (h : h₁ < h₂) (h20 : h₂ ≤ 20000) :
    0 < (gravityNed lat h₂).2 2 ∧ (gravityNed lat h₂).2 2 < (gravityNed lat h₁).2 2 := by
  have hg : 0 < ellG lat := lt_of_lt_of_le (by norm_num) (ellG_bounds lat).1
  simp only [gravity_R]
  simp only [Matrix.cons_val]
  exact ⟨mul_pos hg (altFactor_pos lat h₂ h20), mul_lt_mul_of_pos_left (altFactor_strictAnti lat h₁ h₂ h h20) hg⟩

example : (100 : ℝ) < 9000 ∧ (9000 : ℝ) ≤ 20000 := by norm_num

end NavFuse.Props
