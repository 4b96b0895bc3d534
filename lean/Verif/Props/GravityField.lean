import Verif.Props.Gravity
import Mathlib.MeasureTheory.Integral.IntervalIntegral.FundThmCalculus
import Mathlib.Analysis.Calculus.Deriv.MeanValue
import Mathlib.Analysis.SpecialFunctions.Sqrt
import Mathlib.Analysis.SpecialFunctions.Trigonometric.Deriv
/-! # C168: the gravity of `gravityNed` is, to within two percent of its variation with latitude, a conservative field -/

namespace NavFuse.Props
open Matrix Spec Gravity NavUtils

/-! ## the specification -/

/-- radius of curvature of the meridian of the ellipsoid with semi-axes 6378137 m and 6356752.3141 m, at geodetic latitude `φ`: moving north by `dφ` at
altitude `h` covers the distance `(meridianRadius φ + h) dφ` -/
noncomputable def meridianRadius (φ : ℝ) : ℝ :=
  (6378137 * 6356752.3141) ^ 2 / Real.sqrt (6378137 ^ 2 * Real.cos φ ^ 2 + 6356752.3141 ^ 2 * Real.sin φ ^ 2) ^ 3

/-- work per kilogram done by the computed gravity on a body carried north along a meridian at altitude `h` -/
noncomputable def northWork (φ₁ φ₂ h : ℝ) : ℝ := ∫ φ in φ₁..φ₂, (gravityNed φ h).2 0 * (meridianRadius φ + h)

/-- work per kilogram done by the computed gravity on a body lifted from `h₁` to `h₂` at latitude `φ` -/
noncomputable def liftWork (φ h₁ h₂ : ℝ) : ℝ := ∫ h in h₁..h₂, -(gravityNed φ h).2 2

/-- work per kilogram around the loop: north, up, south, down -/
noncomputable def loopWork (φ₁ φ₂ h₁ h₂ : ℝ) : ℝ := northWork φ₁ φ₂ h₁ + liftWork φ₂ h₁ h₂ - northWork φ₁ φ₂ h₂ - liftWork φ₁ h₁ h₂

/-! ## lemmas -/

/-- `a² cos² + b² sin²` -/
noncomputable def Dsq (φ : ℝ) : ℝ := 6378137 ^ 2 * Real.cos φ ^ 2 + 6356752.3141 ^ 2 * Real.sin φ ^ 2

theorem Dsq_bounds (φ : ℝ) : 6356752.3141 ^ 2 ≤ Dsq φ ∧ Dsq φ ≤ 6378137 ^ 2 := by
  have hc : Real.cos φ ^ 2 = 1 - Real.sin φ ^ 2 := by linarith [Real.sin_sq_add_cos_sq φ]
  have hu0 := sq_nonneg (Real.sin φ)
  have hu1 := Real.sin_sq_le_one φ
  unfold Dsq; rw [hc]
  constructor <;> norm_num <;> linarith

theorem Dsq_deriv (φ : ℝ) : HasDerivAt Dsq ((6356752.3141 ^ 2 - 6378137 ^ 2) * Real.sin (2 * φ)) φ := by
  have h1 := ((Real.hasDerivAt_cos φ).pow 2).const_mul ((6378137 : ℝ) ^ 2)
  have h2 := ((Real.hasDerivAt_sin φ).pow 2).const_mul ((6356752.3141 : ℝ) ^ 2)
  refine (h1.add h2).congr_deriv ?_
  rw [Real.sin_two_mul]; simp; ring

theorem Dpos (φ : ℝ) : 0 < Real.sqrt (Dsq φ) := Real.sqrt_pos.2 (lt_of_lt_of_le (by norm_num) (Dsq_bounds φ).1)

theorem D_bounds (φ : ℝ) : 6356752.3141 ≤ Real.sqrt (Dsq φ) ∧ Real.sqrt (Dsq φ) ≤ 6378137 :=
  ⟨Real.le_sqrt_of_sq_le (Dsq_bounds φ).1, Real.sqrt_le_iff.2 ⟨by norm_num, (Dsq_bounds φ).2⟩⟩

theorem D_deriv (φ : ℝ) : HasDerivAt (fun φ => Real.sqrt (Dsq φ)) ((6356752.3141 ^ 2 - 6378137 ^ 2) * Real.sin (2 * φ) / (2 * Real.sqrt (Dsq φ))) φ :=
  (Dsq_deriv φ).sqrt (ne_of_gt (lt_of_lt_of_le (by norm_num) (Dsq_bounds φ).1))

/-- numerator of Somigliana's formula -/
noncomputable def Nnum (φ : ℝ) : ℝ := 6378137 * 9.7803267715 * Real.cos φ ^ 2 + 6356752.3141 * 9.8321863685 * Real.sin φ ^ 2

theorem Nnum_bounds (φ : ℝ) : 6378137 * 9.7803267715 ≤ Nnum φ ∧ Nnum φ ≤ 6356752.3141 * 9.8321863685 := by
  have hc : Real.cos φ ^ 2 = 1 - Real.sin φ ^ 2 := by linarith [Real.sin_sq_add_cos_sq φ]
  have hu0 := sq_nonneg (Real.sin φ)
  have hu1 := Real.sin_sq_le_one φ
  unfold Nnum; rw [hc]
  constructor <;> norm_num <;> linarith

theorem Nnum_deriv (φ : ℝ) : HasDerivAt Nnum ((6356752.3141 * 9.8321863685 - 6378137 * 9.7803267715) * Real.sin (2 * φ)) φ := by
  have h1 := ((Real.hasDerivAt_cos φ).pow 2).const_mul (6378137 * 9.7803267715 : ℝ)
  have h2 := ((Real.hasDerivAt_sin φ).pow 2).const_mul (6356752.3141 * 9.8321863685 : ℝ)
  refine (h1.add h2).congr_deriv ?_
  rw [Real.sin_two_mul]; simp; ring

theorem altFactor_deriv (φ h : ℝ) : HasDerivAt (fun φ => altFactor φ h) (4 / 6378137 * (1 / 298.257222101) * h * Real.sin (2 * φ)) φ := by
  have h2 := ((((Real.hasDerivAt_sin φ).pow 2).const_mul (2 * (1 / 298.257222101) : ℝ)).const_sub (1 + 1 / 298.257222101 + mR))
  have h3 := (((h2.const_mul (2 / 6378137 : ℝ)).mul_const h).const_sub 1).add_const (3 * h ^ 2 / 6378137 ^ 2)
  refine h3.congr_deriv ?_
  rw [Real.sin_two_mul]; simp; ring

/-- the rate at which the down component grows with `sin²` of the latitude -/
noncomputable def poleward (φ h : ℝ) : ℝ :=
  ((6356752.3141 * 9.8321863685 - 6378137 * 9.7803267715) / Real.sqrt (Dsq φ)
      + Nnum φ * (6378137 ^ 2 - 6356752.3141 ^ 2) / (2 * Real.sqrt (Dsq φ) ^ 3)) * altFactor φ h
    + Nnum φ / Real.sqrt (Dsq φ) * (4 / 6378137 * (1 / 298.257222101) * h)

theorem down_deriv (φ h : ℝ) : HasDerivAt (fun φ => (gravityNed φ h).2 2) (poleward φ h * Real.sin (2 * φ)) φ := by
  have e : (fun φ => (gravityNed φ h).2 2) = fun φ => Nnum φ / Real.sqrt (Dsq φ) * altFactor φ h := by
    ext φ; rw [gravity_R]; rfl
  rw [e]
  have hD := Dpos φ
  refine (((Nnum_deriv φ).div (D_deriv φ) hD.ne').mul (altFactor_deriv φ h)).congr_deriv ?_
  simp only [Pi.div_apply]
  unfold poleward
  generalize Real.sqrt (Dsq φ) = D at *
  field_simp
  ring

/-- the two rates, each to within one percent of a common number -/
theorem rates (φ h : ℝ) (h0 : 0 ≤ h) (h1 : h ≤ 20000) :
    0 < poleward φ h ∧ |poleward φ h - 8.08e-9 * (meridianRadius φ + 2 * h)| ≤ 0.02 * poleward φ h ∧ poleward φ h ≤ 0.053 := by
  obtain ⟨n1, n2⟩ := Nnum_bounds φ
  obtain ⟨d1, d2⟩ := D_bounds φ
  have hM : meridianRadius φ = (6378137 * 6356752.3141) ^ 2 / Real.sqrt (Dsq φ) ^ 3 := rfl
  have hk : 1 - 2.02 / 6378137 * h ≤ altFactor φ h ∧ altFactor φ h ≤ 1 - 1.97 / 6378137 * h := by
    have hu0 := sq_nonneg (Real.sin φ)
    have hu1 := Real.sin_sq_le_one φ
    have hm := mR_bounds
    have hm' : mR ≤ 0.004 := by norm_num [mR]
    unfold altFactor
    generalize Real.sin φ ^ 2 = u at *
    generalize mR = m at *
    have hh : h ^ 2 ≤ 20000 * h := by nlinarith
    have hq : 0 ≤ h ^ 2 := sq_nonneg h
    have hmh : 0 ≤ m * h := mul_nonneg hm.1 h0
    have hmh' : m * h ≤ 0.004 * h := mul_le_mul_of_nonneg_right hm' h0
    have huh : 0 ≤ u * h := mul_nonneg hu0 h0
    have huh' : u * h ≤ h := mul_le_of_le_one_left h0 hu1
    constructor <;> norm_num at hmh' ⊢ <;> nlinarith
  set D := Real.sqrt (Dsq φ) with hD
  set N := Nnum φ
  set k := altFactor φ h
  have hDp : 0 < D := lt_of_lt_of_le (by norm_num) d1
  have hk0 : 0 < k := lt_of_lt_of_le (by norm_num; linarith) hk.1
  have hD2 : (6356752.3141 : ℝ) ^ 2 ≤ D ^ 2 ∧ D ^ 2 ≤ 6378137 ^ 2 := ⟨pow_le_pow_left₀ (by norm_num) d1 2, pow_le_pow_left₀ hDp.le d2 2⟩
  have hD3 : (6356752.3141 : ℝ) ^ 3 ≤ D ^ 3 ∧ D ^ 3 ≤ 6378137 ^ 3 := ⟨pow_le_pow_left₀ (by norm_num) d1 3, pow_le_pow_left₀ hDp.le d2 3⟩
  -- everything times the cube of the distance
  set P := ((6356752.3141 * 9.8321863685 - 6378137 * 9.7803267715) * D ^ 2 + N * (6378137 ^ 2 - 6356752.3141 ^ 2) / 2) * k
    + N * D ^ 2 * (4 / 6378137 * (1 / 298.257222101) * h) with hP
  have eP : poleward φ h = P / D ^ 3 := by
    rw [hP]
    show ((6356752.3141 * 9.8321863685 - 6378137 * 9.7803267715) / D + N * (6378137 ^ 2 - 6356752.3141 ^ 2) / (2 * D ^ 3)) * k
      + N / D * (4 / 6378137 * (1 / 298.257222101) * h) = _
    clear_value D N k
    field_simp
  have eM : meridianRadius φ = (6378137 * 6356752.3141) ^ 2 / D ^ 3 := rfl
  have hbr : 1.33636e19 ≤ (6356752.3141 * 9.8321863685 - 6378137 * 9.7803267715) * D ^ 2 + N * (6378137 ^ 2 - 6356752.3141 ^ 2) / 2
      ∧ (6356752.3141 * 9.8321863685 - 6378137 * 9.7803267715) * D ^ 2 + N * (6378137 ^ 2 - 6356752.3141 ^ 2) / 2 ≤ 1.3413e19 := by
    obtain ⟨x1, x2⟩ := hD2
    constructor
    · norm_num at x1 n1 ⊢; linarith
    · norm_num at x2 n2 ⊢; linarith
  have hND : 0 ≤ N * D ^ 2 ∧ N * D ^ 2 ≤ 2.5427e21 := by
    have hN : 0 ≤ N := le_trans (by norm_num) n1
    refine ⟨by positivity, (mul_le_mul n2 hD2.2 (by positivity) (by norm_num)).trans (by norm_num)⟩
  have hPlo : 1.33636e19 * (1 - 2.02 / 6378137 * h) ≤ P := by
    have a1 : 1.33636e19 * (1 - 2.02 / 6378137 * h) ≤ 1.33636e19 * k := mul_le_mul_of_nonneg_left hk.1 (by norm_num)
    have a2 := mul_le_mul_of_nonneg_right hbr.1 hk0.le
    have a3 : 0 ≤ N * D ^ 2 * (4 / 6378137 * (1 / 298.257222101) * h) := mul_nonneg hND.1 (by positivity)
    rw [hP]; linarith
  have hPhi : P ≤ 1.3413e19 * (1 - 1.97 / 6378137 * h) + 2.5427e21 * (4 / 6378137 * (1 / 298.257222101) * h) := by
    have a1 : 1.3413e19 * k ≤ 1.3413e19 * (1 - 1.97 / 6378137 * h) := mul_le_mul_of_nonneg_left hk.2 (by norm_num)
    have a2 := mul_le_mul_of_nonneg_right hbr.2 hk0.le
    have a3 := mul_le_mul_of_nonneg_right hND.2 (show (0 : ℝ) ≤ 4 / 6378137 * (1 / 298.257222101) * h by positivity)
    rw [hP]; linarith
  have hhD : h * 6356752.3141 ^ 3 ≤ h * D ^ 3 ∧ h * D ^ 3 ≤ h * 6378137 ^ 3 :=
    ⟨mul_le_mul_of_nonneg_left hD3.1 h0, mul_le_mul_of_nonneg_left hD3.2 h0⟩
  have hC : 8.08e-9 * (meridianRadius φ + 2 * h) = (8.08e-9 * ((6378137 * 6356752.3141) ^ 2 + 2 * (h * D ^ 3))) / D ^ 3 := by
    rw [eM]; field_simp
  have hPpos : 0 < P := lt_of_lt_of_le (by norm_num; linarith) hPlo
  have hD3p : 0 < D ^ 3 := by positivity
  refine ⟨by rw [eP]; positivity, ?_, ?_⟩
  · rw [hC, eP, ← sub_div, abs_div, abs_of_pos hD3p, ← mul_div_assoc, div_le_div_iff_of_pos_right hD3p, abs_le]
    obtain ⟨y1, y2⟩ := hhD
    constructor
    · norm_num at hPlo y2 ⊢; linarith
    · norm_num at hPhi y1 ⊢; linarith
  · rw [eP, div_le_iff₀ hD3p]
    have := hD3.1
    norm_num at hPhi this ⊢; linarith

theorem north_R (φ h : ℝ) : (gravityNed φ h).2 0 = -(8.08e-9 * h * Real.sin (2 * φ)) := by
  rw [gravity_R]
  show -8.08 * 1e-6 * (h / 1000) * Real.sin (2 * φ) = _
  ring

theorem sin2_nonneg {φ : ℝ} (h0 : 0 ≤ φ) (h1 : φ ≤ Real.pi / 2) : 0 ≤ Real.sin (2 * φ) :=
  Real.sin_nonneg_of_nonneg_of_le_pi (by linarith) (by linarith)

theorem sin2_pos {φ : ℝ} (h0 : 0 < φ) (h1 : φ < Real.pi / 2) : 0 < Real.sin (2 * φ) :=
  Real.sin_pos_of_pos_of_lt_pi (by linarith) (by linarith)

theorem sinSq_deriv (φ : ℝ) : HasDerivAt (fun φ => Real.sin φ ^ 2) (Real.sin (2 * φ)) φ := by
  refine ((Real.hasDerivAt_sin φ).pow 2).congr_deriv ?_
  rw [Real.sin_two_mul]; simp

/-! ## C168 -/

/-- C168 (towards the poles). At every altitude from 0 to 20 km gravity grows strictly from the equator to the pole. -/
theorem C168_grows_poleward (φ₁ φ₂ h : ℝ) (h0 : 0 ≤ φ₁) (h12 : φ₁ < φ₂) (h2 : φ₂ ≤ Real.pi / 2) (hh : 0 ≤ h) (hh' : h ≤ 20000) :
    (gravityNed φ₁ h).2 2 < (gravityNed φ₂ h).2 2 := by
  have hmono : StrictMonoOn (fun φ => (gravityNed φ h).2 2) (Set.Icc 0 (Real.pi / 2)) := by
    apply strictMonoOn_of_deriv_pos (convex_Icc _ _)
    · exact fun φ _ => (down_deriv φ h).continuousAt.continuousWithinAt
    · intro φ hφ
      rw [interior_Icc] at hφ
      rw [(down_deriv φ h).deriv]
      exact mul_pos (rates φ h hh hh').1 (sin2_pos hφ.1 hφ.2)
  exact hmono ⟨h0, by linarith⟩ ⟨by linarith, h2⟩ h12

/-- the equator against the pole, at sea level -/
example : (gravityNed 0 0).2 2 < (gravityNed (Real.pi / 2) (0 : ℝ)).2 2 :=
  C168_grows_poleward 0 (Real.pi / 2) 0 le_rfl (by positivity) le_rfl le_rfl (by norm_num)

/-- C168 (no curl). At every latitude and every altitude from 0 to 20 km, the two mixed derivatives of a potential agree to within two percent: the work along
a unit of latitude changes with altitude as the weight changes with latitude. -/
theorem C168_mixed_derivatives (φ h : ℝ) (hh : 0 ≤ h) (hh' : h ≤ 20000) :
    ∃ A B, HasDerivAt (fun h => (gravityNed φ h).2 0 * (meridianRadius φ + h)) A h ∧ HasDerivAt (fun φ => -(gravityNed φ h).2 2) B φ
      ∧ |A - B| ≤ 0.02 * |B| := by
  refine ⟨-(8.08e-9 * (meridianRadius φ + 2 * h) * Real.sin (2 * φ)), _, ?_, (down_deriv φ h).neg, ?_⟩
  · simp only [north_R]
    have h1 := ((((hasDerivAt_id h).const_mul (8.08e-9 : ℝ)).mul_const (Real.sin (2 * φ))).neg).mul ((hasDerivAt_id h).const_add (meridianRadius φ))
    refine h1.congr_deriv ?_
    simp; ring
  · obtain ⟨h1, h2, -⟩ := rates φ h hh hh'
    rw [abs_neg, abs_mul, abs_of_pos h1, ← mul_assoc]
    rw [show -(8.08e-9 * (meridianRadius φ + 2 * h) * Real.sin (2 * φ)) - -(poleward φ h * Real.sin (2 * φ))
      = (poleward φ h - 8.08e-9 * (meridianRadius φ + 2 * h)) * Real.sin (2 * φ) by ring, abs_mul]
    exact mul_le_mul_of_nonneg_right h2 (abs_nonneg _)

/-- an antiderivative of `meridianRadius · sin 2φ` -/
noncomputable def meridianInt (φ : ℝ) : ℝ := 2 * (6378137 * 6356752.3141) ^ 2 / (6378137 ^ 2 - 6356752.3141 ^ 2) / Real.sqrt (Dsq φ)

theorem meridianInt_deriv (φ : ℝ) : HasDerivAt meridianInt (meridianRadius φ * Real.sin (2 * φ)) φ := by
  have hD := Dpos φ
  refine ((D_deriv φ).inv hD.ne').const_mul (2 * (6378137 * 6356752.3141) ^ 2 / (6378137 ^ 2 - 6356752.3141 ^ 2) : ℝ) |>.congr_deriv ?_
  show _ = (6378137 * 6356752.3141) ^ 2 / Real.sqrt (Dsq φ) ^ 3 * Real.sin (2 * φ)
  generalize Real.sqrt (Dsq φ) = D at *
  field_simp
  ring

theorem meridianRadius_cont : Continuous meridianRadius := by
  unfold meridianRadius
  refine Continuous.div continuous_const (by fun_prop) fun φ => (pow_pos (Dpos φ) 3).ne'

theorem northWork_eq (φ₁ φ₂ h : ℝ) :
    northWork φ₁ φ₂ h = -(8.08e-9 * (h * (meridianInt φ₂ - meridianInt φ₁) + h ^ 2 * (Real.sin φ₂ ^ 2 - Real.sin φ₁ ^ 2))) := by
  have hd : ∀ φ, HasDerivAt (fun φ => -(8.08e-9 * (h * meridianInt φ + h ^ 2 * Real.sin φ ^ 2))) ((gravityNed φ h).2 0 * (meridianRadius φ + h)) φ := by
    intro φ
    refine ((((meridianInt_deriv φ).const_mul h).add ((sinSq_deriv φ).const_mul (h ^ 2))).const_mul (8.08e-9 : ℝ)).neg.congr_deriv ?_
    rw [north_R]; ring
  rw [northWork, intervalIntegral.integral_eq_sub_of_hasDerivAt (fun φ _ => hd φ)]
  · ring
  · apply Continuous.intervalIntegrable
    simp only [north_R]
    have := meridianRadius_cont
    fun_prop

/-- C168 (no work from nothing). Carry a kilogram around any loop north along a meridian, up, back south and down again, in the northern hemisphere between
altitudes 0 and 20 km: the computed gravity does work of at most 1.1 millijoule per metre of altitude difference, a ten-thousandth of the work of lifting it. -/
theorem C168_closed_loop (φ₁ φ₂ h₁ h₂ : ℝ) (h0 : 0 ≤ φ₁) (h12 : φ₁ ≤ φ₂) (h2 : φ₂ ≤ Real.pi / 2) (hh : 0 ≤ h₁) (hh12 : h₁ ≤ h₂) (hh2 : h₂ ≤ 20000) :
    |loopWork φ₁ φ₂ h₁ h₂| ≤ 1.1e-3 * (h₂ - h₁) * (Real.sin φ₂ ^ 2 - Real.sin φ₁ ^ 2) := by
  have hdc : ∀ φ : ℝ, Continuous fun h : ℝ => (gravityNed φ h).2 2 := by
    intro φ
    have e : (fun h : ℝ => (gravityNed φ h).2 2) = fun h => Nnum φ / Real.sqrt (Dsq φ) * altFactor φ h := by
      funext h; rw [gravity_R]; rfl
    rw [e]
    unfold altFactor
    fun_prop
  -- the difference of the two ways at one altitude
  have key : ∀ h ∈ Set.Icc h₁ h₂, |8.08e-9 * ((meridianInt φ₂ - meridianInt φ₁) + 2 * h * (Real.sin φ₂ ^ 2 - Real.sin φ₁ ^ 2))
      - ((gravityNed φ₂ h).2 2 - (gravityNed φ₁ h).2 2)| ≤ 1.1e-3 * (Real.sin φ₂ ^ 2 - Real.sin φ₁ ^ 2) := by
    intro h hm
    have hp0 : 0 ≤ h := hh.trans hm.1
    have hp1 : h ≤ 20000 := hm.2.trans hh2
    have hb : ∀ φ, |8.08e-9 * (meridianRadius φ + 2 * h) - poleward φ h| ≤ 1.1e-3 := by
      intro φ
      obtain ⟨a1, a2, a3⟩ := rates φ h hp0 hp1
      rw [abs_sub_comm]
      refine a2.trans ?_
      linarith
    have hd : ∀ s φ : ℝ, HasDerivAt (fun φ => 1.1e-3 * Real.sin φ ^ 2 - s * (8.08e-9 * (meridianInt φ + 2 * h * Real.sin φ ^ 2) - (gravityNed φ h).2 2))
        ((1.1e-3 - s * (8.08e-9 * (meridianRadius φ + 2 * h) - poleward φ h)) * Real.sin (2 * φ)) φ := by
      intro s φ
      refine (((sinSq_deriv φ).const_mul (1.1e-3 : ℝ)).sub (((((meridianInt_deriv φ).add ((sinSq_deriv φ).const_mul (2 * h))).const_mul
        (8.08e-9 : ℝ)).sub (down_deriv φ h)).const_mul s)).congr_deriv ?_
      ring
    have hm : ∀ s : ℝ, |s| = 1 → MonotoneOn (fun φ => 1.1e-3 * Real.sin φ ^ 2 - s * (8.08e-9 * (meridianInt φ + 2 * h * Real.sin φ ^ 2) - (gravityNed φ h).2 2))
        (Set.Icc 0 (Real.pi / 2)) := by
      intro s hs
      apply monotoneOn_of_deriv_nonneg (convex_Icc _ _)
      · exact fun φ _ => (hd s φ).continuousAt.continuousWithinAt
      · exact fun φ _ => (hd s φ).differentiableAt.differentiableWithinAt
      · intro φ hφ
        rw [interior_Icc] at hφ
        rw [(hd s φ).deriv]
        refine mul_nonneg ?_ (sin2_nonneg hφ.1.le hφ.2.le)
        have := le_abs_self (s * (8.08e-9 * (meridianRadius φ + 2 * h) - poleward φ h))
        rw [abs_mul, hs, one_mul] at this
        linarith [hb φ]
    have m1 := hm 1 (by norm_num) ⟨h0, h12.trans h2⟩ ⟨h0.trans h12, h2⟩ h12
    have m2 := hm (-1) (by norm_num) ⟨h0, h12.trans h2⟩ ⟨h0.trans h12, h2⟩ h12
    simp only at m1 m2
    rw [abs_le]
    constructor <;> linarith
  -- the loop as an integral over the altitude
  have hl : loopWork φ₁ φ₂ h₁ h₂ = ∫ h in h₁..h₂, (8.08e-9 * ((meridianInt φ₂ - meridianInt φ₁) + 2 * h * (Real.sin φ₂ ^ 2 - Real.sin φ₁ ^ 2))
      - ((gravityNed φ₂ h).2 2 - (gravityNed φ₁ h).2 2)) := by
    have i1 := (hdc φ₁).intervalIntegrable (μ := MeasureTheory.volume) h₁ h₂
    have i2 := (hdc φ₂).intervalIntegrable (μ := MeasureTheory.volume) h₁ h₂
    have i3 : IntervalIntegrable (fun h : ℝ => 8.08e-9 * ((meridianInt φ₂ - meridianInt φ₁) + 2 * h * (Real.sin φ₂ ^ 2 - Real.sin φ₁ ^ 2)))
      MeasureTheory.volume h₁ h₂ := Continuous.intervalIntegrable (by fun_prop) _ _
    rw [intervalIntegral.integral_sub i3 (i2.sub i1), intervalIntegral.integral_sub i2 i1]
    have e3 : ∫ h in h₁..h₂, 8.08e-9 * ((meridianInt φ₂ - meridianInt φ₁) + 2 * h * (Real.sin φ₂ ^ 2 - Real.sin φ₁ ^ 2))
        = 8.08e-9 * ((h₂ * (meridianInt φ₂ - meridianInt φ₁) + h₂ ^ 2 * (Real.sin φ₂ ^ 2 - Real.sin φ₁ ^ 2))
          - (h₁ * (meridianInt φ₂ - meridianInt φ₁) + h₁ ^ 2 * (Real.sin φ₂ ^ 2 - Real.sin φ₁ ^ 2))) := by
      rw [intervalIntegral.integral_eq_sub_of_hasDerivAt
        (f := fun h => 8.08e-9 * (h * (meridianInt φ₂ - meridianInt φ₁) + h ^ 2 * (Real.sin φ₂ ^ 2 - Real.sin φ₁ ^ 2))) _ i3]
      · ring
      · intro h _
        refine ((((hasDerivAt_id h).mul_const (meridianInt φ₂ - meridianInt φ₁)).add
          (((hasDerivAt_id h).pow 2).mul_const (Real.sin φ₂ ^ 2 - Real.sin φ₁ ^ 2))).const_mul (8.08e-9 : ℝ)).congr_deriv ?_
        simp
    rw [e3, loopWork, northWork_eq, northWork_eq, liftWork, liftWork, intervalIntegral.integral_neg, intervalIntegral.integral_neg]
    ring
  rw [hl]
  have := intervalIntegral.norm_integral_le_of_norm_le_const (a := h₁) (b := h₂) (C := 1.1e-3 * (Real.sin φ₂ ^ 2 - Real.sin φ₁ ^ 2))
    (f := fun h => 8.08e-9 * ((meridianInt φ₂ - meridianInt φ₁) + 2 * h * (Real.sin φ₂ ^ 2 - Real.sin φ₁ ^ 2))
      - ((gravityNed φ₂ h).2 2 - (gravityNed φ₁ h).2 2)) (by
        intro h hm
        rw [Set.uIoc_of_le hh12] at hm
        exact key h ⟨hm.1.le, hm.2⟩)
  rw [Real.norm_eq_abs, abs_of_nonneg (sub_nonneg.2 hh12)] at this
  linarith

/-- a loop from the equator to the pole and up to 20 km: at most 22 J/kg, where lifting takes 196 kJ/kg -/
example : |loopWork 0 (Real.pi / 2) 0 20000| ≤ 22 := by
  have := C168_closed_loop 0 (Real.pi / 2) 0 20000 le_rfl (by positivity) le_rfl le_rfl (by norm_num) le_rfl
  norm_num at this ⊢; linarith

end NavFuse.Props
