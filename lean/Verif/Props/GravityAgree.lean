import Verif.Props.GravityField
import Verif.Props.StrapdownNav
import Verif.Props.Geodesy
import Verif.Lemmas.BowringErr

/-! # Property C173: the two gravity models agree -/

set_option linter.unusedSimpArgs false

namespace NavFuse.Props
open Matrix Spec Gravity NavUtils Rotations

/-- the point of `lla2Ecef` seen from the centre, in the axes of `computeREcef2Ned`: below the horizontal, and a little to the south (north of the equator) -/
theorem point_in_ned (lat lon h : ℝ) : (ned2ecef lat lon)ᵀ *ᵥ ellPoint lat lon h
    = ![-(ecc2 * primeVertical lat * Real.sin lat * Real.cos lat), 0, -(primeVertical lat * (1 - ecc2 * Real.sin lat ^ 2) + h)] := by
  have h1 := Real.sin_sq_add_cos_sq lat
  have h2 := Real.sin_sq_add_cos_sq lon
  have hc : Real.cos lat ^ 2 = 1 - Real.sin lat ^ 2 := by linarith
  have hd : Real.cos lon ^ 2 = 1 - Real.sin lon ^ 2 := by linarith
  have key : ∀ j : Fin 3, ((ned2ecef lat lon)ᵀ *ᵥ ellPoint lat lon h) j
      = ned2ecef lat lon 0 j * ellPoint lat lon h 0 + ned2ecef lat lon 1 j * ellPoint lat lon h 1 + ned2ecef lat lon 2 j * ellPoint lat lon h 2 := fun j => by
    rw [mulVec, dotProduct, Fin.sum_univ_three]; rfl
  ext i
  rw [key]
  fin_cases i
  · show -Real.sin lat * Real.cos lon * ((primeVertical lat + h) * Real.cos lat * Real.cos lon) + -Real.sin lat * Real.sin lon * ((primeVertical lat + h) * Real.cos lat * Real.sin lon)
      + Real.cos lat * (((1 - ecc2) * primeVertical lat + h) * Real.sin lat) = -(ecc2 * primeVertical lat * Real.sin lat * Real.cos lat)
    linear_combination (-(primeVertical lat + h) * Real.cos lat * Real.sin lat) * h2
  · show -Real.sin lon * ((primeVertical lat + h) * Real.cos lat * Real.cos lon) + Real.cos lon * ((primeVertical lat + h) * Real.cos lat * Real.sin lon)
      + 0 * (((1 - ecc2) * primeVertical lat + h) * Real.sin lat) = 0
    ring
  · show -Real.cos lat * Real.cos lon * ((primeVertical lat + h) * Real.cos lat * Real.cos lon) + -Real.cos lat * Real.sin lon * ((primeVertical lat + h) * Real.cos lat * Real.sin lon)
      + -Real.sin lat * (((1 - ecc2) * primeVertical lat + h) * Real.sin lat) = -(primeVertical lat * (1 - ecc2 * Real.sin lat ^ 2) + h)
    linear_combination (-(primeVertical lat + h) * Real.cos lat ^ 2) * h2 - (primeVertical lat + h) * h1

theorem ellG_lower (lat : ℝ) : 9.7803 + 0.0516 * Real.sin lat ^ 2 ≤ ellG lat := by
  have hc : Real.cos lat ^ 2 = 1 - Real.sin lat ^ 2 := by linarith [Real.sin_sq_add_cos_sq lat]
  have hx0 := sq_nonneg (Real.sin lat)
  have hx1 := Real.sin_sq_le_one lat
  have hD := Dpos lat
  have hDsq := Real.sq_sqrt (le_trans (by norm_num) (Dsq_bounds lat).1 : (0 : ℝ) ≤ Dsq lat)
  have e : ellG lat = Nnum lat / Real.sqrt (Dsq lat) := rfl
  rw [e, le_div_iff₀ hD]
  generalize hxx : Real.sin lat ^ 2 = x at *
  have hN : Nnum lat = 6378137 * 9.7803267715 * (1 - x) + 6356752.3141 * 9.8321863685 * x := by rw [Nnum, hc, hxx]
  have hS : Dsq lat = 6378137 ^ 2 * (1 - x) + 6356752.3141 ^ 2 * x := by rw [Dsq, hc, hxx]
  rw [hN]
  have hDle : Real.sqrt (Dsq lat) ≤ 6378137 - 21348 * x := by
    rw [Real.sqrt_le_left (by linarith), hS]
    nlinarith
  nlinarith

theorem ellG_upper (lat : ℝ) : ellG lat ≤ 9.78033 + 0.0519 * Real.sin lat ^ 2 := by
  have hc : Real.cos lat ^ 2 = 1 - Real.sin lat ^ 2 := by linarith [Real.sin_sq_add_cos_sq lat]
  have hx0 := sq_nonneg (Real.sin lat)
  have hx1 := Real.sin_sq_le_one lat
  have hD := Dpos lat
  have e : ellG lat = Nnum lat / Real.sqrt (Dsq lat) := rfl
  rw [e, div_le_iff₀ hD]
  generalize hxx : Real.sin lat ^ 2 = x at *
  have hN : Nnum lat = 6378137 * 9.7803267715 * (1 - x) + 6356752.3141 * 9.8321863685 * x := by rw [Nnum, hc, hxx]
  have hS : Dsq lat = 6378137 ^ 2 * (1 - x) + 6356752.3141 ^ 2 * x := by rw [Dsq, hc, hxx]
  rw [hN]
  have hDge : 6378137 - 21384.7 * x ≤ Real.sqrt (Dsq lat) := by
    apply Real.le_sqrt_of_sq_le
    rw [hS]
    nlinarith
  nlinarith

theorem altFactor_bounds (lat h : ℝ) (hh : 0 ≤ h) :
    1 - 2.0138 * (h / 6378137) ≤ altFactor lat h ∧ altFactor lat h ≤ 1 - 2 * (h / 6378137) + 3 * (h / 6378137) ^ 2 := by
  have hx0 := sq_nonneg (Real.sin lat)
  have hx1 := Real.sin_sq_le_one lat
  have hm : 0.00344 ≤ mR ∧ mR ≤ 0.00345 := by constructor <;> norm_num [mR]
  have ht : 0 ≤ h / 6378137 := by positivity
  have e : altFactor lat h = 1 - 2 * (1 + 1 / 298.257222101 + mR - 2 * (1 / 298.257222101) * Real.sin lat ^ 2) * (h / 6378137) + 3 * (h / 6378137) ^ 2 := by
    rw [altFactor]; ring
  rw [e]
  generalize Real.sin lat ^ 2 = x at *
  generalize h / 6378137 = t at *
  generalize mR = m at *
  constructor
  · have : (1 + 1 / 298.257222101 + m - 2 * (1 / 298.257222101) * x) ≤ 1.0069 := by norm_num; linarith
    nlinarith [sq_nonneg t]
  · have : 1 ≤ (1 + 1 / 298.257222101 + m - 2 * (1 / 298.257222101) * x) := by norm_num; linarith
    nlinarith [sq_nonneg t]

set_option maxHeartbeats 1600000 in
/-- the numbers: attraction `GM / r²` along the vertical (`u` up, `n` sideways) against the factors of the other model -/
theorem attraction_bounds (x W h n e : ℝ) (hx0 : 0 ≤ x) (hx1 : x ≤ 1) (he : 0.00669 < e) (he' : e < 0.006695) (hW : 0 < W) (hW2 : W ^ 2 = 1 - e * x) (hh : 0 ≤ h)
    (hh' : h ≤ 20000) (hn : n ^ 2 ≤ (21600 : ℝ) ^ 2) (r : ℝ) (hr : 0 < r) (hr2 : r ^ 2 = n ^ 2 + (6378137 * W + h) ^ 2) :
    (9.7975 + 0.0655 * x) * (1 - 2.0068 * (h / 6378137) - 2e-5) ≤ simpleGM / r ^ 3 * (6378137 * W + h)
    ∧ simpleGM / r ^ 3 * (6378137 * W + h) ≤ (9.79757 + 0.06605 * x) * (1 - 2 * (h / 6378137) + 3 * (h / 6378137) ^ 2)
    ∧ simpleGM / r ^ 3 * (6378137 / W) ≤ 9.931 := by
  have hW1 : W ≤ 1 := by nlinarith [mul_nonneg (by linarith : (0 : ℝ) ≤ e) hx0]
  have hex : e * x ≤ 0.006695 := by nlinarith
  have hW0 : 0.99664 ≤ W := by nlinarith
  have ht0 : 0 ≤ h / 6378137 := by positivity
  have ht1 : h / 6378137 ≤ 0.00314 := by rw [div_le_iff₀ (by norm_num)]; linarith
  have hu : 6378137 * W + h = 6378137 * (W + h / 6378137) := by ring
  rw [hu] at hr2 ⊢
  generalize h / 6378137 = t at *
  have hv : 0 < W + t := by linarith
  have hk : (9.7975 : ℝ) * 6378137 ^ 2 ≤ simpleGM ∧ simpleGM ≤ 9.79757 * 6378137 ^ 2 := by constructor <;> norm_num [simpleGM]
  have hG : 0 < simpleGM := by norm_num [simpleGM]
  have hru : 6378137 * (W + t) ≤ r := by
    apply le_of_sq_le_sq _ hr.le
    rw [hr2]; linarith [sq_nonneg n]
  have hur : r ≤ 6378137 * (W + t) * (1 + 5.85e-6) := by
    apply le_of_sq_le_sq _ (by positivity)
    rw [hr2]
    nlinarith [mul_pos hv hv]
  have hA : (9.7975 + 0.0655 * x) * W ^ 2 ≤ 9.7975 := by
    rw [hW2]
    nlinarith [mul_nonneg hx0 hx0, mul_nonneg (by linarith : (0 : ℝ) ≤ e - 0.00669) hx0, mul_nonneg (by linarith : (0 : ℝ) ≤ e) (mul_nonneg hx0 hx0)]
  have hB : 9.79757 ≤ (9.79757 + 0.06605 * x) * W ^ 2 := by
    rw [hW2]
    nlinarith [mul_nonneg hx0 hx0, mul_nonneg (by linarith : (0 : ℝ) ≤ 0.006695 - e) hx0, mul_nonneg (by linarith : (0 : ℝ) ≤ 0.006695 - e) (mul_nonneg hx0 hx0),
      mul_nonneg hx0 (by linarith : (0 : ℝ) ≤ 1 - x)]
  have hv3 : 0 < 6378137 * (W + t) := by positivity
  have hr3 : (6378137 * (W + t)) ^ 3 ≤ r ^ 3 := pow_le_pow_left₀ hv3.le hru 3
  have hr3' : r ^ 3 ≤ (6378137 * (W + t) * (1 + 5.85e-6)) ^ 3 := pow_le_pow_left₀ hr.le hur 3
  refine ⟨?_, ?_, ?_⟩
  · rw [div_mul_eq_mul_div, le_div_iff₀ (by positivity)]
    have hL : 0 ≤ 1 - 2.0068 * t - 2e-5 := by linarith
    have hvW : W + t ≤ W * (1 + 1.0034 * t) := by linarith [mul_nonneg ht0 (sub_nonneg.2 hW0)]
    have hv2 : (W + t) ^ 2 ≤ W ^ 2 * (1 + 1.0034 * t) ^ 2 := by rw [← mul_pow]; exact pow_le_pow_left₀ hv.le hvW 2
    have h1 : (1 - 2.0068 * t - 2e-5) * (1 + 1.0034 * t) ^ 2 ≤ 1 - 2e-5 := by nlinarith [mul_nonneg ht0 ht0, mul_nonneg ht0 (mul_nonneg ht0 ht0)]
    have h2 : (9.7975 + 0.0655 * x) * (1 - 2.0068 * t - 2e-5) * (W + t) ^ 2 ≤ 9.7975 * (1 - 2e-5) := by
      have hX : 0 ≤ 9.7975 + 0.0655 * x := by linarith
      calc (9.7975 + 0.0655 * x) * (1 - 2.0068 * t - 2e-5) * (W + t) ^ 2 ≤ (9.7975 + 0.0655 * x) * (1 - 2.0068 * t - 2e-5) * (W ^ 2 * (1 + 1.0034 * t) ^ 2) :=
            mul_le_mul_of_nonneg_left hv2 (mul_nonneg hX hL)
        _ = ((9.7975 + 0.0655 * x) * W ^ 2) * ((1 - 2.0068 * t - 2e-5) * (1 + 1.0034 * t) ^ 2) := by ring
        _ ≤ 9.7975 * (1 - 2e-5) := mul_le_mul hA h1 (mul_nonneg hL (by positivity)) (by norm_num)
    calc (9.7975 + 0.0655 * x) * (1 - 2.0068 * t - 2e-5) * r ^ 3
        ≤ (9.7975 + 0.0655 * x) * (1 - 2.0068 * t - 2e-5) * (6378137 * (W + t) * (1 + 5.85e-6)) ^ 3 :=
          mul_le_mul_of_nonneg_left hr3' (mul_nonneg (by linarith) hL)
      _ = ((9.7975 + 0.0655 * x) * (1 - 2.0068 * t - 2e-5) * (W + t) ^ 2) * (6378137 ^ 2 * (1 + 5.85e-6) ^ 3 * (6378137 * (W + t))) := by ring
      _ ≤ (9.7975 * (1 - 2e-5)) * (6378137 ^ 2 * (1 + 5.85e-6) ^ 3 * (6378137 * (W + t))) := mul_le_mul_of_nonneg_right h2 (by positivity)
      _ = (9.7975 * (1 - 2e-5) * (6378137 ^ 2 * (1 + 5.85e-6) ^ 3)) * (6378137 * (W + t)) := by ring
      _ ≤ simpleGM * (6378137 * (W + t)) := mul_le_mul_of_nonneg_right (le_trans (by norm_num) hk.1) hv3.le
  · rw [div_mul_eq_mul_div, div_le_iff₀ (by positivity)]
    have h1 : 1 ≤ (1 - 2 * t + 3 * t ^ 2) * (1 + t) ^ 2 := by nlinarith [mul_nonneg ht0 (mul_nonneg ht0 ht0), mul_nonneg (mul_nonneg ht0 ht0) (mul_nonneg ht0 ht0)]
    have hq : 0 ≤ 1 - 2 * t + 3 * t ^ 2 := by linarith [sq_nonneg t]
    have hvW : W * (1 + t) ≤ W + t := by linarith [mul_nonneg ht0 (sub_nonneg.2 hW1)]
    have hv2 : W ^ 2 * (1 + t) ^ 2 ≤ (W + t) ^ 2 := by rw [← mul_pow]; exact pow_le_pow_left₀ (by positivity) hvW 2
    have hX : 0 ≤ 9.79757 + 0.06605 * x := by linarith
    have h2 : 9.79757 ≤ (9.79757 + 0.06605 * x) * (1 - 2 * t + 3 * t ^ 2) * (W + t) ^ 2 := by
      calc (9.79757 : ℝ) = 9.79757 * 1 := by ring
        _ ≤ ((9.79757 + 0.06605 * x) * W ^ 2) * ((1 - 2 * t + 3 * t ^ 2) * (1 + t) ^ 2) := mul_le_mul hB h1 (by norm_num) (by positivity)
        _ = (9.79757 + 0.06605 * x) * (1 - 2 * t + 3 * t ^ 2) * (W ^ 2 * (1 + t) ^ 2) := by ring
        _ ≤ _ := mul_le_mul_of_nonneg_left hv2 (mul_nonneg hX hq)
    calc simpleGM * (6378137 * (W + t)) ≤ (9.79757 * 6378137 ^ 2) * (6378137 * (W + t)) := mul_le_mul_of_nonneg_right hk.2 hv3.le
      _ ≤ (((9.79757 + 0.06605 * x) * (1 - 2 * t + 3 * t ^ 2) * (W + t) ^ 2) * 6378137 ^ 2) * (6378137 * (W + t)) := by gcongr
      _ = (9.79757 + 0.06605 * x) * (1 - 2 * t + 3 * t ^ 2) * (6378137 * (W + t)) ^ 3 := by ring
      _ ≤ _ := mul_le_mul_of_nonneg_left hr3 (mul_nonneg hX hq)
  · rw [div_mul_div_comm, div_le_iff₀ (by positivity)]
    have h4 : 0.9866 ≤ W ^ 4 := by
      have : (0.993305 : ℝ) ≤ W ^ 2 := by rw [hW2]; linarith
      calc (0.9866 : ℝ) ≤ 0.993305 ^ 2 := by norm_num
        _ ≤ (W ^ 2) ^ 2 := pow_le_pow_left₀ (by norm_num) this 2
        _ = W ^ 4 := by ring
    have hWv : W ^ 3 ≤ (W + t) ^ 3 := pow_le_pow_left₀ hW.le (by linarith) 3
    calc simpleGM * 6378137 ≤ 9.79757 * 6378137 ^ 2 * 6378137 := mul_le_mul_of_nonneg_right hk.2 (by norm_num)
      _ ≤ 9.931 * (6378137 ^ 3 * W ^ 4) := by nlinarith
      _ = 9.931 * ((6378137 ^ 3 * W ^ 3) * W) := by ring
      _ ≤ 9.931 * (r ^ 3 * W) := by
        have : (6378137 : ℝ) ^ 3 * W ^ 3 ≤ r ^ 3 := le_trans (by rw [mul_pow]; gcongr) hr3
        gcongr

set_option maxHeartbeats 1600000 in
/-- C173: at every point up to 20 km above the ellipsoid the attraction of `simpleGravity` (at the point given by `lla2Ecef`, in the axes given by `computeREcef2Ned`) differs
from `gravityNed` by 0.016 to 0.034 m/s² along the vertical, at most 0.034 m/s² northwards and nothing eastwards: by less than half a percent. The simple
model is the stronger one everywhere: it leaves out the centrifugal acceleration. -/
theorem C173_models_agree (lat lon h : ℝ) (hlat : |lat| ≤ Real.pi / 2) (hlon : |lon| ≤ Real.pi) (hh : 0 ≤ h) (hh' : h ≤ 20000) (r0 : V3 ℝ) (R0 : M3 ℝ) :
    let d := (computeREcef2Ned lat lon R0).2 *ᵥ (simpleGravity (lla2Ecef lat lon h r0).2).2 - (gravityNed lat h).2
    |d 0| ≤ 0.034 ∧ d 1 = 0 ∧ 0.016 ≤ d 2 ∧ d 2 ≤ 0.034 := by
  have hr : InRange lat lon := ⟨hlat, hlon⟩
  have hR : (computeREcef2Ned lat lon R0).2 = (ned2ecef lat lon)ᵀ := by
    obtain ⟨hb, ht⟩ := C21_bitwise_transpose lat lon R0 R0
    rw [ned2ecef_R hr] at hb ht
    ext i j; exact ht hb i j
  have hrot : IsRot (ned2ecef lat lon)ᵀ := (ned2ecef_isRot lat lon).transpose
  have hx0 := sq_nonneg (Real.sin lat)
  have hx1 := Real.sin_sq_le_one lat
  obtain ⟨he, he'⟩ := ecc2_bounds
  have hw : 0 < 1 - ecc2 * Real.sin lat ^ 2 := by nlinarith
  set W := Real.sqrt (1 - ecc2 * Real.sin lat ^ 2) with hWdef
  have hW : 0 < W := Real.sqrt_pos.2 hw
  have hW2 : W ^ 2 = 1 - ecc2 * Real.sin lat ^ 2 := Real.sq_sqrt hw.le
  have hN : primeVertical lat = 6378137 / W := by rw [primeVertical, semiMajor]
  have hu : primeVertical lat * (1 - ecc2 * Real.sin lat ^ 2) + h = 6378137 * W + h := by rw [hN, ← hW2]; field_simp
  have hp := point_in_ned lat lon h
  rw [hu] at hp
  set p := ellPoint lat lon h with hpdef
  have hp0 : p ≠ 0 := fun h0 => by
    rw [h0, mulVec_zero] at hp
    have := congrFun hp 2
    simp only [Pi.zero_apply, cons_val] at this
    nlinarith
  have hl : 0 < len3 p := by rw [len3_dot]; exact Real.sqrt_pos.2 (dot_pos hp0)
  have hl2 : len3 p ^ 2 = (ecc2 * primeVertical lat * Real.sin lat * Real.cos lat) ^ 2 + (6378137 * W + h) ^ 2 := by
    rw [← rot_len3 _ hrot p, hp, len3, Real.sq_sqrt (by positivity)]
    simp; ring
  have hsc : |Real.sin lat * Real.cos lat| ≤ 1 / 2 := by
    have := Real.sin_two_mul lat
    have h2 := Real.abs_sin_le_one (2 * lat)
    rw [this, mul_assoc, abs_mul, abs_two] at h2
    linarith
  have hWge : 0.99664 ≤ W := by nlinarith
  have hNW : ecc2 * primeVertical lat ≤ 42900 := by
    rw [hN, mul_div_assoc', div_le_iff₀ hW]; nlinarith
  have hN0 : 0 ≤ ecc2 * primeVertical lat := mul_nonneg (by linarith) (primeVertical_pos lat).le
  have hn : (ecc2 * primeVertical lat * Real.sin lat * Real.cos lat) ^ 2 ≤ (21600 : ℝ) ^ 2 := by
    rw [sq_le_sq, abs_of_pos (by norm_num : (0 : ℝ) < 21600), mul_assoc (ecc2 * primeVertical lat), abs_mul, abs_of_nonneg hN0]
    nlinarith [abs_nonneg (Real.sin lat * Real.cos lat)]
  obtain ⟨b1, b2, b3⟩ := attraction_bounds _ W h _ ecc2 hx0 hx1 he he' hW hW2 hh hh' hn (len3 p) hl hl2
  have hS : (simpleGravity (lla2Ecef lat lon h r0).2).2 = (-simpleGM / len3 p ^ 3) • p := by rw [lla2Ecef_R hr, (C45_inverse_square p hp0).1]
  have hd : (computeREcef2Ned lat lon R0).2 *ᵥ (simpleGravity (lla2Ecef lat lon h r0).2).2 - (gravityNed lat h).2
      = ![simpleGM / len3 p ^ 3 * (ecc2 * primeVertical lat * Real.sin lat * Real.cos lat) + 8.08e-9 * h * Real.sin (2 * lat), 0,
          simpleGM / len3 p ^ 3 * (6378137 * W + h) - ellG lat * altFactor lat h] := by
    rw [hR, hS, mulVec_smul, hp, gravity_R]
    ext i
    fin_cases i <;> simp <;> ring
  have hg : 0 < simpleGM / len3 p ^ 3 := by have : 0 < simpleGM := by norm_num [simpleGM]
                                            positivity
  rw [hd]
  refine ⟨?_, rfl, ?_, ?_⟩
  · show |simpleGM / len3 p ^ 3 * (ecc2 * primeVertical lat * Real.sin lat * Real.cos lat) + 8.08e-9 * h * Real.sin (2 * lat)| ≤ 0.034
    have e : simpleGM / len3 p ^ 3 * (ecc2 * primeVertical lat * Real.sin lat * Real.cos lat) + 8.08e-9 * h * Real.sin (2 * lat)
        = (simpleGM / len3 p ^ 3 * (6378137 / W) * ecc2 + 1.616e-8 * h) * (Real.sin lat * Real.cos lat) := by rw [hN, Real.sin_two_mul]; ring
    rw [e, abs_mul]
    have hk0 : 0 ≤ simpleGM / len3 p ^ 3 * (6378137 / W) * ecc2 + 1.616e-8 * h := by positivity
    have hk1 : simpleGM / len3 p ^ 3 * (6378137 / W) * ecc2 + 1.616e-8 * h ≤ 0.068 := by
      have : simpleGM / len3 p ^ 3 * (6378137 / W) * ecc2 ≤ 9.931 * 0.006695 := mul_le_mul b3 he'.le (by linarith) (by norm_num)
      norm_num at this ⊢
      linarith
    rw [abs_of_nonneg hk0]
    nlinarith [abs_nonneg (Real.sin lat * Real.cos lat)]
  all_goals
    have g1 := ellG_lower lat
    have g2 := ellG_upper lat
    obtain ⟨f1, f2⟩ := altFactor_bounds lat h hh
    have ht0 : 0 ≤ h / 6378137 := by positivity
    have ht1 : h / 6378137 ≤ 0.003136 := by rw [div_le_iff₀ (by norm_num)]; linarith
    have hG0 : 0 < ellG lat := by linarith
  · show 0.016 ≤ simpleGM / len3 p ^ 3 * (6378137 * W + h) - ellG lat * altFactor lat h
    have : ellG lat * altFactor lat h ≤ (9.78033 + 0.0519 * Real.sin lat ^ 2) * (1 - 2 * (h / 6378137) + 3 * (h / 6378137) ^ 2) := by
      refine le_trans (mul_le_mul_of_nonneg_left f2 hG0.le) (mul_le_mul_of_nonneg_right g2 ?_)
      linarith [sq_nonneg (h / 6378137)]
    generalize h / 6378137 = t at *
    generalize Real.sin lat ^ 2 = x at *
    nlinarith [mul_nonneg ht0 hx0, mul_nonneg ht0 ht0, mul_nonneg (mul_nonneg ht0 ht0) hx0, mul_nonneg ht0 (by linarith : (0 : ℝ) ≤ 0.003136 - t),
      mul_nonneg (mul_nonneg ht0 (by linarith : (0 : ℝ) ≤ 0.003136 - t)) (by linarith : (0 : ℝ) ≤ 1 - x)]
  · show simpleGM / len3 p ^ 3 * (6378137 * W + h) - ellG lat * altFactor lat h ≤ 0.034
    have : (9.7803 + 0.0516 * Real.sin lat ^ 2) * (1 - 2.0138 * (h / 6378137)) ≤ ellG lat * altFactor lat h :=
      mul_le_mul g1 f1 (by linarith) hG0.le
    generalize h / 6378137 = t at *
    generalize Real.sin lat ^ 2 = x at *
    nlinarith [mul_nonneg ht0 hx0, mul_nonneg ht0 ht0, mul_nonneg (mul_nonneg ht0 ht0) hx0, mul_nonneg ht0 (by linarith : (0 : ℝ) ≤ 0.003136 - t),
      mul_nonneg (mul_nonneg ht0 (by linarith : (0 : ℝ) ≤ 0.003136 - t)) (by linarith : (0 : ℝ) ≤ 1 - x)]

/-- non-vacuity: an airliner over Norway -/
example : |(1 : ℝ)| ≤ Real.pi / 2 ∧ |(0.2 : ℝ)| ≤ Real.pi ∧ (0 : ℝ) ≤ 11000 ∧ (11000 : ℝ) ≤ 20000 := by
  refine ⟨?_, ?_, by norm_num, by norm_num⟩
  · rw [abs_one]; linarith [Real.pi_gt_three]
  · rw [abs_of_pos (by norm_num)]; linarith [Real.pi_gt_three]

end NavFuse.Props
