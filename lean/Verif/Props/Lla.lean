import Verif.Lemmas.BowringErr
import Mathlib.Analysis.Real.Pi.Bounds

/-! # `ecef2Lla`: C25-C27 -/

set_option linter.unusedSimpArgs false

namespace NavFuse.Props
open Matrix Spec Gravity NavUtils Rotations XR

theorem bad_X {lat lon : ℝ} (h : InRange lat lon) : latLonBad (fin lat) (fin lon) = false := by
  have := bad_false h
  simp only [latLonBad, xsimp] at this ⊢
  rw [fin_div _ _ (by norm_num)]
  exact this

theorem lla2Ecef_X {lat lon : ℝ} (h : InRange lat lon) (alt : ℝ) (r0 : V3 XR) :
    lla2Ecef (fin lat) (fin lon) (fin alt) r0 = (true, finV (ellPoint lat lon alt)) := by
  have hw : Flt.sqrt (fin (1 - ecc2 * Real.sin lat ^ 2)) = fin (Real.sqrt (1 - ecc2 * Real.sin lat ^ 2)) := X_sqrt _ (w_pos lat).le
  have hd : (fin semiMajor : XR) / fin (Real.sqrt (1 - ecc2 * Real.sin lat ^ 2)) = fin (primeVertical lat) := by
    rw [fin_div _ _ (Real.sqrt_pos.2 (w_pos lat)).ne', primeVertical]
  have he2 : Real.sqrt ecc2 ^ 2 = ecc2 := Real.sq_sqrt ecc2_pos.le
  simp only [lla2Ecef, bad_X h, e_X]
  simp only [a_X, xsimp, Rat.cast_one, he2, hw, hd, Bool.false_eq_true, if_false]
  congr 1
  ext i
  fin_cases i <;> rfl

/-- the horizontal radius of a point produced by `lla2Ecef` -/
theorem ellPoint_p (lat lon h : ℝ) (h0 : 0 ≤ (primeVertical lat + h) * Real.cos lat) :
    Real.sqrt ((ellPoint lat lon h) 0 ^ 2 + (ellPoint lat lon h) 1 ^ 2) = (primeVertical lat + h) * Real.cos lat := by
  have : (ellPoint lat lon h) 0 ^ 2 + (ellPoint lat lon h) 1 ^ 2 = ((primeVertical lat + h) * Real.cos lat) ^ 2 := by
    have := Real.sin_sq_add_cos_sq lon
    simp [ellPoint]; linear_combination ((primeVertical lat + h) * Real.cos lat) ^ 2 * this
  rw [this, Real.sqrt_sq h0]

theorem ellPoint_lon (lat lon h : ℝ) (h0 : 0 < (primeVertical lat + h) * Real.cos lat) (hlon : -Real.pi < lon ∧ lon ≤ Real.pi) :
    Complex.arg ⟨(ellPoint lat lon h) 0, (ellPoint lat lon h) 1⟩ = lon := by
  have : (⟨(ellPoint lat lon h) 0, (ellPoint lat lon h) 1⟩ : ℂ)
      = (((primeVertical lat + h) * Real.cos lat : ℝ) : ℂ) * (Complex.cos lon + Complex.sin lon * Complex.I) := by
    rw [← Complex.ofReal_cos, ← Complex.ofReal_sin]
    apply Complex.ext <;> simp [ellPoint, Complex.cos_ofReal_re, Complex.sin_ofReal_re]
  rw [this, Complex.arg_mul_cos_add_sin_mul_I h0 hlon]

/-- Worst latitude error of `ecef2Lla` in radians at altitude `h`: below a quarter of a microradian at any altitude, and only the inconsistency
of the constants (`1e-11` rad, a tenth of a millimetre) on the ellipsoid. -/
noncomputable def latTol (h : ℝ) : ℝ := 1.6e-7 * (h ^ 2 * semiMajor / (semiMajor + h) ^ 3) + 1e-11

theorem latTol_le (h : ℝ) (hh : -1e5 ≤ h) : 0 ≤ latTol h ∧ latTol h ≤ 2.4e-8 := by
  have ha := semiMajor_pos
  have hah : 0 < semiMajor + h := by linarith [show (6e6 : ℝ) ≤ semiMajor by norm_num [semiMajor]]
  have hq : 0 ≤ 4 * h + semiMajor := by linarith [show (6e6 : ℝ) ≤ semiMajor by norm_num [semiMajor]]
  constructor
  · rw [latTol]; positivity
  · have : h ^ 2 * semiMajor / (semiMajor + h) ^ 3 ≤ 4 / 27 := by
      rw [div_le_iff₀ (by positivity)]
      nlinarith [mul_nonneg (sq_nonneg (h - 2 * semiMajor)) hq]
    rw [latTol]
    linarith

theorem primeVertical_lip (x y : ℝ) : |primeVertical x - primeVertical y| ≤ 0.0068 * semiMajor * |x - y| := by
  have key : ∀ φ, axisRatio ≤ Real.sqrt (1 - ecc2 * Real.sin φ ^ 2) := fun φ => by
    apply Real.le_sqrt_of_sq_le
    rw [axisRatio_sq]
    have : Real.sin φ ^ 2 ≤ 1 := by linarith [Real.sin_sq_add_cos_sq φ, sq_nonneg (Real.cos φ)]
    nlinarith [ecc2_pos]
  have h1 := key x; have h2 := key y
  have e1 := W_sq x; have e2 := W_sq y
  simp only [primeVertical]
  generalize Real.sqrt (1 - ecc2 * Real.sin x ^ 2) = u at *
  generalize Real.sqrt (1 - ecc2 * Real.sin y ^ 2) = v at *
  obtain ⟨r1, r2⟩ := axisRatio_bounds
  have hu : 0 < u := by linarith
  have hv : 0 < v := by linarith
  have ha := semiMajor_pos
  have hs : |Real.sin x ^ 2 - Real.sin y ^ 2| ≤ 2 * |x - y| := by
    have : Real.sin x ^ 2 - Real.sin y ^ 2 = (Real.sin x - Real.sin y) * (Real.sin x + Real.sin y) := by ring
    rw [this, abs_mul]
    have a1 : |Real.sin x - Real.sin y| ≤ |x - y| := by
      have := Real.abs_sin_sub_sin_le x y
      exact this
    have a2 : |Real.sin x + Real.sin y| ≤ 2 := by
      rw [abs_le]; constructor <;> linarith [Real.sin_le_one x, Real.sin_le_one y, Real.neg_one_le_sin x, Real.neg_one_le_sin y]
    nlinarith [abs_nonneg (x - y), abs_nonneg (Real.sin x + Real.sin y)]
  have e : semiMajor / u - semiMajor / v = semiMajor * ecc2 * (Real.sin x ^ 2 - Real.sin y ^ 2) / (u * v * (u + v)) := by
    have : ecc2 * (Real.sin x ^ 2 - Real.sin y ^ 2) = v ^ 2 - u ^ 2 := by rw [e1, e2]; ring
    rw [mul_assoc, this]; field_simp; ring
  have hd : 1.97 ≤ u * v * (u + v) := by
    have b1 : 0.99664 ≤ u := by linarith
    have b2 : 0.99664 ≤ v := by linarith
    have b3 : 0.99664 * 0.99664 ≤ u * v := mul_le_mul b1 b2 (by norm_num) hu.le
    have b4 : 0.99664 * 0.99664 * (2 * 0.99664) ≤ u * v * (u + v) := mul_le_mul b3 (by linarith) (by norm_num) (by positivity)
    linarith
  rw [e, abs_div, abs_of_pos (by positivity : 0 < u * v * (u + v)), abs_mul, abs_of_pos (mul_pos ha ecc2_pos)]
  rw [div_le_iff₀ (by positivity)]
  have x2 := ecc2_bounds.2
  calc semiMajor * ecc2 * |Real.sin x ^ 2 - Real.sin y ^ 2| ≤ semiMajor * 0.006695 * (2 * |x - y|) := by
        apply mul_le_mul _ hs (abs_nonneg _) (by positivity)
        exact mul_le_mul_of_nonneg_left x2.le ha.le
    _ ≤ 0.0068 * semiMajor * |x - y| * 1.97 := by nlinarith [mul_nonneg ha.le (abs_nonneg (x - y))]
    _ ≤ _ := by apply mul_le_mul_of_nonneg_left hd; positivity

/-- C25, as far as it holds: off the poles and above the ellipsoid or at most 100 km below it, `ecef2Lla` recovers the longitude exactly, the latitude within
`latTol alt` (at most 2.4e-8 rad), and the altitude within `1.02 (a + alt) latTol(alt) / cos(lat)`. -/
theorem C25_round_trip_partial (lat lon alt : ℝ) (hlat : |lat| < Real.pi / 2) (hlon : -Real.pi < lon ∧ lon ≤ Real.pi) (halt : -1e5 ≤ alt)
    (hcos : 1e-5 ≤ Real.cos lat) (r0 : V3 XR) :
    ∃ lat' alt' : ℝ, ecef2Lla (lla2Ecef (fin lat) (fin lon) (fin alt) r0).2 = (true, fin lat', fin lon, fin alt') ∧
      |lat' - lat| ≤ latTol alt ∧ latTol alt ≤ 2.4e-8 ∧
      |alt' - alt| ≤ 1.02 * (semiMajor + alt) * latTol alt / Real.cos lat := by
  have hc : 0 < Real.cos lat := by linarith
  have ha := semiMajor_pos
  have hN := primeVertical_ge lat
  have hA : semiMajor = 6378137 := rfl
  have hP : 0 < primeVertical lat + alt := by linarith
  have hp : 0 < (primeVertical lat + alt) * Real.cos lat := mul_pos hP hc
  obtain ⟨t0, t1⟩ := latTol_le alt halt
  have herr := latR_error lat alt hlat halt
  rw [lla2Ecef_X ⟨hlat.le, abs_le.2 ⟨hlon.1.le, hlon.2⟩⟩]
  simp only
  rw [ecef2Lla_X, ellPoint_p lat lon alt hp.le, ellPoint_lon lat lon alt hp hlon]
  have hz : (ellPoint lat lon alt) 2 = ((1 - ecc2) * primeVertical lat + alt) * Real.sin lat := rfl
  rw [hz]
  generalize latR ((primeVertical lat + alt) * Real.cos lat) (((1 - ecc2) * primeVertical lat + alt) * Real.sin lat) = φ at *
  change |φ - lat| ≤ latTol alt at herr
  have hcl : |Real.cos lat - Real.cos φ| ≤ |φ - lat| := by
    have := Real.abs_cos_sub_cos_le lat φ
    rw [abs_sub_comm φ lat]; exact this
  have hcφ : 0.9976 * Real.cos lat ≤ Real.cos φ := by
    have := (abs_le.1 (hcl.trans (herr.trans t1))).2
    linarith
  have hcφ0 : 0 < Real.cos φ := by linarith
  refine ⟨φ, (primeVertical lat + alt) * Real.cos lat / Real.cos φ - primeVertical φ, ?_, herr, t1, ?_⟩
  · rw [fin_div _ _ hcφ0.ne', fin_sub]
  · have hlip := primeVertical_lip lat φ
    rw [abs_sub_comm lat φ] at hlip
    have e : (primeVertical lat + alt) * Real.cos lat / Real.cos φ - primeVertical φ - alt
        = (primeVertical lat + alt) * (Real.cos lat - Real.cos φ) / Real.cos φ + (primeVertical lat - primeVertical φ) := by
      field_simp; ring
    have hNu : primeVertical lat ≤ 1.0034 * semiMajor := by
      have hW : axisRatio ≤ Real.sqrt (1 - ecc2 * Real.sin lat ^ 2) := by
        apply Real.le_sqrt_of_sq_le
        rw [axisRatio_sq]
        have : Real.sin lat ^ 2 ≤ 1 := by linarith [Real.sin_sq_add_cos_sq lat, sq_nonneg (Real.cos lat)]
        nlinarith [ecc2_pos]
      have r1 := axisRatio_bounds.1
      rw [primeVertical, div_le_iff₀ (by linarith)]
      have : 1.0034 * semiMajor * 0.99664 ≤ 1.0034 * semiMajor * Real.sqrt (1 - ecc2 * Real.sin lat ^ 2) :=
        mul_le_mul_of_nonneg_left (by linarith) (by positivity)
      linarith
    have hcl1 : Real.cos lat ≤ 1 := Real.cos_le_one lat
    have hd : 0 ≤ |φ - lat| := abs_nonneg _
    have h1 : |(primeVertical lat + alt) * (Real.cos lat - Real.cos φ) / Real.cos φ| ≤ 1.006 * (semiMajor + alt) * |φ - lat| / Real.cos lat := by
      rw [abs_div, abs_mul, abs_of_pos hP, abs_of_pos hcφ0, div_le_div_iff₀ hcφ0 hc]
      have q1 : (primeVertical lat + alt) * |Real.cos lat - Real.cos φ| ≤ 1.0035 * (semiMajor + alt) * |φ - lat| :=
        mul_le_mul (by linarith) hcl (abs_nonneg _) (by linarith)
      have q2 : 0 ≤ (semiMajor + alt) * |φ - lat| := mul_nonneg (by linarith) hd
      calc _ ≤ 1.0035 * (semiMajor + alt) * |φ - lat| * Real.cos lat := mul_le_mul_of_nonneg_right q1 hc.le
        _ ≤ 1.006 * (semiMajor + alt) * |φ - lat| * (0.9976 * Real.cos lat) := by
            nlinarith [mul_nonneg q2 hc.le]
        _ ≤ _ := mul_le_mul_of_nonneg_left hcφ (by linarith)
    have h2 : |primeVertical lat - primeVertical φ| ≤ 0.007 * (semiMajor + alt) * |φ - lat| / Real.cos lat := by
      rw [le_div_iff₀ hc]
      have q2 : 0.0068 * semiMajor ≤ 0.007 * (semiMajor + alt) := by linarith
      calc _ ≤ 0.0068 * semiMajor * |φ - lat| * 1 := mul_le_mul hlip hcl1 hc.le (by positivity)
        _ ≤ _ := by rw [mul_one]; exact mul_le_mul_of_nonneg_right q2 hd
    rw [e]
    calc _ ≤ _ := abs_add_le _ _
      _ ≤ _ := add_le_add h1 h2
      _ = 1.013 * (semiMajor + alt) * |φ - lat| / Real.cos lat := by ring
      _ ≤ _ := by
        apply div_le_div_of_nonneg_right _ hc.le
        apply mul_le_mul _ herr hd (by linarith)
        linarith

example : |(0.7 : ℝ)| < Real.pi / 2 ∧ (1e-5 : ℝ) ≤ Real.cos 0.7 := by
  refine ⟨by rw [abs_of_pos (by norm_num)]; linarith [Real.pi_gt_three], ?_⟩
  have := Real.one_sub_sq_div_two_le_cos (x := 0.7)
  norm_num at this ⊢; linarith

/-- C25 on the equator: exact. -/
theorem C25_equator_exact (lon alt : ℝ) (hlon : -Real.pi < lon ∧ lon ≤ Real.pi) (halt : -1e5 ≤ alt) (r0 : V3 XR) :
    ecef2Lla (lla2Ecef (fin 0) (fin lon) (fin alt) r0).2 = (true, fin 0, fin lon, fin alt) := by
  have hpi := Real.pi_pos
  have ha := semiMajor_pos
  have hA : semiMajor = 6378137 := rfl
  have hN0 : primeVertical 0 = semiMajor := by simp [primeVertical]
  have hp : 0 < (primeVertical 0 + alt) * Real.cos 0 := by rw [hN0, Real.cos_zero]; linarith
  rw [lla2Ecef_X ⟨by simp; linarith, abs_le.2 ⟨hlon.1.le, hlon.2⟩⟩]
  simp only
  rw [ecef2Lla_X, ellPoint_p 0 lon alt hp.le, ellPoint_lon 0 lon alt hp hlon]
  have hz : (ellPoint 0 lon alt) 2 = ((1 - ecc2) * primeVertical 0 + alt) * Real.sin 0 := rfl
  obtain ⟨W, Y, E, F, R, -, -, -, -, hE, -, -, -, -, hs, -, h5, -⟩ := latR_spec 0 alt (by simp; linarith) halt
  have h0 : latR ((primeVertical 0 + alt) * Real.cos 0) (((1 - ecc2) * primeVertical 0 + alt) * Real.sin 0) = 0 := by
    rw [hE] at hs
    simp only [Real.sin_zero, zero_mul, zero_div, sub_zero] at hs
    have := abs_lt.1 h5
    simp only [Real.sin_zero] at this ⊢
    exact (Real.sin_eq_zero_iff_of_lt_of_lt (by linarith) (by linarith)).1 hs
  rw [hz, h0, hN0, Real.cos_zero, fin_div _ _ one_ne_zero, fin_sub]
  simp

/-- C25 fails at the pole: the longitude is lost, as it must be, but the altitude comes out as NaN. (In doubles `cos` of the rounded `π/2` is not
zero and the altitude is minus the radius of the earth instead.) -/
theorem C25_pole_fails (lon alt : ℝ) (hlon : |lon| ≤ Real.pi) (halt : -1e5 ≤ alt) (r0 : V3 XR) :
    ecef2Lla (lla2Ecef (fin (Real.pi / 2)) (fin lon) (fin alt) r0).2 = (true, fin (Real.pi / 2), fin 0, nan) := by
  have hpi := Real.pi_pos
  have ha := semiMajor_pos
  have hA : semiMajor = 6378137 := rfl
  rw [lla2Ecef_X ⟨by rw [abs_of_pos (by linarith)], hlon⟩]
  simp only
  rw [ecef2Lla_X]
  have h0 : (ellPoint (Real.pi / 2) lon alt) 0 = 0 := by simp [ellPoint]
  have h1 : (ellPoint (Real.pi / 2) lon alt) 1 = 0 := by simp [ellPoint]
  have h2 : 0 < (ellPoint (Real.pi / 2) lon alt) 2 := by
    have := primeVertical_ge (Real.pi / 2)
    have he := ecc2_bounds.2
    have := mul_le_mul (by linarith : 0.99 ≤ 1 - ecc2) this ha.le (by linarith)
    simp [ellPoint]
    norm_num at *
    linarith
  generalize (ellPoint (Real.pi / 2) lon alt) 2 = z at *
  have hth : thR 0 z = Real.pi / 2 := by
    rw [thR]
    have : (⟨polarC * 0, semiMajor * z⟩ : ℂ) = ((semiMajor * z : ℝ) : ℂ) * Complex.I := by apply Complex.ext <;> simp
    rw [this, Complex.arg_real_mul _ (mul_pos ha h2), Complex.arg_I]
  have hlat : latR 0 z = Real.pi / 2 := by
    have hx : latXR 0 z = 0 := by rw [latXR, hth]; simp
    have hy : latYR 0 z = z + kC := by rw [latYR, hth]; simp
    rw [latR, hx, hy]
    have : (⟨0, z + kC⟩ : ℂ) = ((z + kC : ℝ) : ℂ) * Complex.I := by apply Complex.ext <;> simp
    rw [this, Complex.arg_real_mul _ (add_pos h2 kC_pos), Complex.arg_I]
  have hz0 : Complex.arg ⟨0, 0⟩ = 0 := Complex.arg_zero
  simp only [h0, h1, ne_eq, OfNat.ofNat_ne_zero, not_false_eq_true, zero_pow, add_zero, Real.sqrt_zero, hlat, Real.cos_pi_div_two, xsimp, hz0]

set_option maxHeartbeats 1000000 in
/-- C25 fails at altitude: at 45° latitude, two earth radii up, the latitude comes out more than 5e-9 rad too large, in exact arithmetic. -/
theorem C25_altitude_fails (r0 : V3 XR) :
    ∃ lat' alt' : XR, ecef2Lla (lla2Ecef (fin (Real.pi / 4)) (fin 0) (fin (2 * semiMajor)) r0).2 = (true, lat', fin 0, alt') ∧
      ∃ x, lat' = fin x ∧ Real.pi / 4 + 5e-9 < x := by
  have hpi := Real.pi_pos
  have ha := semiMajor_pos
  have hlat : |Real.pi / 4| < Real.pi / 2 := by rw [abs_of_pos (by linarith)]; linarith
  have hc := Real.cos_pos_of_mem_Ioo (abs_lt.1 hlat)
  have hN := primeVertical_ge (Real.pi / 4)
  have hp : 0 < (primeVertical (Real.pi / 4) + 2 * semiMajor) * Real.cos (Real.pi / 4) := mul_pos (by linarith) hc
  rw [lla2Ecef_X ⟨hlat.le, by simp; linarith⟩]
  simp only
  rw [ecef2Lla_X, ellPoint_p _ _ _ hp.le, ellPoint_lon _ _ _ hp ⟨by linarith, by linarith⟩]
  refine ⟨_, _, rfl, _, rfl, ?_⟩
  have hz : (ellPoint (Real.pi / 4) 0 (2 * semiMajor)) 2
      = ((1 - ecc2) * primeVertical (Real.pi / 4) + 2 * semiMajor) * Real.sin (Real.pi / 4) := rfl
  rw [hz]
  obtain ⟨W, Y, E, F, R, hW, hY, hW2, hY2, hE, hF1, hF2, hR, hR2, hs, -, -, hlt⟩ := latR_spec (Real.pi / 4) (2 * semiMajor) hlat (by linarith)
  have hs2 : Real.sin (Real.pi / 4) ^ 2 = 1 / 2 := by rw [Real.sin_pi_div_four, div_pow, Real.sq_sqrt (by norm_num)]; norm_num
  have hc2 : Real.cos (Real.pi / 4) ^ 2 = 1 / 2 := by rw [Real.cos_pi_div_four, div_pow, Real.sq_sqrt (by norm_num)]; norm_num
  have hsc : Real.sin (Real.pi / 4) * Real.cos (Real.pi / 4) = 1 / 2 := by
    rw [Real.sin_pi_div_four, ← Real.cos_pi_div_four, ← sq, hc2]
  obtain ⟨r1, r2⟩ := axisRatio_bounds
  obtain ⟨x1, x2⟩ := ecc2_bounds
  obtain ⟨n1, n2⟩ := etaC_bounds
  have hW1 := (W_bounds hW (by rw [hs2, hc2]; norm_num) hW2).1
  have hNu : primeVertical (Real.pi / 4) ≤ 1.004 * semiMajor := by
    have hW : axisRatio ≤ Real.sqrt (1 - ecc2 * Real.sin (Real.pi / 4) ^ 2) := by
      apply Real.le_sqrt_of_sq_le
      rw [axisRatio_sq, hs2]; linarith
    rw [primeVertical, div_le_iff₀ (by linarith)]
    linarith [mul_le_mul_of_nonneg_left (r1.le.trans hW) ha.le]
  set t := 2 * semiMajor / (primeVertical (Real.pi / 4) + 2 * semiMajor) with ht
  have ht0 : 0.665 ≤ t := by rw [ht, le_div_iff₀ (by linarith)]; linarith
  have ht1 : t ≤ 1 := by rw [ht, div_le_one (by linarith)]; linarith
  obtain ⟨a1, a2⟩ := rho_sub t (by linarith)
  have hρ1 : 0.00446 ≤ rhoC t - axisRatio := by linarith
  have hρ2 : rhoC t ≤ 1.0034 := by linarith
  have hρ0 : 0 < rhoC t := by linarith
  have y := Y_bounds (by linarith) ht1 (by rw [hs2, hc2]; norm_num) hY hY2
  have hb : 7e-6 ≤ Real.cos (Real.pi / 4) ^ 2 + rhoC t ^ 3 * Real.sin (Real.pi / 4) ^ 2 / axisRatio - Y ^ 3 / W := by
    rw [bracket_eq (by linarith) hW.ne' hW2 hY2]
    have hrem := (rem_bounds (by linarith) (by linarith) hW hY hW2 hY2).2
    have hs4 : Real.sin (Real.pi / 4) ^ 4 = 1 / 4 := by
      calc _ = (Real.sin (Real.pi / 4) ^ 2) ^ 2 := by ring
        _ = _ := by rw [hs2]; norm_num
    rw [hs4] at hrem
    rw [hs2]
    have hr2 : (0.99664 : ℝ) ^ 2 ≤ axisRatio ^ 2 := pow_le_pow_left₀ (by norm_num) r1.le 2
    have hW2' : 0.9966 ≤ W ^ 2 := by rw [hW2, hs2, hc2]; linarith
    have q1 : 1.49 * (rhoC t - axisRatio) ^ 2 ≤ (rhoC t - axisRatio) ^ 2 * (2 * rhoC t + axisRatio) / (2 * axisRatio) := by
      rw [le_div_iff₀ (by linarith)]
      have : 1.49 * (2 * axisRatio) ≤ 2 * rhoC t + axisRatio := by linarith
      linarith [mul_le_mul_of_nonneg_left this (sq_nonneg (rhoC t - axisRatio))]
    have q2 : 3 / 8 * ((rhoC t - axisRatio) ^ 2 * (rhoC t + axisRatio) ^ 2 * (1 / 4) / W ^ 2) ≤ 0.38 * (rhoC t - axisRatio) ^ 2 := by
      have e : (rhoC t + axisRatio) ^ 2 / W ^ 2 ≤ 4.05 := by
        rw [div_le_iff₀ (by positivity)]
        have : (rhoC t + axisRatio) ^ 2 ≤ 2.0001 ^ 2 := pow_le_pow_left₀ (by linarith) (by linarith) 2
        linarith
      calc _ = 3 / 32 * (rhoC t - axisRatio) ^ 2 * ((rhoC t + axisRatio) ^ 2 / W ^ 2) := by ring
        _ ≤ 3 / 32 * (rhoC t - axisRatio) ^ 2 * 4.05 := mul_le_mul_of_nonneg_left e (by positivity)
        _ ≤ _ := by linarith [sq_nonneg (rhoC t - axisRatio)]
    have q3 : (0.00446 : ℝ) ^ 2 ≤ (rhoC t - axisRatio) ^ 2 := pow_le_pow_left₀ (by norm_num) hρ1 2
    linarith
  have hEl : 2.2e-8 * semiMajor ≤ E := by
    rw [hE, hsc]
    have hY3 : Y ^ 3 ≤ 1.0103 := by
      calc Y ^ 3 ≤ 1.0034 ^ 3 := pow_le_pow_left₀ hY.le y.2 3
        _ ≤ _ := by norm_num
    have q1 : 0.98 * semiMajor ≤ semiMajor / Y ^ 3 := by
      rw [le_div_iff₀ (by positivity)]; linarith [mul_le_mul_of_nonneg_left hY3 ha.le]
    have q2 : 4.6e-8 ≤ ecc2 * (Real.cos (Real.pi / 4) ^ 2 + rhoC t ^ 3 * Real.sin (Real.pi / 4) ^ 2 / axisRatio - Y ^ 3 / W)
        + etaC * rhoC t ^ 3 * Real.sin (Real.pi / 4) ^ 2 := by
      have p1 : 0 ≤ etaC * rhoC t ^ 3 * Real.sin (Real.pi / 4) ^ 2 := by positivity
      have p2 : 0.00669 * 7e-6 ≤ ecc2 * (Real.cos (Real.pi / 4) ^ 2 + rhoC t ^ 3 * Real.sin (Real.pi / 4) ^ 2 / axisRatio - Y ^ 3 / W) :=
        mul_le_mul x1.le hb (by norm_num) ecc2_pos.le
      linarith
    calc 2.2e-8 * semiMajor ≤ 1 / 2 * (0.98 * semiMajor) * 4.6e-8 := by linarith
      _ ≤ _ := by
        apply mul_le_mul _ q2 (by norm_num) (by positivity)
        exact mul_le_mul_of_nonneg_left q1 (by norm_num)
  have hEu := err_abs (by linarith) ht1 (by rw [hs2, hc2]; norm_num) hW hY hW2 hY2
  rw [← hE] at hEu
  have hEp : 0 < E := by linarith [mul_pos (by norm_num : (0 : ℝ) < 2.2e-8) ha]
  rw [abs_of_pos hEp] at hEu
  have ht2 : t ^ 2 ≤ 1 := pow_le_one₀ (by linarith) ht1
  have hEu2 : E ≤ 0.1 * semiMajor := by
    refine hEu.trans ?_
    rw [mul_comm]; apply mul_le_mul_of_nonneg_right _ ha.le; linarith
  have hRu : R ≤ 3.1 * semiMajor := by
    have : R ^ 2 ≤ (3.1 * semiMajor) ^ 2 := by
      rw [hR2]
      have f1 : E ^ 2 ≤ (0.1 * semiMajor) ^ 2 := pow_le_pow_left₀ hEp.le hEu2 2
      have f2 : F ^ 2 ≤ (3.007 * semiMajor) ^ 2 := pow_le_pow_left₀ (by linarith) (by linarith) 2
      linarith [sq_nonneg semiMajor]
    exact le_of_abs_le (abs_le_of_sq_le_sq this (by positivity))
  generalize latR ((primeVertical (Real.pi / 4) + 2 * semiMajor) * Real.cos (Real.pi / 4))
    (((1 - ecc2) * primeVertical (Real.pi / 4) + 2 * semiMajor) * Real.sin (Real.pi / 4)) = φ at *
  have hsl : 5e-9 < Real.sin (φ - Real.pi / 4) := by
    rw [hs, lt_div_iff₀ hR]
    linarith
  have hδ : 0 < φ - Real.pi / 4 := by
    by_contra hneg
    rw [not_lt] at hneg
    have := abs_lt.1 hlt
    have : Real.sin (φ - Real.pi / 4) ≤ 0 := Real.sin_nonpos_of_nonpos_of_neg_pi_le hneg (by linarith)
    linarith
  have := Real.sin_lt hδ
  linarith

end NavFuse.Props
