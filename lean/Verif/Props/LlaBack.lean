import Verif.Props.Lla
import Verif.Props.LlaRange
import Mathlib.Analysis.SpecialFunctions.Trigonometric.Arctan
import Mathlib.Topology.Order.IntermediateValue

/-! # From Earth-fixed coordinates to latitude, longitude and altitude and back: C184 -/

namespace NavFuse.Props
open Matrix Spec Gravity NavUtils Rotations XR

theorem primeVertical_le (x : ℝ) : primeVertical x ≤ 1.0034 * semiMajor := by
  have ha := semiMajor_pos
  have hW : axisRatio ≤ Real.sqrt (1 - ecc2 * Real.sin x ^ 2) := by
    apply Real.le_sqrt_of_sq_le
    rw [axisRatio_sq]
    have : Real.sin x ^ 2 ≤ 1 := by linarith [Real.sin_sq_add_cos_sq x, sq_nonneg (Real.cos x)]
    nlinarith [ecc2_pos]
  have r1 := axisRatio_bounds.1
  rw [primeVertical, div_le_iff₀ (by linarith)]
  have : 1.0034 * semiMajor * 0.99664 ≤ 1.0034 * semiMajor * Real.sqrt (1 - ecc2 * Real.sin x ^ 2) := mul_le_mul_of_nonneg_left (by linarith) (by positivity)
  linarith

theorem primeVertical_continuous : Continuous primeVertical := by
  unfold primeVertical
  exact continuous_const.div (by fun_prop) fun x => (Real.sqrt_pos.2 (w_pos x)).ne'

/-- every point off the axis has geodetic coordinates -/
theorem geodetic_exists (r : V3 ℝ) (hp : 0 < axisDist r) :
    ∃ lat lon alt : ℝ, |lat| < Real.pi / 2 ∧ -Real.pi < lon ∧ lon ≤ Real.pi ∧ 0 < primeVertical lat + alt ∧ r = ellPoint lat lon alt ∧ axisDist r = (primeVertical lat + alt) * Real.cos lat := by
  set p := axisDist r with hpd
  set G : ℝ → ℝ := fun s => p * s - ecc2 * primeVertical (Real.arctan s) * Real.sin (Real.arctan s) with hG
  have Gc : Continuous G := (continuous_const.mul continuous_id).sub
    ((continuous_const.mul (primeVertical_continuous.comp Real.continuous_arctan)).mul (Real.continuous_sin.comp Real.continuous_arctan))
  set C := ecc2 * (1.0034 * semiMajor) with hC
  have C0 : 0 < C := mul_pos ecc2_pos (by have := semiMajor_pos; positivity)
  have bd : ∀ x, |ecc2 * primeVertical x * Real.sin x| ≤ C := fun x => by
    rw [abs_mul, abs_of_pos (mul_pos ecc2_pos (primeVertical_pos x))]
    calc _ ≤ ecc2 * primeVertical x * 1 := mul_le_mul_of_nonneg_left (Real.abs_sin_le_one x) (mul_pos ecc2_pos (primeVertical_pos x)).le
      _ ≤ C := by rw [mul_one]; exact mul_le_mul_of_nonneg_left (primeVertical_le x) ecc2_pos.le
  have lo : G ((r 2 - C) / p) ≤ r 2 := by
    have := abs_le.1 (bd (Real.arctan ((r 2 - C) / p)))
    simp only [hG]; rw [mul_div_cancel₀ _ hp.ne']; linarith
  have hi : r 2 ≤ G ((r 2 + C) / p) := by
    have := abs_le.1 (bd (Real.arctan ((r 2 + C) / p)))
    simp only [hG]; rw [mul_div_cancel₀ _ hp.ne']; linarith
  obtain ⟨s, -, hs⟩ := intermediate_value_Icc (div_le_div_of_nonneg_right (by linarith : r 2 - C ≤ r 2 + C) hp.le) Gc.continuousOn ⟨lo, hi⟩
  set φ := Real.arctan s with hφ
  have hc : 0 < Real.cos φ := Real.cos_arctan_pos s
  have ht : s = Real.sin φ / Real.cos φ := by rw [← Real.tan_eq_sin_div_cos, hφ, Real.tan_arctan]
  have pos : primeVertical φ + (p / Real.cos φ - primeVertical φ) = p / Real.cos φ := by ring
  have hpc : p / Real.cos φ * Real.cos φ = p := div_mul_cancel₀ _ hc.ne'
  refine ⟨φ, Complex.arg ⟨r 0, r 1⟩, p / Real.cos φ - primeVertical φ, abs_lt.2 ⟨Real.neg_pi_div_two_lt_arctan s, Real.arctan_lt_pi_div_two s⟩,
    (Complex.arg_mem_Ioc _).1, (Complex.arg_mem_Ioc _).2, by rw [pos]; positivity, ?_, by rw [pos, hpc]⟩
  have nrm : ‖(⟨r 0, r 1⟩ : ℂ)‖ = p := by
    rw [Complex.norm_def, Complex.normSq_mk, hpd, axisDist]; congr 1; ring
  have nz : (⟨r 0, r 1⟩ : ℂ) ≠ 0 := by rw [← norm_pos_iff, nrm]; exact hp
  ext i
  fin_cases i
  · show r 0 = (primeVertical φ + (p / Real.cos φ - primeVertical φ)) * Real.cos φ * Real.cos (Complex.arg ⟨r 0, r 1⟩)
    rw [pos, hpc, Complex.cos_arg nz, nrm]; field_simp
  · show r 1 = (primeVertical φ + (p / Real.cos φ - primeVertical φ)) * Real.cos φ * Real.sin (Complex.arg ⟨r 0, r 1⟩)
    rw [pos, hpc, Complex.sin_arg, nrm]; field_simp
  · show r 2 = ((1 - ecc2) * primeVertical φ + (p / Real.cos φ - primeVertical φ)) * Real.sin φ
    rw [← hs]; simp only [hG]; rw [← hφ, ht]; ring

/-- the point computed from the computed coordinates -/
theorem back_core (lat lon alt : ℝ) (hlat : |lat| < Real.pi / 2) (hlon : -Real.pi < lon ∧ lon ≤ Real.pi) (halt : -1e5 ≤ alt) (hcos : 1e-5 ≤ Real.cos lat) (r0 : V3 XR) :
    ∃ (lat' lon' alt' z' : ℝ), ecef2Lla (finV (ellPoint lat lon alt)) = (true, fin lat', fin lon', fin alt') ∧
      lla2Ecef (fin lat') (fin lon') (fin alt') r0 = (true, finV ![(ellPoint lat lon alt) 0, (ellPoint lat lon alt) 1, z']) ∧
      |z' - (ellPoint lat lon alt) 2| ≤ 1.02 * (semiMajor + alt) * latTol alt / Real.cos lat := by
  have hc : 0 < Real.cos lat := by linarith
  have ha := semiMajor_pos
  have hN := primeVertical_ge lat
  have hA : semiMajor = 6378137 := rfl
  have hP : 0 < primeVertical lat + alt := by linarith
  have hp : 0 < (primeVertical lat + alt) * Real.cos lat := mul_pos hP hc
  obtain ⟨t0, t1⟩ := latTol_le alt halt
  have herr := latR_error lat alt hlat halt
  rw [ecef2Lla_X, ellPoint_p lat lon alt hp.le, ellPoint_lon lat lon alt hp hlon]
  have hz : (ellPoint lat lon alt) 2 = ((1 - ecc2) * primeVertical lat + alt) * Real.sin lat := rfl
  rw [hz]
  generalize latR ((primeVertical lat + alt) * Real.cos lat) (((1 - ecc2) * primeVertical lat + alt) * Real.sin lat) = φ at *
  change |φ - lat| ≤ latTol alt at herr
  have hcl : |Real.cos lat - Real.cos φ| ≤ |φ - lat| := by
    have := Real.abs_cos_sub_cos_le lat φ
    rw [abs_sub_comm φ lat]; exact this
  have hcφ : 0.9976 * Real.cos lat ≤ Real.cos φ := by
    have := (abs_le.1 (hcl.trans (herr.trans t1))).2
    linarith
  have hcφ0 : 0 < Real.cos φ := by linarith
  have hφ : |φ| ≤ Real.pi / 2 := by
    by_contra hn
    push Not at hn
    have u := abs_le.1 (herr.trans t1)
    have v := abs_lt.1 hlat
    have p3 := Real.pi_gt_three
    have b : |φ| ≤ Real.pi + Real.pi / 2 := by rw [abs_le]; constructor <;> linarith
    have : Real.cos |φ| ≤ 0 := Real.cos_nonpos_of_pi_div_two_le_of_le hn.le b
    rw [Real.cos_abs] at this; linarith
  have alt' : primeVertical φ + ((primeVertical lat + alt) * Real.cos lat / Real.cos φ - primeVertical φ) = (primeVertical lat + alt) * Real.cos lat / Real.cos φ := by ring
  have hpc : (primeVertical lat + alt) * Real.cos lat / Real.cos φ * Real.cos φ = (primeVertical lat + alt) * Real.cos lat := div_mul_cancel₀ _ hcφ0.ne'
  refine ⟨φ, lon, (primeVertical lat + alt) * Real.cos lat / Real.cos φ - primeVertical φ,
    ((1 - ecc2) * primeVertical φ + ((primeVertical lat + alt) * Real.cos lat / Real.cos φ - primeVertical φ)) * Real.sin φ, ?_, ?_, ?_⟩
  · rw [fin_div _ _ hcφ0.ne', fin_sub]
  · rw [lla2Ecef_X ⟨hφ, abs_le.2 ⟨hlon.1.le, hlon.2⟩⟩]
    congr 2
    ext i
    fin_cases i
    · show (primeVertical φ + _) * Real.cos φ * Real.cos lon = (primeVertical lat + alt) * Real.cos lat * Real.cos lon
      rw [alt', hpc]
    · show (primeVertical φ + _) * Real.cos φ * Real.sin lon = (primeVertical lat + alt) * Real.cos lat * Real.sin lon
      rw [alt', hpc]
    · rfl
  · have e : ((1 - ecc2) * primeVertical φ + ((primeVertical lat + alt) * Real.cos lat / Real.cos φ - primeVertical φ)) * Real.sin φ - ((1 - ecc2) * primeVertical lat + alt) * Real.sin lat
        = (primeVertical lat + alt) * Real.sin (φ - lat) / Real.cos φ - ecc2 * (primeVertical φ * Real.sin φ - primeVertical lat * Real.sin lat) := by
      rw [Real.sin_sub]; field_simp; ring
    rw [e]
    have hd : 0 ≤ |φ - lat| := abs_nonneg _
    have hcl1 : Real.cos lat ≤ 1 := Real.cos_le_one lat
    have hNu := primeVertical_le lat
    have sm : |Real.sin (φ - lat)| ≤ |φ - lat| := Real.abs_sin_le_abs
    have h1 : |(primeVertical lat + alt) * Real.sin (φ - lat) / Real.cos φ| ≤ 1.0065 * (semiMajor + alt) * |φ - lat| / Real.cos lat := by
      rw [abs_div, abs_mul, abs_of_pos hP, abs_of_pos hcφ0, div_le_div_iff₀ hcφ0 hc]
      have q1 : (primeVertical lat + alt) * |Real.sin (φ - lat)| ≤ 1.0035 * (semiMajor + alt) * |φ - lat| :=
        mul_le_mul (by linarith) sm (abs_nonneg _) (by linarith)
      have q2 : 0 ≤ (semiMajor + alt) * |φ - lat| := mul_nonneg (by linarith) hd
      calc _ ≤ 1.0035 * (semiMajor + alt) * |φ - lat| * Real.cos lat := mul_le_mul_of_nonneg_right q1 hc.le
        _ ≤ 1.0065 * (semiMajor + alt) * |φ - lat| * (0.9976 * Real.cos lat) := by
            nlinarith [mul_nonneg q2 hc.le]
        _ ≤ _ := mul_le_mul_of_nonneg_left hcφ (by linarith)
    have h2 : |ecc2 * (primeVertical φ * Real.sin φ - primeVertical lat * Real.sin lat)| ≤ 0.007 * (semiMajor + alt) * |φ - lat| / Real.cos lat := by
      have lip := primeVertical_lip φ lat
      have sl := Real.abs_sin_sub_sin_le φ lat
      have s1 := Real.abs_sin_le_one φ
      have e2 : primeVertical φ * Real.sin φ - primeVertical lat * Real.sin lat = (primeVertical φ - primeVertical lat) * Real.sin φ + primeVertical lat * (Real.sin φ - Real.sin lat) := by ring
      have b1 : |primeVertical φ * Real.sin φ - primeVertical lat * Real.sin lat| ≤ 1.0103 * semiMajor * |φ - lat| := by
        rw [e2]
        refine (abs_add_le _ _).trans ?_
        rw [abs_mul, abs_mul, abs_of_pos (primeVertical_pos lat)]
        have u1 := mul_le_mul lip s1 (abs_nonneg _) (by positivity)
        have u2 := mul_le_mul hNu sl (abs_nonneg _) (by positivity)
        nlinarith
      rw [abs_mul, abs_of_pos ecc2_pos, le_div_iff₀ hc]
      have q2 : 0.006695 * (1.0103 * semiMajor) ≤ 0.007 * (semiMajor + alt) := by linarith
      have q3 := mul_le_mul ecc2_bounds.2.le b1 (abs_nonneg _) (by norm_num)
      calc _ ≤ 0.006695 * (1.0103 * semiMajor * |φ - lat|) * 1 := mul_le_mul q3 hcl1 hc.le (by positivity)
        _ = 0.006695 * (1.0103 * semiMajor) * |φ - lat| := by ring
        _ ≤ _ := mul_le_mul_of_nonneg_right q2 hd
    calc _ ≤ _ := abs_sub _ _
      _ ≤ _ := add_le_add h1 h2
      _ = 1.0135 * (semiMajor + alt) * |φ - lat| / Real.cos lat := by ring
      _ ≤ _ := by
        apply div_le_div_of_nonneg_right _ hc.le
        apply mul_le_mul _ herr hd (by linarith)
        linarith

/-- where a point at a given distance from the centre can lie -/
theorem geodetic_size {lat lon alt : ℝ} {r : V3 ℝ} (hP : 0 < primeVertical lat + alt) (hr : r = ellPoint lat lon alt) (h1 : 6300000 ≤ len3 r) :
    -1e5 ≤ alt ∧ 0.99 * (primeVertical lat + alt) ≤ len3 r ∧ (1 - ecc2) * semiMajor + alt ≤ len3 r := by
  have hN := primeVertical_ge lat
  have hNu := primeVertical_le lat
  have hA : semiMajor = 6378137 := rfl
  have eb := ecc2_bounds
  have l0 : 0 ≤ len3 r := by linarith
  have q : len3 r ^ 2 = ((primeVertical lat + alt) * Real.cos lat) ^ 2 + (((1 - ecc2) * primeVertical lat + alt) * Real.sin lat) ^ 2 := by
    rw [len3, Real.sq_sqrt (by positivity), hr]
    have := Real.sin_sq_add_cos_sq lon
    simp [ellPoint]
    linear_combination ((primeVertical lat + alt) * Real.cos lat) ^ 2 * this
  have cs := Real.sin_sq_add_cos_sq lat
  have s0 := sq_nonneg (Real.sin lat)
  have c0 := sq_nonneg (Real.cos lat)
  have a1 : -1e5 ≤ alt := by
    by_contra hn
    push Not at hn
    have b1 : primeVertical lat + alt < 6299900 := by norm_num at *; linarith
    have b2 : -6299900 < (1 - ecc2) * primeVertical lat + alt := by nlinarith
    have b3 : (1 - ecc2) * primeVertical lat + alt < 6299900 := by nlinarith
    have c1 : (primeVertical lat + alt) ^ 2 ≤ 6299900 ^ 2 := by nlinarith
    have c2 : ((1 - ecc2) * primeVertical lat + alt) ^ 2 ≤ 6299900 ^ 2 := by nlinarith
    have : len3 r ^ 2 ≤ 6299900 ^ 2 := by
      rw [q, mul_pow, mul_pow]
      nlinarith [mul_le_mul_of_nonneg_right c1 c0, mul_le_mul_of_nonneg_right c2 s0]
    nlinarith
  have k0 : 0.99 * (primeVertical lat + alt) ≤ (1 - ecc2) * primeVertical lat + alt := by norm_num at *; nlinarith
  have k1 : 0 < (1 - ecc2) * primeVertical lat + alt := by norm_num at *; linarith
  have low : (1 - ecc2) * primeVertical lat + alt ≤ len3 r := by
    refine (pow_le_pow_iff_left₀ k1.le l0 two_ne_zero).1 ?_
    rw [q, mul_pow, mul_pow]
    have : ((1 - ecc2) * primeVertical lat + alt) ^ 2 ≤ (primeVertical lat + alt) ^ 2 := by
      refine pow_le_pow_left₀ k1.le ?_ 2
      have := ecc2_pos
      nlinarith
    nlinarith [mul_le_mul_of_nonneg_right this c0]
  refine ⟨a1, k0.trans low, le_trans ?_ low⟩
  have : (1 - ecc2) * semiMajor ≤ (1 - ecc2) * primeVertical lat := mul_le_mul_of_nonneg_left hN (by linarith)
  linarith

/-- C184: an Earth-fixed position at least 6300 km from the centre and off the axis, converted to latitude, longitude and altitude and back, comes out with
x and y exact; z is off by at most 2.6·10⁻⁸ |r|²/p, p being the distance from the axis, and by at most 5.6·10⁻¹¹ |r|²/p (0.36 mm on the equator) near the
surface. -/
theorem C184_there_and_back (r : V3 ℝ) (r0 : V3 XR) (h1 : 6300000 ≤ len3 r) (hp : 2e-5 * len3 r ≤ axisDist r) :
    ∃ (lat lon alt z : ℝ), ecef2Lla (finV r) = (true, fin lat, fin lon, fin alt) ∧ lla2Ecef (fin lat) (fin lon) (fin alt) r0 = (true, finV ![r 0, r 1, z]) ∧
      |z - r 2| ≤ 2.6e-8 * (len3 r ^ 2 / axisDist r) ∧ (len3 r ≤ 6400000 → |z - r 2| ≤ 5.6e-11 * (len3 r ^ 2 / axisDist r)) := by
  have p0 : 0 < axisDist r := by norm_num at *; linarith
  obtain ⟨lat, lon, alt, g1, g2, g3, g4, g5, g6⟩ := geodetic_exists r p0
  obtain ⟨s1, s2, s3⟩ := geodetic_size g4 g5 h1
  have hA : semiMajor = 6378137 := rfl
  have hN := primeVertical_ge lat
  have c1 : Real.cos lat ≤ 1 := Real.cos_le_one lat
  have hc : 1e-5 ≤ Real.cos lat := by
    by_contra hn
    push Not at hn
    have := mul_lt_mul_of_pos_left hn g4
    norm_num at *
    nlinarith
  have hc0 : 0 < Real.cos lat := by linarith
  obtain ⟨t0, t1⟩ := latTol_le alt s1
  obtain ⟨la, lo, al, z, e1, e2, e3⟩ := back_core lat lon alt g1 ⟨g2, g3⟩ s1 hc r0
  rw [← g5] at e1 e2 e3
  have sz : (semiMajor + alt) / Real.cos lat ≤ 1.0204 * (len3 r ^ 2 / axisDist r) := by
    rw [g6, ← mul_div_assoc, div_le_div_iff₀ hc0 (mul_pos g4 hc0)]
    have l0 : 0 ≤ 0.99 * (primeVertical lat + alt) := by positivity
    have q : (0.99 * (primeVertical lat + alt)) ^ 2 ≤ len3 r ^ 2 := pow_le_pow_left₀ l0 s2 2
    have q2 : (semiMajor + alt) * (primeVertical lat + alt) ≤ 1.0204 * len3 r ^ 2 := by
      have : (semiMajor + alt) * (primeVertical lat + alt) ≤ (primeVertical lat + alt) * (primeVertical lat + alt) := mul_le_mul_of_nonneg_right (by linarith) g4.le
      nlinarith
    nlinarith [mul_le_mul_of_nonneg_right q2 hc0.le]
  have e4 : |z - r 2| ≤ 1.02 * latTol alt * (1.0204 * (len3 r ^ 2 / axisDist r)) := by
    refine e3.trans ?_
    rw [show 1.02 * (semiMajor + alt) * latTol alt / Real.cos lat = 1.02 * latTol alt * ((semiMajor + alt) / Real.cos lat) by ring]
    exact mul_le_mul_of_nonneg_left sz (by positivity)
  have Q : 0 ≤ len3 r ^ 2 / axisDist r := by positivity
  refine ⟨la, lo, al, z, e1, e2, ?_, fun h2 => ?_⟩
  · norm_num at *; nlinarith
  · have eb := ecc2_bounds
    have au : alt ≤ 1e5 := by norm_num at *; nlinarith
    have lt : latTol alt ≤ 5.3e-11 := by
      rw [latTol]
      have : alt ^ 2 * semiMajor / (semiMajor + alt) ^ 3 ≤ 2.6e-4 := by
        have d0 : (6278137 : ℝ) ≤ semiMajor + alt := by norm_num at *; linarith
        have d3 : (6278137 : ℝ) ^ 3 ≤ (semiMajor + alt) ^ 3 := pow_le_pow_left₀ (by norm_num) d0 3
        have a2 : alt ^ 2 ≤ 1e10 := by norm_num at *; nlinarith
        rw [div_le_iff₀ (by positivity), hA]
        norm_num at *
        nlinarith
      norm_num at *; linarith
    norm_num at *; nlinarith

/-- hypotheses met -/
example : (6300000 : ℝ) ≤ len3 ![3000000, 4000000, 4000000] ∧ len3 ![3000000, 4000000, 4000000] ≤ (6410000 : ℝ) ∧
    2e-5 * len3 ![3000000, 4000000, 4000000] ≤ axisDist ![3000000, 4000000, 4000000] := by
  have l1 : (6300000 : ℝ) ≤ len3 ![3000000, 4000000, 4000000] := by unfold len3; apply Real.le_sqrt_of_sq_le; simp; norm_num
  have l2 : len3 ![3000000, 4000000, 4000000] ≤ (6410000 : ℝ) := by unfold len3; rw [Real.sqrt_le_left (by norm_num)]; simp; norm_num
  have l3 : (4990000 : ℝ) ≤ axisDist ![3000000, 4000000, 4000000] := by unfold axisDist; apply Real.le_sqrt_of_sq_le; simp; norm_num
  refine ⟨l1, l2, ?_⟩
  norm_num at *; linarith

end NavFuse.Props
