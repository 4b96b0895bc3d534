import Verif.Lemmas.Bowring
import Mathlib.Analysis.SpecialFunctions.Trigonometric.Bounds

/-! Size of the latitude error of `ecef2Lla` on points produced by `lla2Ecef`. -/

set_option linter.unusedSimpArgs false

set_option maxHeartbeats 1000000

namespace NavFuse.Rotations
open Matrix Spec Gravity NavUtils

theorem err_eq {s c a e2 k r η W N P Q ρ Y st ct : ℝ} (hr : r ≠ 0) (hW : W ≠ 0) (hY : Y ≠ 0) (hN : N = a / W) (hQ : Q = P - e2 * N)
    (hk : k = a * (e2 / r + η)) (hst : st = ρ * s / Y) (hct : ct = c / Y) :
    (Q * s + k * st ^ 3) * c - (P * c - e2 * a * ct ^ 3) * s
      = s * c * (a / Y ^ 3) * (e2 * (c ^ 2 + ρ ^ 3 * s ^ 2 / r - Y ^ 3 / W) + η * ρ ^ 3 * s ^ 2) := by
  subst hst hct hk hQ hN
  field_simp; ring

theorem s3c_le {s c : ℝ} (h1 : s ^ 2 + c ^ 2 = 1) : |s * c| * s ^ 2 ≤ 1 / 3 := by
  have : (|s * c| * s ^ 2) ^ 2 ≤ (1 / 3) ^ 2 := by
    rw [mul_pow, sq_abs, mul_pow]
    have : c ^ 2 = 1 - s ^ 2 := by linarith
    rw [this]
    have hs : 0 ≤ s ^ 2 := sq_nonneg s
    generalize s ^ 2 = u at *
    nlinarith [sq_nonneg (u - 3 / 4), sq_nonneg (u * (u - 3 / 4)), mul_nonneg hs (sq_nonneg (u - 3 / 4))]
  exact le_of_abs_le (abs_le_of_sq_le_sq this (by norm_num))

/-- polar over equatorial radius -/
noncomputable def axisRatio : ℝ := 1 - flattening
theorem axisRatio_bounds : 0.99664 < axisRatio ∧ axisRatio < 0.99665 := by
  constructor <;> norm_num [axisRatio, flattening]
theorem axisRatio_sq : axisRatio ^ 2 = 1 - ecc2 := by rw [axisRatio, ecc2_eq]; ring
theorem ecc2_bounds : 0.00669 < ecc2 ∧ ecc2 < 0.006695 := by
  rw [ecc2_eq]; constructor <;> norm_num [flattening]

/-- the inconsistency between the code's polar radius and flattening -/
noncomputable def etaC : ℝ := kC / semiMajor - ecc2 / axisRatio
theorem etaC_bounds : 0 ≤ etaC ∧ etaC ≤ 1.3e-11 := by
  rw [etaC, kC, ecc2_eq]; constructor <;> norm_num [axisRatio, flattening, polarC, semiMajor]
theorem kC_eq : kC = semiMajor * (ecc2 / axisRatio + etaC) := by
  rw [etaC]; have := semiMajor_pos.ne'; field_simp; ring

/-- ratio of the two arguments of the auxiliary angle, per unit sine and cosine; `t` is `h / (N + h)` -/
noncomputable def rhoC (t : ℝ) : ℝ := semiMajor / polarC * (axisRatio ^ 2 + ecc2 * t)

theorem rho_sub (t : ℝ) (h0 : 0 ≤ t) :
    0.0067169 * t ≤ rhoC t - axisRatio ∧ rhoC t - axisRatio ≤ 0.006717 * t + 7e-12 := by
  have e : rhoC t - axisRatio = (semiMajor / polarC * axisRatio ^ 2 - axisRatio) + (semiMajor / polarC * ecc2) * t := by
    rw [rhoC]; ring
  have a1 : 0 ≤ semiMajor / polarC * axisRatio ^ 2 - axisRatio := by norm_num [axisRatio, flattening, polarC, semiMajor]
  have a2 : semiMajor / polarC * axisRatio ^ 2 - axisRatio ≤ 7e-12 := by norm_num [axisRatio, flattening, polarC, semiMajor]
  have a3 : 0.0067169 ≤ semiMajor / polarC * ecc2 := by rw [ecc2_eq]; norm_num [flattening, polarC, semiMajor]
  have a4 : semiMajor / polarC * ecc2 ≤ 0.006717 := by rw [ecc2_eq]; norm_num [flattening, polarC, semiMajor]
  rw [e]
  constructor <;> nlinarith

/-- the same below the ellipsoid -/
theorem rho_sub_neg (t : ℝ) (h0 : t ≤ 0) :
    0.006717 * t ≤ rhoC t - axisRatio ∧ rhoC t - axisRatio ≤ 0.0067169 * t + 7e-12 := by
  have e : rhoC t - axisRatio = (semiMajor / polarC * axisRatio ^ 2 - axisRatio) + (semiMajor / polarC * ecc2) * t := by
    rw [rhoC]; ring
  have a1 : 0 ≤ semiMajor / polarC * axisRatio ^ 2 - axisRatio := by norm_num [axisRatio, flattening, polarC, semiMajor]
  have a2 : semiMajor / polarC * axisRatio ^ 2 - axisRatio ≤ 7e-12 := by norm_num [axisRatio, flattening, polarC, semiMajor]
  have a3 : 0.0067169 ≤ semiMajor / polarC * ecc2 := by rw [ecc2_eq]; norm_num [flattening, polarC, semiMajor]
  have a4 : semiMajor / polarC * ecc2 ≤ 0.006717 := by rw [ecc2_eq]; norm_num [flattening, polarC, semiMajor]
  rw [e]
  constructor <;> nlinarith

theorem rho_bounds (t : ℝ) (h0 : -0.016 ≤ t) (h1 : t ≤ 1) : 0.9965 ≤ rhoC t ∧ rhoC t ≤ 1.0034 := by
  obtain ⟨r1, r2⟩ := axisRatio_bounds
  rcases le_total 0 t with h | h
  · obtain ⟨a1, a2⟩ := rho_sub t h
    constructor <;> linarith
  · obtain ⟨a1, a2⟩ := rho_sub_neg t h
    constructor <;> linarith

theorem rho_sq (t : ℝ) (h0 : -0.016 ≤ t) (h1 : t ≤ 1) : (rhoC t - axisRatio) ^ 2 ≤ 4.512e-5 * t ^ 2 + 1e-13 := by
  rcases le_total 0 t with h | h
  · obtain ⟨a1, a2⟩ := rho_sub t h
    have : (rhoC t - axisRatio) ^ 2 ≤ (0.006717 * t + 7e-12) ^ 2 := by
      apply pow_le_pow_left₀ _ a2; nlinarith
    nlinarith
  · obtain ⟨a1, a2⟩ := rho_sub_neg t h
    have : |rhoC t - axisRatio| ≤ 0.006717 * -t + 7e-12 := abs_le.2 ⟨by linarith, by linarith⟩
    have := pow_le_pow_left₀ (abs_nonneg _) this 2
    rw [sq_abs] at this
    nlinarith

theorem bracket_abs_above {s c t W Y : ℝ} (hρ : axisRatio ≤ rhoC t) (hρ2 : rhoC t ≤ 1.0034) (hW : 0 < W) (hY : 0 < Y)
    (hW2 : W ^ 2 = c ^ 2 + axisRatio ^ 2 * s ^ 2) (hY2 : Y ^ 2 = c ^ 2 + rhoC t ^ 2 * s ^ 2) :
    |c ^ 2 + rhoC t ^ 3 * s ^ 2 / axisRatio - Y ^ 3 / W| ≤ 1.52 * s ^ 2 * (rhoC t - axisRatio) ^ 2 := by
  obtain ⟨r1, r2⟩ := axisRatio_bounds
  have hr : 0 < axisRatio := by linarith
  rw [bracket_eq hr.ne' hW.ne' hW2 hY2]
  obtain ⟨b1, b2⟩ := rem_bounds hr hρ hW hY hW2 hY2
  have hs2 : 0 ≤ s ^ 2 := sq_nonneg s
  have hd : 0 ≤ (rhoC t - axisRatio) ^ 2 := sq_nonneg _
  have c1 : (rhoC t - axisRatio) ^ 2 * (2 * rhoC t + axisRatio) / (2 * axisRatio) ≤ 1.52 * (rhoC t - axisRatio) ^ 2 := by
    rw [div_le_iff₀ (by linarith)]
    nlinarith
  have c0 : 0 ≤ (rhoC t - axisRatio) ^ 2 * (2 * rhoC t + axisRatio) / (2 * axisRatio) := by
    apply div_nonneg (mul_nonneg hd (by linarith)) (by linarith)
  have hWs : axisRatio ^ 2 * s ^ 2 ≤ W ^ 2 := by rw [hW2]; nlinarith [sq_nonneg c]
  have c2 : 3 / 8 * ((rhoC t - axisRatio) ^ 2 * (rhoC t + axisRatio) ^ 2 * s ^ 4 / W ^ 2) ≤ 1.52 * s ^ 2 * (rhoC t - axisRatio) ^ 2 := by
    have e : s ^ 4 / W ^ 2 ≤ s ^ 2 / axisRatio ^ 2 := by
      rw [div_le_div_iff₀ (by positivity) (by positivity)]
      calc s ^ 4 * axisRatio ^ 2 = s ^ 2 * (axisRatio ^ 2 * s ^ 2) := by ring
        _ ≤ s ^ 2 * W ^ 2 := mul_le_mul_of_nonneg_left hWs hs2
    have e2 : (rhoC t + axisRatio) ^ 2 / axisRatio ^ 2 ≤ 4.05 := by
      rw [div_le_iff₀ (by positivity)]; nlinarith
    calc 3 / 8 * ((rhoC t - axisRatio) ^ 2 * (rhoC t + axisRatio) ^ 2 * s ^ 4 / W ^ 2)
        = 3 / 8 * ((rhoC t - axisRatio) ^ 2 * (rhoC t + axisRatio) ^ 2) * (s ^ 4 / W ^ 2) := by ring
      _ ≤ 3 / 8 * ((rhoC t - axisRatio) ^ 2 * (rhoC t + axisRatio) ^ 2) * (s ^ 2 / axisRatio ^ 2) := by
          apply mul_le_mul_of_nonneg_left e; positivity
      _ = 3 / 8 * (rhoC t - axisRatio) ^ 2 * s ^ 2 * ((rhoC t + axisRatio) ^ 2 / axisRatio ^ 2) := by ring
      _ ≤ 3 / 8 * (rhoC t - axisRatio) ^ 2 * s ^ 2 * 4.05 := by
          apply mul_le_mul_of_nonneg_left e2; positivity
      _ ≤ _ := by nlinarith [mul_nonneg hs2 hd]
  rw [abs_le]
  have c3 := mul_le_mul_of_nonneg_left c1 hs2
  have c4 := mul_nonneg hs2 c0
  constructor <;> nlinarith [mul_nonneg hs2 hd]

/-- the bracket is of second order in `h / (N + h)` -/
theorem bracket_abs {s c t W Y : ℝ} (h0 : -0.016 ≤ t) (h1t : t ≤ 1) (hW : 0 < W) (hY : 0 < Y)
    (hW2 : W ^ 2 = c ^ 2 + axisRatio ^ 2 * s ^ 2) (hY2 : Y ^ 2 = c ^ 2 + rhoC t ^ 2 * s ^ 2) :
    |c ^ 2 + rhoC t ^ 3 * s ^ 2 / axisRatio - Y ^ 3 / W| ≤ 1.52 * s ^ 2 * (rhoC t - axisRatio) ^ 2 := by
  obtain ⟨r1, r2⟩ := axisRatio_bounds
  obtain ⟨p1, p2⟩ := rho_bounds t h0 h1t
  have hr : 0 < axisRatio := by linarith
  rcases le_total axisRatio (rhoC t) with hρ | hρ
  · exact bracket_abs_above hρ p2 hW hY hW2 hY2
  rw [bracket_eq hr.ne' hW.ne' hW2 hY2]
  obtain ⟨b1, b2⟩ := rem_bounds_below (by linarith) hρ hW hY hW2 hY2
  have hs2 : 0 ≤ s ^ 2 := sq_nonneg s
  have hd : 0 ≤ (rhoC t - axisRatio) ^ 2 := sq_nonneg _
  have c1 : (rhoC t - axisRatio) ^ 2 * (2 * rhoC t + axisRatio) / (2 * axisRatio) ≤ 1.52 * (rhoC t - axisRatio) ^ 2 := by
    rw [div_le_iff₀ (by linarith)]
    nlinarith
  have c0 : 0 ≤ (rhoC t - axisRatio) ^ 2 * (2 * rhoC t + axisRatio) / (2 * axisRatio) := by
    apply div_nonneg (mul_nonneg hd (by linarith)) (by linarith)
  rw [abs_le]
  have c3 := mul_le_mul_of_nonneg_left c1 hs2
  have c4 := mul_nonneg hs2 c0
  constructor <;> nlinarith [mul_nonneg hs2 hd]

/-- `Y` stays close to one -/
theorem Y_bounds {s c t Y : ℝ} (h0 : -0.016 ≤ t) (h1t : t ≤ 1) (hs : s ^ 2 + c ^ 2 = 1) (hY : 0 < Y) (hY2 : Y ^ 2 = c ^ 2 + rhoC t ^ 2 * s ^ 2) :
    0.9965 ≤ Y ∧ Y ≤ 1.0034 := by
  obtain ⟨r1, r2⟩ := axisRatio_bounds
  obtain ⟨hρ, hρ2⟩ := rho_bounds t h0 h1t
  have e1 : (0.9965 : ℝ) ^ 2 ≤ rhoC t ^ 2 := pow_le_pow_left₀ (by norm_num) hρ 2
  have e2 : rhoC t ^ 2 ≤ (1.0034 : ℝ) ^ 2 := pow_le_pow_left₀ (by linarith) hρ2 2
  constructor
  · apply le_of_abs_le (abs_le_of_sq_le_sq _ hY.le)
    rw [hY2]; nlinarith [sq_nonneg s, sq_nonneg c]
  · have e3 : Y ^ 2 ≤ (1.0034 : ℝ) ^ 2 := by rw [hY2]; nlinarith [sq_nonneg s, sq_nonneg c]
    exact le_of_abs_le (abs_le_of_sq_le_sq e3 (by norm_num))

theorem err_abs {s c t W Y : ℝ} (h0 : -0.016 ≤ t) (h1t : t ≤ 1) (hs : s ^ 2 + c ^ 2 = 1) (hW : 0 < W) (hY : 0 < Y)
    (hW2 : W ^ 2 = c ^ 2 + axisRatio ^ 2 * s ^ 2) (hY2 : Y ^ 2 = c ^ 2 + rhoC t ^ 2 * s ^ 2) :
    |s * c * (semiMajor / Y ^ 3) * (ecc2 * (c ^ 2 + rhoC t ^ 3 * s ^ 2 / axisRatio - Y ^ 3 / W) + etaC * rhoC t ^ 3 * s ^ 2)|
      ≤ semiMajor * (1.55e-7 * t ^ 2 + 5e-12) := by
  have hb := bracket_abs h0 h1t hW hY hW2 hY2
  obtain ⟨y1, -⟩ := Y_bounds h0 h1t hs hY hY2
  obtain ⟨n1, n2⟩ := etaC_bounds
  obtain ⟨x1, x2⟩ := ecc2_bounds
  obtain ⟨r1, r2⟩ := axisRatio_bounds
  obtain ⟨hρ, hρ2⟩ := rho_bounds t h0 h1t
  have hρ3 : rhoC t ^ 3 ≤ 1.0103 := by
    calc rhoC t ^ 3 ≤ 1.0034 ^ 3 := pow_le_pow_left₀ (by linarith) hρ2 3
      _ ≤ 1.0103 := by norm_num
  have hY3 : semiMajor / Y ^ 3 ≤ semiMajor * 1.0107 := by
    have : (0.9895 : ℝ) ≤ Y ^ 3 := by
      calc (0.9895 : ℝ) ≤ 0.9965 ^ 3 := by norm_num
        _ ≤ Y ^ 3 := pow_le_pow_left₀ (by norm_num) y1 3
    rw [div_le_iff₀ (by positivity)]
    nlinarith [semiMajor_pos, mul_le_mul_of_nonneg_left this semiMajor_pos.le]
  have hsq := rho_sq t h0 h1t
  have hs2 : 0 ≤ s ^ 2 := sq_nonneg s
  -- the bracket together with the constant mismatch
  have hB : |ecc2 * (c ^ 2 + rhoC t ^ 3 * s ^ 2 / axisRatio - Y ^ 3 / W) + etaC * rhoC t ^ 3 * s ^ 2| ≤ s ^ 2 * (4.595e-7 * t ^ 2 + 1.34e-11) := by
    have t1 : |ecc2 * (c ^ 2 + rhoC t ^ 3 * s ^ 2 / axisRatio - Y ^ 3 / W)| ≤ 0.006695 * (1.52 * s ^ 2 * (rhoC t - axisRatio) ^ 2) := by
      rw [abs_mul, abs_of_pos ecc2_pos]
      exact mul_le_mul x2.le hb (abs_nonneg _) (by norm_num)
    have t2 : |etaC * rhoC t ^ 3 * s ^ 2| ≤ 1.314e-11 * s ^ 2 := by
      have hp3 : 0 ≤ rhoC t ^ 3 := pow_nonneg (by linarith) 3
      rw [abs_of_nonneg (by positivity)]
      apply mul_le_mul_of_nonneg_right _ hs2
      calc etaC * rhoC t ^ 3 ≤ 1.3e-11 * 1.0103 := mul_le_mul n2 hρ3 hp3 (by norm_num)
        _ ≤ 1.314e-11 := by norm_num
    have t3 : s ^ 2 * (rhoC t - axisRatio) ^ 2 ≤ s ^ 2 * (4.512e-5 * t ^ 2 + 1e-13) := mul_le_mul_of_nonneg_left hsq hs2
    calc _ ≤ _ := abs_add_le _ _
      _ ≤ 0.006695 * (1.52 * s ^ 2 * (rhoC t - axisRatio) ^ 2) + 1.314e-11 * s ^ 2 := add_le_add t1 t2
      _ ≤ _ := by nlinarith [mul_nonneg hs2 (sq_nonneg t)]
  have hc := s3c_le hs
  have hq : 0 ≤ 4.595e-7 * t ^ 2 + 1.34e-11 := by positivity
  have hA : 0 ≤ semiMajor / Y ^ 3 := div_nonneg semiMajor_pos.le (by positivity)
  rw [abs_mul, abs_mul, abs_of_nonneg hA]
  calc |s * c| * (semiMajor / Y ^ 3) * _ ≤ |s * c| * (semiMajor / Y ^ 3) * (s ^ 2 * (4.595e-7 * t ^ 2 + 1.34e-11)) := by
        apply mul_le_mul_of_nonneg_left hB; positivity
    _ = (|s * c| * s ^ 2) * ((semiMajor / Y ^ 3) * (4.595e-7 * t ^ 2 + 1.34e-11)) := by ring
    _ ≤ (1 / 3) * ((semiMajor * 1.0107) * (4.595e-7 * t ^ 2 + 1.34e-11)) := by
        apply mul_le_mul hc (mul_le_mul_of_nonneg_right hY3 hq) (by positivity) (by norm_num)
    _ = semiMajor * (1 / 3 * 1.0107 * (4.595e-7 * t ^ 2 + 1.34e-11)) := by ring
    _ ≤ _ := by
        apply mul_le_mul_of_nonneg_left _ semiMajor_pos.le
        nlinarith [sq_nonneg t]

/-- an angle less than a right angle is at most its tangent -/
theorem abs_le_of_tan {δ E F : ℝ} (hδ : |δ| < Real.pi / 2) (hF : 0 < F) (h : Real.sin δ * F = Real.cos δ * E) : |δ| ≤ |E| / F := by
  have hc := Real.cos_pos_of_mem_Ioo (abs_lt.1 hδ)
  have ht : Real.tan δ = E / F := by
    rw [Real.tan_eq_sin_div_cos, div_eq_div_iff hc.ne' hF.ne']; linarith
  have : |δ| ≤ |Real.tan δ| := by
    rcases le_total 0 δ with h0 | h0
    · rw [abs_of_nonneg h0] at hδ ⊢
      exact (Real.le_tan h0 hδ).trans (le_abs_self _)
    · rw [abs_of_nonpos h0] at hδ ⊢
      have := Real.le_tan (by linarith : 0 ≤ -δ) hδ
      rw [Real.tan_neg] at this
      exact this.trans (neg_le_abs _)
  rw [ht, abs_div, abs_of_pos hF] at this
  exact this

/-- The auxiliary quantities at a point produced by `lla2Ecef`. -/
theorem aux (lat h : ℝ) (hc : 0 < Real.cos lat) (hP : 0 < primeVertical lat + h) :
    let N := primeVertical lat
    let p := (N + h) * Real.cos lat
    let z := ((1 - ecc2) * N + h) * Real.sin lat
    let t := h / (N + h)
    ∃ W Y : ℝ, 0 < W ∧ 0 < Y ∧ W ^ 2 = Real.cos lat ^ 2 + axisRatio ^ 2 * Real.sin lat ^ 2 ∧
      Y ^ 2 = Real.cos lat ^ 2 + rhoC t ^ 2 * Real.sin lat ^ 2 ∧ N = semiMajor / W ∧
      Real.sin (thR p z) = rhoC t * Real.sin lat / Y ∧ Real.cos (thR p z) = Real.cos lat / Y := by
  intro N p z t
  have hb := polarC_pos
  have ha := semiMajor_pos
  have hρ : rhoC t = semiMajor * ((1 - ecc2) * N + h) / (polarC * (N + h)) := by
    have : N + h ≠ 0 := hP.ne'
    rw [rhoC, axisRatio_sq]
    simp only [t]
    field_simp; ring
  have hD2 : 0 < (polarC * p) ^ 2 + (semiMajor * z) ^ 2 := by
    have : 0 < polarC * p := mul_pos hb (mul_pos hP hc)
    positivity
  have hD : 0 < Real.sqrt ((polarC * p) ^ 2 + (semiMajor * z) ^ 2) := Real.sqrt_pos.2 hD2
  have hDs : Real.sqrt ((polarC * p) ^ 2 + (semiMajor * z) ^ 2) ^ 2 = (polarC * p) ^ 2 + (semiMajor * z) ^ 2 := Real.sq_sqrt hD2.le
  have hbP : 0 < polarC * (N + h) := mul_pos hb hP
  have hNh : N + h ≠ 0 := hP.ne'
  refine ⟨Real.sqrt (1 - ecc2 * Real.sin lat ^ 2), Real.sqrt ((polarC * p) ^ 2 + (semiMajor * z) ^ 2) / (polarC * (N + h)),
    Real.sqrt_pos.2 (w_pos lat), div_pos hD hbP, ?_, ?_, rfl, ?_, ?_⟩
  · rw [W_sq, axisRatio_sq]; linarith [Real.sin_sq_add_cos_sq lat]
  · rw [div_pow, hDs, hρ, div_pow]
    have := hbP.ne'
    simp only [p, z]
    field_simp
  · rw [thR, Complex.sin_arg, norm_mk, hρ]
    have := hbP.ne'
    have := hD.ne'
    generalize Real.sqrt ((polarC * p) ^ 2 + (semiMajor * z) ^ 2) = D at *
    simp only [z]
    field_simp
  · have hne : (⟨polarC * p, semiMajor * z⟩ : ℂ) ≠ 0 := by
      intro h0
      rw [← norm_eq_zero, norm_mk] at h0
      exact hD.ne' h0
    rw [thR, Complex.cos_arg hne, norm_mk]
    have := hbP.ne'
    have := hD.ne'
    generalize Real.sqrt ((polarC * p) ^ 2 + (semiMajor * z) ^ 2) = D at *
    simp only [p]
    field_simp

theorem primeVertical_ge (lat : ℝ) : semiMajor ≤ primeVertical lat := by
  rw [primeVertical, le_div_iff₀ (Real.sqrt_pos.2 (w_pos lat))]
  have : Real.sqrt (1 - ecc2 * Real.sin lat ^ 2) ≤ 1 := by
    apply Real.sqrt_le_iff.2 ⟨zero_le_one, ?_⟩
    nlinarith [mul_nonneg ecc2_pos.le (sq_nonneg (Real.sin lat))]
  nlinarith [semiMajor_pos]

theorem W_bounds {s c W : ℝ} (hW : 0 < W) (h1 : s ^ 2 + c ^ 2 = 1) (hW2 : W ^ 2 = c ^ 2 + axisRatio ^ 2 * s ^ 2) : axisRatio ≤ W ∧ W ≤ 1 := by
  obtain ⟨r1, r2⟩ := axisRatio_bounds
  have hr : 0 ≤ 1 - axisRatio ^ 2 := by nlinarith
  have e1 : W ^ 2 = axisRatio ^ 2 + (1 - axisRatio ^ 2) * c ^ 2 := by linear_combination hW2 + axisRatio ^ 2 * h1
  have e2 : W ^ 2 = 1 ^ 2 - (1 - axisRatio ^ 2) * s ^ 2 := by linear_combination hW2 + h1
  constructor
  · exact le_of_abs_le (abs_le_of_sq_le_sq (by linarith [mul_nonneg hr (sq_nonneg c)]) hW.le)
  · exact le_of_abs_le (abs_le_of_sq_le_sq (by linarith [mul_nonneg hr (sq_nonneg s)]) zero_le_one)

theorem F_eq {s c a e2 k W N h ρ Y st ct : ℝ} (hW : W ≠ 0) (hY : Y ≠ 0) (h1 : s ^ 2 + c ^ 2 = 1) (hW2 : W ^ 2 = 1 - e2 * s ^ 2)
    (hN : N = a / W) (hst : st = ρ * s / Y) (hct : ct = c / Y) :
    ((N + h) * c - e2 * a * ct ^ 3) * c + (((1 - e2) * N + h) * s + k * st ^ 3) * s
      = a * W + h + (k * ρ ^ 3 * (s ^ 4 / Y ^ 3) - e2 * a * (c ^ 4 / Y ^ 3)) := by
  have e : a * W = N * (1 - e2 * s ^ 2) := by rw [hN, ← hW2]; field_simp
  rw [e, hst, hct]
  field_simp
  linear_combination (Y ^ 3 * (N + h)) * h1

/-- what the latitude computation yields at a point produced by `lla2Ecef`, above the ellipsoid or less than 100 km below it -/
theorem latR_spec (lat h : ℝ) (hlat : |lat| < Real.pi / 2) (hh : -1e5 ≤ h) :
    let N := primeVertical lat
    let p := (N + h) * Real.cos lat
    let z := ((1 - ecc2) * N + h) * Real.sin lat
    let t := h / (N + h)
    ∃ W Y E F R : ℝ, 0 < W ∧ 0 < Y ∧ W ^ 2 = Real.cos lat ^ 2 + axisRatio ^ 2 * Real.sin lat ^ 2 ∧
      Y ^ 2 = Real.cos lat ^ 2 + rhoC t ^ 2 * Real.sin lat ^ 2 ∧
      E = Real.sin lat * Real.cos lat * (semiMajor / Y ^ 3) * (ecc2 * (Real.cos lat ^ 2 + rhoC t ^ 3 * Real.sin lat ^ 2 / axisRatio - Y ^ 3 / W)
        + etaC * rhoC t ^ 3 * Real.sin lat ^ 2) ∧
      0.9896 * (semiMajor + h) ≤ F ∧ F ≤ 1.007 * semiMajor + h ∧
      0 < R ∧ R ^ 2 = E ^ 2 + F ^ 2 ∧ Real.sin (latR p z - lat) = E / R ∧ Real.cos (latR p z - lat) = F / R ∧
      |latR p z| < Real.pi / 2 ∧ |latR p z - lat| < Real.pi / 2 := by
  intro N p z t
  have hc := Real.cos_pos_of_mem_Ioo (abs_lt.1 hlat)
  have hN := primeVertical_ge lat
  have ha := semiMajor_pos
  have hP : 0 < primeVertical lat + h := by linarith [show (6e6 : ℝ) ≤ semiMajor by norm_num [semiMajor]]
  have hA : semiMajor = 6378137 := rfl
  have ht0 : -0.016 ≤ t := by rw [le_div_iff₀ hP]; norm_num at *; linarith
  have ht1 : t ≤ 1 := by rw [div_le_one hP]; linarith
  have h1 := Real.sin_sq_add_cos_sq lat
  obtain ⟨W, Y, hW, hY, hW2, hY2, hNW, hst, hct⟩ := aux lat h hc hP
  obtain ⟨y1, y2⟩ := Y_bounds ht0 ht1 h1 hY hY2
  obtain ⟨r1, r2⟩ := axisRatio_bounds
  obtain ⟨x1, x2⟩ := ecc2_bounds
  obtain ⟨hρ1, hρ2⟩ := rho_bounds t ht0 ht1
  have hρ0 : 0 < rhoC t := by linarith
  have hY3 : (0.9895 : ℝ) ≤ Y ^ 3 := by
    calc (0.9895 : ℝ) ≤ 0.9965 ^ 3 := by norm_num
      _ ≤ Y ^ 3 := pow_le_pow_left₀ (by norm_num) y1 3
  have hcos1 : Real.cos lat ≤ 1 := Real.cos_le_one lat
  have hct0 : 0 ≤ Real.cos lat ^ 2 / Y ^ 3 := by positivity
  have hct3 : Real.cos lat ^ 2 / Y ^ 3 ≤ 1.0107 := by
    rw [div_le_iff₀ (by positivity)]
    linarith [Real.sin_sq_add_cos_sq lat, sq_nonneg (Real.sin lat)]
  have eX : latXR p z = Real.cos lat * (N + h - ecc2 * semiMajor * (Real.cos lat ^ 2 / Y ^ 3)) := by
    rw [latXR, hct]; simp only [p]; field_simp
  have hX : 0 < latXR p z := by
    rw [eX]
    apply mul_pos hc
    have : ecc2 * semiMajor * (Real.cos lat ^ 2 / Y ^ 3) ≤ 0.006695 * semiMajor * 1.0107 := by
      apply mul_le_mul _ hct3 hct0 (by positivity)
      exact mul_le_mul_of_nonneg_right x2.le ha.le
    simp only [N]
    linarith
  have hEeq := err_eq (s := Real.sin lat) (c := Real.cos lat) (by linarith : axisRatio ≠ 0) hW.ne' hY.ne' hNW
    (by ring : (1 - ecc2) * N + h = (N + h) - ecc2 * N) kC_eq hst hct
  have hEdef : latYR p z * Real.cos lat - latXR p z * Real.sin lat = Real.sin lat * Real.cos lat * (semiMajor / Y ^ 3) *
      (ecc2 * (Real.cos lat ^ 2 + rhoC t ^ 3 * Real.sin lat ^ 2 / axisRatio - Y ^ 3 / W) + etaC * rhoC t ^ 3 * Real.sin lat ^ 2) := hEeq
  have eF : latXR p z * Real.cos lat + latYR p z * Real.sin lat
      = semiMajor * W + h + (kC * rhoC t ^ 3 * (Real.sin lat ^ 4 / Y ^ 3) - ecc2 * semiMajor * (Real.cos lat ^ 4 / Y ^ 3)) := by
    have hW2' : W ^ 2 = 1 - ecc2 * Real.sin lat ^ 2 := by rw [hW2, axisRatio_sq]; linarith
    exact F_eq hW.ne' hY.ne' h1 hW2' hNW hst hct
  have hs4 : 0 ≤ Real.sin lat ^ 4 / Y ^ 3 := by positivity
  have hc4 : 0 ≤ Real.cos lat ^ 4 / Y ^ 3 := by positivity
  obtain ⟨hW1, hW3⟩ := W_bounds hW h1 hW2
  have hc5 : ecc2 * semiMajor * (Real.cos lat ^ 4 / Y ^ 3) ≤ 0.006767 * semiMajor := by
    have : Real.cos lat ^ 4 / Y ^ 3 ≤ 1.0107 := by
      rw [div_le_iff₀ (by positivity)]
      have : Real.cos lat ^ 4 ≤ 1 := pow_le_one₀ hc.le hcos1
      linarith
    calc _ ≤ (0.006695 * semiMajor) * 1.0107 := by
          apply mul_le_mul _ this hc4 (by positivity)
          exact mul_le_mul_of_nonneg_right x2.le ha.le
      _ ≤ _ := by linarith
  have hs5 : kC * rhoC t ^ 3 * (Real.sin lat ^ 4 / Y ^ 3) ≤ 0.00687 * semiMajor := by
    have e1 : Real.sin lat ^ 4 / Y ^ 3 ≤ 1.0107 := by
      rw [div_le_iff₀ (by positivity)]
      have : Real.sin lat ^ 4 ≤ 1 := by
        have : Real.sin lat ^ 2 ≤ 1 := by linarith [sq_nonneg (Real.cos lat)]
        calc Real.sin lat ^ 4 = (Real.sin lat ^ 2) ^ 2 := by ring
          _ ≤ 1 := pow_le_one₀ (sq_nonneg _) this
      linarith
    have e2 : rhoC t ^ 3 ≤ 1.01024 := by
      calc rhoC t ^ 3 ≤ 1.0034 ^ 3 := pow_le_pow_left₀ hρ0.le hρ2 3
        _ ≤ _ := by norm_num
    have e3 : kC ≤ 0.006718 * semiMajor := by norm_num [kC, semiMajor, polarC]
    calc _ ≤ (0.006718 * semiMajor * 1.01024) * 1.0107 := by
          apply mul_le_mul _ e1 hs4 (by positivity)
          exact mul_le_mul e3 e2 (pow_nonneg hρ0.le 3) (by positivity)
      _ ≤ _ := by linarith
  have hs6 : 0 ≤ kC * rhoC t ^ 3 * (Real.sin lat ^ 4 / Y ^ 3) := mul_nonneg (mul_nonneg kC_pos.le (pow_nonneg hρ0.le 3)) hs4
  have hc6 : 0 ≤ ecc2 * semiMajor * (Real.cos lat ^ 4 / Y ^ 3) := mul_nonneg (mul_nonneg ecc2_pos.le ha.le) hc4
  have hF1 : 0.9896 * (semiMajor + h) ≤ latXR p z * Real.cos lat + latYR p z * Real.sin lat := by
    rw [eF]; linarith [mul_le_mul_of_nonneg_left (r1.le.trans hW1) ha.le]
  have hF2 : latXR p z * Real.cos lat + latYR p z * Real.sin lat ≤ 1.007 * semiMajor + h := by
    rw [eF]; linarith [mul_le_mul_of_nonneg_left hW3 ha.le]
  have hR2 : 0 < latXR p z ^ 2 + latYR p z ^ 2 := by positivity
  have hne : (⟨latXR p z, latYR p z⟩ : ℂ) ≠ 0 := by
    intro h0; rw [← norm_eq_zero, norm_mk] at h0; exact (Real.sqrt_pos.2 hR2).ne' h0
  have hlt : |latR p z| < Real.pi / 2 := by
    rw [latR, Complex.abs_arg_lt_pi_div_two_iff]; exact Or.inl hX
  have hsin : Real.sin (latR p z - lat) = (latYR p z * Real.cos lat - latXR p z * Real.sin lat) / Real.sqrt (latXR p z ^ 2 + latYR p z ^ 2) := by
    rw [Real.sin_sub, latR, Complex.sin_arg, Complex.cos_arg hne, norm_mk]; ring
  have hcos : Real.cos (latR p z - lat) = (latXR p z * Real.cos lat + latYR p z * Real.sin lat) / Real.sqrt (latXR p z ^ 2 + latYR p z ^ 2) := by
    rw [Real.cos_sub, latR, Complex.sin_arg, Complex.cos_arg hne, norm_mk]; ring
  refine ⟨W, Y, _, _, Real.sqrt (latXR p z ^ 2 + latYR p z ^ 2), hW, hY, hW2, hY2, hEdef, hF1, hF2, Real.sqrt_pos.2 hR2, ?_, hsin, hcos, hlt, ?_⟩
  · rw [Real.sq_sqrt hR2.le]
    linear_combination (-(latXR p z) ^ 2 - latYR p z ^ 2) * h1
  · have hpos : 0 < Real.cos (latR p z - lat) := by
      rw [hcos]; apply div_pos _ (Real.sqrt_pos.2 hR2); linarith
    have b1 := abs_lt.1 hlat
    have b2 := abs_lt.1 hlt
    by_contra hge
    rw [not_lt] at hge
    have : Real.cos (latR p z - lat) ≤ 0 := by
      rw [← Real.cos_abs]
      apply Real.cos_nonpos_of_pi_div_two_le_of_le hge
      have : |latR p z - lat| ≤ Real.pi := by rw [abs_le]; constructor <;> linarith
      linarith [Real.pi_pos]
    linarith

/-- The latitude error of Bowring's formula as coded, at a point produced by `lla2Ecef` above the ellipsoid or less than 100 km below it. -/
theorem latR_error (lat h : ℝ) (hlat : |lat| < Real.pi / 2) (hh : -1e5 ≤ h) :
    |latR ((primeVertical lat + h) * Real.cos lat) (((1 - ecc2) * primeVertical lat + h) * Real.sin lat) - lat|
      ≤ 1.6e-7 * (h ^ 2 * semiMajor / (semiMajor + h) ^ 3) + 1e-11 := by
  obtain ⟨W, Y, E, F, R, hW, hY, hW2, hY2, hE, hF1, -, hR, -, hsin, hcos, -, hlt⟩ := latR_spec lat h hlat hh
  have hN := primeVertical_ge lat
  have ha := semiMajor_pos
  have hA : semiMajor = 6378137 := rfl
  have hah : 0 < semiMajor + h := by linarith
  have hP : 0 < primeVertical lat + h := by linarith
  have hF : 0 < F := by linarith
  have ht0 : -0.016 ≤ h / (primeVertical lat + h) := by rw [le_div_iff₀ hP]; norm_num at *; linarith
  have ht1 : h / (primeVertical lat + h) ≤ 1 := by rw [div_le_one hP]; linarith
  have ht : |h| / (primeVertical lat + h) ≤ |h| / (semiMajor + h) := div_le_div_of_nonneg_left (abs_nonneg h) hah (by linarith)
  have hE' := err_abs ht0 ht1 (Real.sin_sq_add_cos_sq lat) hW hY hW2 hY2
  rw [← hE] at hE'
  have h1 := abs_le_of_tan (E := E) hlt hF (by rw [hsin, hcos]; ring)
  refine h1.trans ?_
  have hsq : (h / (primeVertical lat + h)) ^ 2 ≤ (h / (semiMajor + h)) ^ 2 := by
    have := pow_le_pow_left₀ (by positivity) ht 2
    rwa [div_pow, div_pow, sq_abs, ← div_pow, ← div_pow] at this
  calc |E| / F ≤ semiMajor * (1.55e-7 * (h / (semiMajor + h)) ^ 2 + 5e-12) / (0.9896 * (semiMajor + h)) := by
        apply div_le_div₀ (by positivity) _ (by positivity) hF1
        refine hE'.trans (mul_le_mul_of_nonneg_left ?_ ha.le)
        linarith
    _ = (1.55e-7 / 0.9896) * (h ^ 2 * semiMajor / (semiMajor + h) ^ 3) + (5e-12 / 0.9896) * (semiMajor / (semiMajor + h)) := by
        field_simp
    _ ≤ 1.6e-7 * (h ^ 2 * semiMajor / (semiMajor + h) ^ 3) + 1e-11 := by
        have b1 : 0 ≤ h ^ 2 * semiMajor / (semiMajor + h) ^ 3 := by positivity
        have b2 : semiMajor / (semiMajor + h) ≤ 1.02 := by rw [div_le_iff₀ hah]; linarith
        have b3 : 0 ≤ semiMajor / (semiMajor + h) := by positivity
        have c1 : (1.55e-7 / 0.9896 : ℝ) ≤ 1.6e-7 := by norm_num
        have c2 : (5e-12 / 0.9896 : ℝ) ≤ 5.1e-12 := by norm_num
        apply add_le_add
        · exact mul_le_mul_of_nonneg_right c1 b1
        · calc _ ≤ (5.1e-12 : ℝ) * 1.02 := mul_le_mul c2 b2 b3 (by norm_num)
            _ ≤ _ := by norm_num

end NavFuse.Rotations
