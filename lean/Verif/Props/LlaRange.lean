import Verif.Props.Lla

/-! # Range and symmetries of `ecef2Lla`: C26, C27 -/

set_option linter.unusedSimpArgs false

namespace NavFuse.Props
open Matrix Spec Gravity NavUtils Rotations XR

/-- distance from the polar axis -/
noncomputable def axisDist (r : V3 ℝ) : ℝ := Real.sqrt (r 0 ^ 2 + r 1 ^ 2)

theorem D_pos {p z : ℝ} (h : p ≠ 0 ∨ z ≠ 0) : 0 < (polarC * p) ^ 2 + (semiMajor * z) ^ 2 := by
  have hb := polarC_pos; have ha := semiMajor_pos
  rcases h with h | h
  · have : 0 < (polarC * p) ^ 2 := by positivity
    positivity
  · have : 0 < (semiMajor * z) ^ 2 := by positivity
    positivity

theorem cos_thR {p z : ℝ} (h : p ≠ 0 ∨ z ≠ 0) : Real.cos (thR p z) = polarC * p / Real.sqrt ((polarC * p) ^ 2 + (semiMajor * z) ^ 2) := by
  have hne : (⟨polarC * p, semiMajor * z⟩ : ℂ) ≠ 0 := by
    intro h0; rw [← norm_eq_zero, norm_mk] at h0; exact (Real.sqrt_pos.2 (D_pos h)).ne' h0
  rw [thR, Complex.cos_arg hne, norm_mk]

theorem sin_thR (p z : ℝ) : Real.sin (thR p z) = semiMajor * z / Real.sqrt ((polarC * p) ^ 2 + (semiMajor * z) ^ 2) := by
  rw [thR, Complex.sin_arg, norm_mk]

/-- the abscissa of the latitude is non-negative outside the small ellipsoid -/
theorem latXR_nonneg {p z : ℝ} (hp : 0 ≤ p) (h : ecc2 ^ 2 ≤ (p / semiMajor) ^ 2 + (z / polarC) ^ 2) : 0 ≤ latXR p z := by
  have hb := polarC_pos; have ha := semiMajor_pos; have he := ecc2_pos
  have hne : p ≠ 0 ∨ z ≠ 0 := by
    by_contra hh
    push Not at hh
    rw [hh.1, hh.2] at h
    have : 0 < ecc2 ^ 2 := by positivity
    simp at h; linarith
  have hD2 := D_pos hne
  rw [latXR, cos_thR hne]
  have hDs := Real.sq_sqrt hD2.le
  have hD := Real.sqrt_pos.2 hD2
  generalize Real.sqrt ((polarC * p) ^ 2 + (semiMajor * z) ^ 2) = D at *
  have h1 : ecc2 * semiMajor * polarC ≤ D := by
    have : (ecc2 * semiMajor * polarC) ^ 2 ≤ D ^ 2 := by
      rw [hDs]
      calc (ecc2 * semiMajor * polarC) ^ 2 = ecc2 ^ 2 * (semiMajor * polarC) ^ 2 := by ring
        _ ≤ ((p / semiMajor) ^ 2 + (z / polarC) ^ 2) * (semiMajor * polarC) ^ 2 := mul_le_mul_of_nonneg_right h (by positivity)
        _ = _ := by field_simp
    exact le_of_abs_le (abs_le_of_sq_le_sq this hD.le)
  have h2 : (polarC * p) ^ 2 ≤ D ^ 2 := by rw [hDs]; linarith [sq_nonneg (semiMajor * z)]
  have h3 : ecc2 * semiMajor * (polarC * p / D) ^ 3 ≤ p := by
    rw [div_pow, ← mul_div_assoc, div_le_iff₀ (by positivity)]
    calc ecc2 * semiMajor * (polarC * p) ^ 3 = (ecc2 * semiMajor * polarC) * (polarC * p) ^ 2 * p := by ring
      _ ≤ D * D ^ 2 * p := by
          apply mul_le_mul_of_nonneg_right _ hp
          exact mul_le_mul h1 h2 (by positivity) hD.le
      _ = _ := by ring
  linarith

/-- C26, longitude: in range for every finite position. -/
theorem C26_longitude (r : V3 ℝ) : ∃ lat lon : ℝ, ∃ alt : XR, ecef2Lla (finV r) = (true, fin lat, fin lon, alt) ∧ -Real.pi < lon ∧ lon ≤ Real.pi := by
  rw [ecef2Lla_X]
  exact ⟨_, _, _, rfl, (Complex.arg_mem_Ioc _).1, (Complex.arg_mem_Ioc _).2⟩

/-- C26, as far as it holds: outside an ellipsoid of 43 km around the centre of the earth the results are in range, and the frames and the inverse
conversion accept them. -/
theorem C26_range_partial (r : V3 ℝ) (hr : ecc2 ^ 2 ≤ (axisDist r / semiMajor) ^ 2 + (r 2 / polarC) ^ 2) :
    ∃ lat lon : ℝ, ∃ alt : XR, ecef2Lla (finV r) = (true, fin lat, fin lon, alt) ∧ |lat| ≤ Real.pi / 2 ∧ |lon| ≤ Real.pi ∧
      (∀ alt' r0, (lla2Ecef (fin lat) (fin lon) alt' r0).1 = true) ∧ (∀ R0, (computeRNed2Ecef (fin lat) (fin lon) R0).1 = true) ∧
      (∀ R0, (computeREcef2Ned (fin lat) (fin lon) R0).1 = true) := by
  rw [ecef2Lla_X]
  have h1 : |latR (axisDist r) (r 2)| ≤ Real.pi / 2 := by
    rw [latR, Complex.abs_arg_le_pi_div_two_iff]
    exact latXR_nonneg (Real.sqrt_nonneg _) hr
  have h2 : |Complex.arg ⟨r 0, r 1⟩| ≤ Real.pi := Complex.abs_arg_le_pi _
  have h3 := bad_X ⟨h1, h2⟩
  refine ⟨_, _, _, rfl, h1, h2, fun alt' r0 => ?_, fun R0 => ?_, fun R0 => ?_⟩
  · change (lla2Ecef (fin (latR (axisDist r) (r 2))) _ alt' r0).1 = true
    simp only [lla2Ecef, h3, Bool.false_eq_true, if_false]
  · change (computeRNed2Ecef (fin (latR (axisDist r) (r 2))) _ R0).1 = true
    simp only [computeRNed2Ecef, h3, Bool.false_eq_true, if_false]
  · change (computeREcef2Ned (fin (latR (axisDist r) (r 2))) _ R0).1 = true
    simp only [computeREcef2Ned, h3, Bool.false_eq_true, if_false]

/-- every point at least 43 km from the centre is covered -/
example (r : V3 ℝ) (h : 43000 ^ 2 ≤ r 0 ^ 2 + r 1 ^ 2 + r 2 ^ 2) : ecc2 ^ 2 ≤ (axisDist r / semiMajor) ^ 2 + (r 2 / polarC) ^ 2 := by
  have e : axisDist r ^ 2 = r 0 ^ 2 + r 1 ^ 2 := Real.sq_sqrt (by positivity)
  have ha := semiMajor_pos
  have h1 : ecc2 ^ 2 ≤ (0.006695 : ℝ) ^ 2 := pow_le_pow_left₀ ecc2_pos.le ecc2_bounds.2.le 2
  have h2 : r 2 ^ 2 / semiMajor ^ 2 ≤ r 2 ^ 2 / polarC ^ 2 :=
    div_le_div_of_nonneg_left (sq_nonneg _) (pow_pos polarC_pos 2) (by norm_num [polarC, semiMajor])
  rw [div_pow, div_pow, e]
  have h3 : (0.006695 : ℝ) ^ 2 ≤ (r 0 ^ 2 + r 1 ^ 2 + r 2 ^ 2) / semiMajor ^ 2 := by
    rw [le_div_iff₀ (by positivity)]
    refine le_trans ?_ h
    norm_num [semiMajor]
  calc _ ≤ _ := h1
    _ ≤ _ := h3
    _ = (r 0 ^ 2 + r 1 ^ 2) / semiMajor ^ 2 + r 2 ^ 2 / semiMajor ^ 2 := by ring
    _ ≤ _ := by linarith

theorem latR_inner : latR 1 0 = Real.pi := by
  have hth : thR 1 0 = 0 := by
    rw [thR]; apply Complex.arg_ofReal_of_nonneg (x := polarC) polarC_pos.le |> fun h => ?_
    convert! h using 2
    apply Complex.ext <;> simp
  have hx : latXR 1 0 < 0 := by rw [latXR, hth, Real.cos_zero]; rw [ecc2_eq]; norm_num [semiMajor, flattening]
  have hy : latYR 1 0 = 0 := by rw [latYR, hth]; simp
  rw [latR, hy]
  exact Complex.arg_eq_pi_iff.2 ⟨hx, rfl⟩

/-- C26 fails inside the earth: one metre from the centre the latitude is `π`, which the inverse conversion rejects. -/
theorem C26_centre_fails : ∃ alt : XR, ecef2Lla (finV ![1, 0, 0]) = (true, fin Real.pi, fin 0, alt) ∧
    ∀ alt' r0, lla2Ecef (fin Real.pi) (fin 0) alt' r0 = (false, r0) := by
  have hp := Real.pi_pos
  constructor
  constructor
  · rw [ecef2Lla_X]
    have h1 : Real.sqrt ((![1, 0, 0] : V3 ℝ) 0 ^ 2 + (![1, 0, 0] : V3 ℝ) 1 ^ 2) = 1 := by simp
    have h2 : (![1, 0, 0] : V3 ℝ) 2 = 0 := rfl
    have h3 : Complex.arg ⟨(![1, 0, 0] : V3 ℝ) 0, (![1, 0, 0] : V3 ℝ) 1⟩ = 0 := by
      have : (⟨(![1, 0, 0] : V3 ℝ) 0, (![1, 0, 0] : V3 ℝ) 1⟩ : ℂ) = 1 := by apply Complex.ext <;> simp
      rw [this, Complex.arg_one]
    rw [h1, h2, h3, latR_inner]
  · intro alt' r0
    have hb : latLonBad (fin Real.pi) (fin 0) = true := by
      have h0 : ¬ Real.pi ≤ Real.pi / 2 := by linarith
      simp only [latLonBad, xsimp]
      rw [fin_div _ _ (by norm_num)]
      simp [Flt.lt, abs_of_pos hp, hp]
    simp only [lla2Ecef, hb, if_true]

/-- the position mirrored in the equatorial plane -/
def mirror (r : V3 ℝ) : V3 ℝ := ![r 0, r 1, -r 2]

/-- the position turned about the polar axis -/
noncomputable def spin (θ : ℝ) (r : V3 ℝ) : V3 ℝ :=
  ![Real.cos θ * r 0 - Real.sin θ * r 1, Real.sin θ * r 0 + Real.cos θ * r 1, r 2]

theorem thR_neg {p z : ℝ} (h : z ≠ 0 ∨ 0 < p) : thR p (-z) = -thR p z := by
  have ha := semiMajor_pos; have hb := polarC_pos
  have e : (⟨polarC * p, semiMajor * -z⟩ : ℂ) = (starRingEnd ℂ) ⟨polarC * p, semiMajor * z⟩ := by apply Complex.ext <;> simp
  rw [thR, e, Complex.arg_conj, if_neg, thR]
  rw [Complex.arg_eq_pi_iff]
  rintro ⟨h1, h2⟩
  simp only at h1 h2
  rcases h with h | h
  · exact h (by simpa [ha.ne'] using h2)
  · linarith [mul_pos hb h]

theorem latR_neg {p z : ℝ} (hp : 0 ≤ p) (h : z ≠ 0 ∨ ecc2 * semiMajor < p) : latR p (-z) = -latR p z := by
  have ha := semiMajor_pos; have hb := polarC_pos; have he := ecc2_pos
  have h' : z ≠ 0 ∨ 0 < p := h.imp_right (fun h => lt_trans (mul_pos he ha) h)
  have hth := thR_neg h'
  have hx : latXR p (-z) = latXR p z := by rw [latXR, hth, Real.cos_neg, latXR]
  have hy : latYR p (-z) = -latYR p z := by rw [latYR, hth, Real.sin_neg, latYR]; ring
  have e : (⟨latXR p (-z), latYR p (-z)⟩ : ℂ) = (starRingEnd ℂ) ⟨latXR p z, latYR p z⟩ := by
    rw [hx, hy]; apply Complex.ext <;> simp
  rw [latR, e, Complex.arg_conj, if_neg, latR]
  rw [Complex.arg_eq_pi_iff]
  rintro ⟨h1, h2⟩
  simp only at h1 h2
  rcases h with h | h
  · -- the ordinate has the sign of `z`
    rw [latYR, sin_thR] at h2
    have hD := Real.sqrt_pos.2 (D_pos (p := p) (Or.inr h))
    generalize Real.sqrt ((polarC * p) ^ 2 + (semiMajor * z) ^ 2) = D at *
    have : z * (1 + kC * (semiMajor / D) ^ 3 * z ^ 2) = 0 := by rw [← h2]; ring
    rcases mul_eq_zero.1 this with h3 | h3
    · exact h h3
    · have : 0 ≤ kC * (semiMajor / D) ^ 3 * z ^ 2 := mul_nonneg (mul_nonneg kC_pos.le (by positivity)) (sq_nonneg z)
      linarith
  · rw [latXR] at h1
    have : Real.cos (thR p z) ^ 3 ≤ 1 := by
      have h3 := Real.cos_le_one (thR p z)
      have h0 : 0 ≤ Real.cos (thR p z) := by
        rw [cos_thR (Or.inl (by linarith [mul_pos he ha]))]
        exact div_nonneg (mul_nonneg hb.le hp) (Real.sqrt_nonneg _)
      exact pow_le_one₀ h0 h3
    nlinarith [mul_pos he ha]

theorem primeVertical_neg (x : ℝ) : primeVertical (-x) = primeVertical x := by simp [primeVertical, Real.sin_neg]

/-- C27, mirror, as far as it holds: positions on the equatorial plane within 43 km of the centre are excluded.  The polar axis is included: there
both altitudes are NaN. -/
theorem C27_mirror_partial (r : V3 ℝ) (h : r 2 ≠ 0 ∨ ecc2 * semiMajor < axisDist r) :
    ∃ lat lon : ℝ, ∃ alt : XR, ecef2Lla (finV r) = (true, fin lat, fin lon, alt) ∧ ecef2Lla (finV (mirror r)) = (true, fin (-lat), fin lon, alt) := by
  refine ⟨latR (axisDist r) (r 2), _, _, ecef2Lla_X r, ?_⟩
  rw [ecef2Lla_X]
  have h1 : Real.sqrt (mirror r 0 ^ 2 + mirror r 1 ^ 2) = axisDist r := rfl
  have h2 : mirror r 2 = -r 2 := rfl
  have h3 : Complex.arg ⟨mirror r 0, mirror r 1⟩ = Complex.arg ⟨r 0, r 1⟩ := rfl
  have h4 : Real.sqrt (r 0 ^ 2 + r 1 ^ 2) = axisDist r := rfl
  have h5 : latR (axisDist r) (-r 2) = -latR (axisDist r) (r 2) := latR_neg (Real.sqrt_nonneg _) h
  simp only [h1, h2, h3, h4, h5, Real.cos_neg, primeVertical_neg]

example : (![6378137, 0, 0] : V3 ℝ) 2 ≠ 0 ∨ ecc2 * semiMajor < axisDist ![6378137, 0, 0] := by
  right
  have : axisDist ![6378137, 0, 0] = 6378137 := by
    simp [axisDist]
  rw [this, ecc2_eq]; norm_num [semiMajor, flattening]

/-- C27 fails on the equatorial plane near the centre: the point is its own mirror image, but its latitude is not zero. -/
theorem C27_centre_fails : mirror ![1, 0, 0] = ![1, 0, 0] ∧ ∃ lon alt : XR, ecef2Lla (finV ![1, 0, 0]) = (true, fin Real.pi, lon, alt)
    ∧ Real.pi ≠ -Real.pi := by
  refine ⟨by ext i; fin_cases i <;> simp [mirror], ?_⟩
  obtain ⟨alt, h, -⟩ := C26_centre_fails
  exact ⟨_, _, h, by linarith [Real.pi_pos]⟩

/-- C27, rotation: turning a position about the polar axis changes only the longitude, by the angle of the rotation up to whole turns. -/
theorem C27_rotation (r : V3 ℝ) (θ : ℝ) (h : r 0 ≠ 0 ∨ r 1 ≠ 0) :
    ∃ lat lon lon' : ℝ, ∃ alt : XR, ecef2Lla (finV r) = (true, fin lat, fin lon, alt) ∧ ecef2Lla (finV (spin θ r)) = (true, fin lat, fin lon', alt) ∧
      ∃ k : ℤ, lon' = lon + θ + k * (2 * Real.pi) := by
  refine ⟨latR (axisDist r) (r 2), _, Complex.arg ⟨spin θ r 0, spin θ r 1⟩, _, ecef2Lla_X r, ?_, ?_⟩
  · rw [ecef2Lla_X]
    have h1 : Real.sqrt (spin θ r 0 ^ 2 + spin θ r 1 ^ 2) = axisDist r := by
      rw [axisDist]; congr 1
      have := Real.sin_sq_add_cos_sq θ
      simp [spin]; linear_combination (r 0 ^ 2 + r 1 ^ 2) * this
    have h2 : spin θ r 2 = r 2 := rfl
    have h4 : Real.sqrt (r 0 ^ 2 + r 1 ^ 2) = axisDist r := rfl
    simp only [h1, h2, h4]
  · have hne : (⟨r 0, r 1⟩ : ℂ) ≠ 0 := by
      intro h0
      have e0 := congrArg Complex.re h0; have e1 := congrArg Complex.im h0
      simp at e0 e1
      tauto
    have e : (⟨spin θ r 0, spin θ r 1⟩ : ℂ) = Complex.exp (θ * Complex.I) * ⟨r 0, r 1⟩ := by
      rw [Complex.exp_mul_I, ← Complex.ofReal_cos, ← Complex.ofReal_sin]
      apply Complex.ext <;> simp [spin, Complex.mul_re, Complex.mul_im, Complex.cos_ofReal_re, Complex.sin_ofReal_re]; ring
    have h1 : ((Complex.arg ⟨spin θ r 0, spin θ r 1⟩ : ℝ) : Real.Angle) = ((Complex.arg ⟨r 0, r 1⟩ + θ : ℝ) : Real.Angle) := by
      rw [e, Complex.arg_mul_coe_angle (Complex.exp_ne_zero _) hne, Complex.arg_exp_mul_I]
      rw [Real.Angle.coe_add, add_comm]
      congr 1
      rw [Real.Angle.angle_eq_iff_two_pi_dvd_sub]
      refine ⟨-toIocDiv Real.two_pi_pos (-Real.pi) θ, ?_⟩
      rw [toIocMod]; push_cast [zsmul_eq_mul]; ring
    obtain ⟨k, hk⟩ := Real.Angle.angle_eq_iff_two_pi_dvd_sub.1 h1
    exact ⟨k, by linarith⟩

example : (![1, 0, 0] : V3 ℝ) 0 ≠ 0 ∨ (![1, 0, 0] : V3 ℝ) 1 ≠ 0 := Or.inl (by simp)

end NavFuse.Props
