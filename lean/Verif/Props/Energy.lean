import Verif.Props.GravityField
import Verif.Props.NavUtils
import Mathlib.Analysis.Calculus.Deriv.Prod
/-! # C169: energy balance of the navigation equations -/

namespace NavFuse.Props
open Matrix Spec Gravity NavUtils

/-! ## the specification -/

/-- work per kilogram needed to lift a body from the ellipsoid to altitude `h` against the computed gravity -/
noncomputable def liftEnergy (φ h : ℝ) : ℝ := ∫ s in (0 : ℝ)..h, (gravityNed φ s).2 2

/-- energy per kilogram of the navigation state (latitude, longitude, altitude, velocity): kinetic energy of the velocity relative to the Earth and the
energy of the altitude -/
noncomputable def energy (y : Fin 6 → ℝ) : ℝ := (y 3 ^ 2 + y 4 ^ 2 + y 5 ^ 2) / 2 + liftEnergy (y 0) (y 2)

/-! ## lemmas -/

/-- integral of the altitude factor -/
noncomputable def liftFactor (φ h : ℝ) : ℝ :=
  h - (1 / 6378137) * (1 + 1 / 298.257222101 + mR - 2 * (1 / 298.257222101) * Real.sin φ ^ 2) * h ^ 2 + h ^ 3 / 6378137 ^ 2

theorem liftFactor_deriv (φ h : ℝ) : HasDerivAt (fun h => liftFactor φ h) (altFactor φ h) h := by
  unfold liftFactor altFactor
  have h1 := (((hasDerivAt_id h).pow 2).const_mul ((1 / 6378137) * (1 + 1 / 298.257222101 + mR - 2 * (1 / 298.257222101) * Real.sin φ ^ 2) : ℝ))
  have h2 := ((hasDerivAt_id h).pow 3).div_const ((6378137 : ℝ) ^ 2)
  refine (((hasDerivAt_id h).sub h1).add h2).congr_deriv ?_
  simp; ring

theorem down_R (φ h : ℝ) : (gravityNed φ h).2 2 = Nnum φ / Real.sqrt (Dsq φ) * altFactor φ h := by rw [gravity_R]; rfl

theorem altFactor_cont (φ : ℝ) : Continuous fun h => altFactor φ h := by unfold altFactor; fun_prop

theorem liftEnergy_eq (φ h : ℝ) : liftEnergy φ h = Nnum φ / Real.sqrt (Dsq φ) * liftFactor φ h := by
  simp only [liftEnergy, down_R]
  rw [intervalIntegral.integral_eq_sub_of_hasDerivAt (f := fun h => Nnum φ / Real.sqrt (Dsq φ) * liftFactor φ h)
    (fun s _ => (liftFactor_deriv φ s).const_mul _)]
  · simp [liftFactor]
  · exact (continuous_const.mul (altFactor_cont φ)).intervalIntegrable _ _

/-- growth of Somigliana's gravity with `sin²` of the latitude -/
noncomputable def surfRate (φ : ℝ) : ℝ :=
  (6356752.3141 * 9.8321863685 - 6378137 * 9.7803267715) / Real.sqrt (Dsq φ) + Nnum φ * (6378137 ^ 2 - 6356752.3141 ^ 2) / (2 * Real.sqrt (Dsq φ) ^ 3)

theorem surf_deriv (φ : ℝ) : HasDerivAt (fun φ => Nnum φ / Real.sqrt (Dsq φ)) (surfRate φ * Real.sin (2 * φ)) φ := by
  have hD := Dpos φ
  refine ((Nnum_deriv φ).div (D_deriv φ) hD.ne').congr_deriv ?_
  unfold surfRate
  generalize Real.sqrt (Dsq φ) = D at *
  field_simp
  ring

/-- growth of the lift energy with `sin²` of the latitude -/
noncomputable def liftRate (φ h : ℝ) : ℝ :=
  surfRate φ * liftFactor φ h + Nnum φ / Real.sqrt (Dsq φ) * (2 / 6378137 * (1 / 298.257222101) * h ^ 2)

theorem liftRate_deriv (φ h : ℝ) : HasDerivAt (fun h => liftRate φ h) (poleward φ h) h := by
  refine (((liftFactor_deriv φ h).const_mul (surfRate φ)).add ((((hasDerivAt_id h).pow 2).const_mul
    (2 / 6378137 * (1 / 298.257222101) : ℝ)).const_mul (Nnum φ / Real.sqrt (Dsq φ)))).congr_deriv ?_
  have e : poleward φ h = surfRate φ * altFactor φ h + Nnum φ / Real.sqrt (Dsq φ) * (4 / 6378137 * (1 / 298.257222101) * h) := rfl
  rw [e]
  simp only [id, Nat.cast_ofNat, Nat.add_one_sub_one, pow_one, mul_one]
  ring

theorem liftRate_bound (φ h : ℝ) (h0 : 0 ≤ h) (h1 : h ≤ 20000) :
    |liftRate φ h - 8.08e-9 * (meridianRadius φ * h + h ^ 2)| ≤ 0.0205 * (8.08e-9 * (meridianRadius φ * h + h ^ 2)) := by
  have hd : ∀ s x : ℝ, HasDerivAt (fun h => 0.0205 * (8.08e-9 * (meridianRadius φ * h + h ^ 2)) - s * (liftRate φ h - 8.08e-9 * (meridianRadius φ * h + h ^ 2)))
      (0.0205 * (8.08e-9 * (meridianRadius φ + 2 * x)) - s * (poleward φ x - 8.08e-9 * (meridianRadius φ + 2 * x))) x := by
    intro s x
    have h1 : HasDerivAt (fun h => 8.08e-9 * (meridianRadius φ * h + h ^ 2)) (8.08e-9 * (meridianRadius φ + 2 * x)) x := by
      refine ((((hasDerivAt_id x).const_mul (meridianRadius φ)).add ((hasDerivAt_id x).pow 2)).const_mul (8.08e-9 : ℝ)).congr_deriv ?_
      simp
    exact (h1.const_mul _).sub (((liftRate_deriv φ x).sub h1).const_mul s)
  have hm : ∀ s : ℝ, |s| = 1 → MonotoneOn (fun h => 0.0205 * (8.08e-9 * (meridianRadius φ * h + h ^ 2))
      - s * (liftRate φ h - 8.08e-9 * (meridianRadius φ * h + h ^ 2))) (Set.Icc 0 20000) := by
    intro s hs
    apply monotoneOn_of_deriv_nonneg (convex_Icc _ _)
    · exact fun x _ => (hd s x).continuousAt.continuousWithinAt
    · exact fun x _ => (hd s x).differentiableAt.differentiableWithinAt
    · intro x hx
      rw [interior_Icc] at hx
      rw [(hd s x).deriv]
      obtain ⟨r1, r2, -⟩ := rates φ x hx.1.le hx.2.le
      have := le_abs_self (s * (poleward φ x - 8.08e-9 * (meridianRadius φ + 2 * x)))
      rw [abs_mul, hs, one_mul] at this
      have r3 := (abs_le.1 r2).2
      norm_num at r2 r3 this ⊢
      linarith
  have z : liftRate φ 0 = 0 := by simp [liftRate, liftFactor]
  have m1 := hm 1 (by norm_num) ⟨le_rfl, by norm_num⟩ ⟨h0, h1⟩ h0
  have m2 := hm (-1) (by norm_num) ⟨le_rfl, by norm_num⟩ ⟨h0, h1⟩ h0
  simp only [z] at m1 m2
  rw [abs_le]
  constructor <;> linarith

set_option maxHeartbeats 1000000 in
/-- the two meridian radii (from the two semi-axes, and from the flattening) agree to a centimetre -/
theorem meridian_close (φ : ℝ) : |meridian φ - meridianRadius φ| ≤ 0.01 ∧ 6e6 ≤ meridianRadius φ := by
  have hu0 := sq_nonneg (Real.sin φ)
  have hu1 := Real.sin_sq_le_one φ
  have hc : Real.cos φ ^ 2 = 1 - Real.sin φ ^ 2 := by linarith [Real.sin_sq_add_cos_sq φ]
  obtain ⟨d1, d2⟩ := D_bounds φ
  have hDp := Dpos φ
  set D := Real.sqrt (Dsq φ) with hD
  have eM : meridianRadius φ = (6378137 * 6356752.3141) ^ 2 / D ^ 3 := rfl
  have hD3 : (6356752.3141 : ℝ) ^ 3 ≤ D ^ 3 ∧ D ^ 3 ≤ 6378137 ^ 3 := ⟨pow_le_pow_left₀ (by norm_num) d1 3, pow_le_pow_left₀ hDp.le d2 3⟩
  have hlo : 6e6 ≤ meridianRadius φ := by
    rw [eM, le_div_iff₀ (by positivity)]
    refine (mul_le_mul_of_nonneg_left hD3.2 (by norm_num)).trans (by norm_num)
  refine ⟨?_, hlo⟩
  have he : (0.0066 : ℝ) ≤ ecc2 ∧ ecc2 ≤ 0.0067 := by norm_num [ecc2, semiMinor, semiMajor, flattening]
  have hee : |ecc2 - (1 - (6356752.3141 / 6378137) ^ 2)| ≤ 2e-11 := by
    rw [abs_le]; norm_num [ecc2, semiMinor, semiMajor, flattening]
  have eN : meridian φ = 6378137 * (1 - ecc2) / Real.sqrt (1 - ecc2 * Real.sin φ ^ 2) ^ 3 := rfl
  have hDD : D ^ 2 = 6378137 ^ 2 * Real.cos φ ^ 2 + 6356752.3141 ^ 2 * Real.sin φ ^ 2 := Real.sq_sqrt (le_trans (by norm_num) (Dsq_bounds φ).1)
  rw [hc] at hDD
  clear_value D
  rw [eN, eM]
  rw [eM] at hlo
  generalize ecc2 = e at *
  generalize Real.sin φ ^ 2 = u at *
  clear hc
  obtain ⟨e', he'⟩ : ∃ e' : ℝ, e' = 1 - (6356752.3141 / 6378137) ^ 2 := ⟨_, rfl⟩
  rw [← he'] at hee
  obtain ⟨x, hx⟩ : ∃ x, x = Real.sqrt (1 - e * u) := ⟨_, rfl⟩
  rw [← hx]
  have hx2 : x ^ 2 = 1 - e * u := by rw [hx]; exact Real.sq_sqrt (by nlinarith)
  have hx0 : 0.99 ≤ x := by rw [hx]; exact Real.le_sqrt_of_sq_le (by nlinarith)
  have hx1 : x ≤ 1 := by rw [hx]; exact Real.sqrt_le_iff.2 ⟨by norm_num, by nlinarith⟩
  obtain ⟨w, hw⟩ : ∃ w, w = D / 6378137 := ⟨_, rfl⟩
  have hw2 : w ^ 2 = 1 - e' * u := by
    rw [hw, div_pow, hDD, he']
    field_simp; ring
  have hw0 : 0.99 ≤ w := by rw [hw, le_div_iff₀ (by norm_num)]; exact le_trans (by norm_num) d1
  have hw1 : w ≤ 1 := by rw [hw, div_le_one (by norm_num)]; exact d2
  have eM' : (6378137 * 6356752.3141) ^ 2 / D ^ 3 = 6378137 * (1 - e') / w ^ 3 := by
    rw [hw, he']
    field_simp
    ring
  have hxw : |x - w| ≤ 1.1e-11 := by
    have h1 : (x - w) * (x + w) = (e' - e) * u := by linear_combination hx2 - hw2
    have h2 : |x - w| * (x + w) ≤ 2e-11 := by
      rw [← abs_of_pos (show 0 < x + w by linarith), ← abs_mul, h1, abs_mul, abs_of_nonneg hu0, abs_sub_comm]
      nlinarith [abs_nonneg (e - e')]
    nlinarith [abs_nonneg (x - w)]
  have hcube : |w ^ 3 - x ^ 3| ≤ 3.3e-11 := by
    rw [show w ^ 3 - x ^ 3 = (w - x) * (w ^ 2 + w * x + x ^ 2) by ring, abs_mul, abs_sub_comm, abs_of_nonneg (show 0 ≤ w ^ 2 + w * x + x ^ 2 by positivity)]
    have : w ^ 2 + w * x + x ^ 2 ≤ 3 := by nlinarith
    nlinarith [abs_nonneg (x - w)]
  have hx3 : 0.97 ≤ x ^ 3 := le_trans (by norm_num) (pow_le_pow_left₀ (by norm_num) hx0 3)
  have hw3 : 0.97 ≤ w ^ 3 := le_trans (by norm_num) (pow_le_pow_left₀ (by norm_num) hw0 3)
  have hw3' : w ^ 3 ≤ 1 := pow_le_one₀ (by linarith) hw1
  rw [eM', div_sub_div _ _ (by positivity) (by positivity), abs_div, abs_of_pos (show 0 < x ^ 3 * w ^ 3 by positivity), div_le_iff₀ (by positivity)]
  have h1 : |6378137 * (1 - e) * w ^ 3 - x ^ 3 * (6378137 * (1 - e'))| ≤ 6378137 * (5.4e-11) := by
    rw [show 6378137 * (1 - e) * w ^ 3 - x ^ 3 * (6378137 * (1 - e')) = 6378137 * ((e' - e) * w ^ 3 + (1 - e') * (w ^ 3 - x ^ 3)) by ring, abs_mul,
      abs_of_pos (by norm_num : (0 : ℝ) < 6378137)]
    refine mul_le_mul_of_nonneg_left ((abs_add_le _ _).trans ?_) (by norm_num)
    rw [abs_mul, abs_mul, abs_of_pos (show 0 < w ^ 3 by positivity), abs_sub_comm e' e]
    have he1 : |1 - e'| ≤ 1 := by rw [he', abs_le]; constructor <;> norm_num
    have a1 : |e - e'| * w ^ 3 ≤ 2e-11 := by nlinarith [abs_nonneg (e - e')]
    have a2 : |1 - e'| * |w ^ 3 - x ^ 3| ≤ 1 * 3.3e-11 := mul_le_mul he1 hcube (abs_nonneg _) (by norm_num)
    norm_num at a1 a2 ⊢; linarith
  have h2 : 0.9 ≤ x ^ 3 * w ^ 3 := by nlinarith
  norm_num at h1 ⊢
  nlinarith

/-! ## C169 -/

/-- C169 (no work). The Coriolis and transport terms of `strapdownDynamics` do no work: for every state, step, velocity increment and gravity, the power of the
computed acceleration is that of the specific force and gravity. -/
theorem C169_fictitious_forces_do_no_work (y f0 : Fin 6 → ℝ) (dt : ℝ) (_hdt : dt ≠ 0) (dVN gN : V3 ℝ) :
    ∃ F, strapdownDynamics ⟨6, y⟩ ⟨6, f0⟩ dVN gN dt = .ok (true, ⟨6, F⟩) ∧
      y 3 * F 3 + y 4 * F 4 + y 5 * F 5 = y 3 * (dVN 0 / dt + gN 0) + y 4 * (dVN 1 / dt + gN 1) + y 5 * (dVN 2 / dt + gN 2) := by
  refine ⟨_, dyn_eval dVN gN dt y f0, ?_⟩
  rw [dyn_R]
  simp [navRates, posRates, velRates, earthVec, transportVec, crossProduct]
  ring

/-- the lift energy along a path -/
theorem liftEnergy_along (φ h : ℝ → ℝ) (t φ' h' : ℝ) (hφ : HasDerivAt φ φ' t) (hh : HasDerivAt h h' t) :
    HasDerivAt (fun t => liftEnergy (φ t) (h t)) (liftRate (φ t) (h t) * Real.sin (2 * φ t) * φ' + (gravityNed (φ t) (h t)).2 2 * h') t := by
  have e1 : HasDerivAt (fun t => Nnum (φ t) / Real.sqrt (Dsq (φ t))) (surfRate (φ t) * Real.sin (2 * φ t) * φ') t := (surf_deriv (φ t)).comp t hφ
  have e2 : HasDerivAt (fun t => Real.sin (φ t) ^ 2) (Real.sin (2 * φ t) * φ') t := (sinSq_deriv (φ t)).comp t hφ
  have e3 : HasDerivAt (fun t => liftFactor (φ t) (h t))
      (altFactor (φ t) (h t) * h' + 2 / 6378137 * (1 / 298.257222101) * h t ^ 2 * (Real.sin (2 * φ t) * φ')) t := by
    unfold liftFactor
    refine ((hh.sub ((((e2.const_mul (2 * (1 / 298.257222101) : ℝ)).const_sub (1 + 1 / 298.257222101 + mR)).const_mul (1 / 6378137 : ℝ)).mul (hh.pow 2))).add
      ((hh.pow 3).div_const ((6378137 : ℝ) ^ 2))).congr_deriv ?_
    unfold altFactor
    simp only [Pi.pow_apply, Nat.cast_ofNat, Nat.add_one_sub_one, pow_one]
    ring
  simp only [liftEnergy_eq]
  refine (e1.mul e3).congr_deriv ?_
  rw [down_R, liftRate]
  ring

/-- C169 (energy balance). Along every solution of the equations that `strapdownDynamics` evaluates, with gravity from `gravityNed`, between 0 and 20 km: the
energy changes by the power of the specific force, to within 2.1 percent of the power of the north component of gravity. -/
theorem C169_energy_balance (y : ℝ → Fin 6 → ℝ) (t dt : ℝ) (s : V3 ℝ) (f0 F : Fin 6 → ℝ) (hdt : dt ≠ 0) (h0 : 0 ≤ y t 2) (h1 : y t 2 ≤ 20000)
    (hF : strapdownDynamics ⟨6, y t⟩ ⟨6, f0⟩ (dt • s) (gravityNed (y t 0) (y t 2)).2 dt = .ok (true, ⟨6, F⟩)) (hy : HasDerivAt y F t) :
    ∃ E', HasDerivAt (fun t => energy (y t)) E' t ∧
      |E' - (s 0 * y t 3 + s 1 * y t 4 + s 2 * y t 5)| ≤ 0.021 * |(gravityNed (y t 0) (y t 2)).2 0 * y t 3| := by
  have hFe : F = navRates s (gravityNed (y t 0) (y t 2)).2 (y t) := by
    rw [dyn_eval, dyn_R, smul_smul, inv_mul_cancel₀ hdt, one_smul] at hF
    simpa using hF.symm
  have hc := fun i => (hasDerivAt_pi.1 hy) i
  have hk := ((((hc 3).pow 2).add ((hc 4).pow 2)).add ((hc 5).pow 2)).div_const 2
  have he := hk.add (liftEnergy_along _ _ t _ _ (hc 0) (hc 2))
  refine ⟨_, he, ?_⟩
  have hv : F 0 = y t 3 / (meridian (y t 0) + y t 2) ∧ F 2 = -y t 5 := by
    rw [hFe]; constructor <;> simp [navRates, posRates]
  have hw : y t 3 * F 3 + y t 4 * F 4 + y t 5 * F 5
      = (s 0 * y t 3 + s 1 * y t 4 + s 2 * y t 5) + (gravityNed (y t 0) (y t 2)).2 0 * y t 3 + (gravityNed (y t 0) (y t 2)).2 2 * y t 5 := by
    have g1 : (gravityNed (y t 0) (y t 2)).2 1 = 0 := by rw [gravity_R]; rfl
    rw [hFe]
    simp [navRates, posRates, velRates, earthVec, transportVec, crossProduct, g1]
    ring
  have hr := liftRate_bound (y t 0) (y t 2) h0 h1
  obtain ⟨c1, c2⟩ := meridian_close (y t 0)
  have hM : 0 < meridian (y t 0) + y t 2 := by linarith [meridian_pos (y t 0)]
  set M := meridian (y t 0)
  set M' := meridianRadius (y t 0)
  set h := y t 2
  set S := Real.sin (2 * y t 0) with hS
  have hn : (gravityNed (y t 0) h).2 0 = -(8.08e-9 * h * S) := north_R _ _
  have key : |liftRate (y t 0) h - 8.08e-9 * h * (M + h)| ≤ 0.021 * (8.08e-9 * h * (M + h)) := by
    have a1 := abs_le.1 c1
    have a2 : |8.08e-9 * h * (M' - M)| ≤ 8.08e-9 * h * 0.01 := by
      rw [abs_mul, abs_of_nonneg (by positivity), abs_sub_comm]
      exact mul_le_mul_of_nonneg_left c1 (by positivity)
    have a3 : |liftRate (y t 0) h - 8.08e-9 * h * (M + h)| ≤ 0.0205 * (8.08e-9 * (M' * h + h ^ 2)) + 8.08e-9 * h * 0.01 := by
      rw [show liftRate (y t 0) h - 8.08e-9 * h * (M + h) = (liftRate (y t 0) h - 8.08e-9 * (M' * h + h ^ 2)) + 8.08e-9 * h * (M' - M) by ring]
      exact (abs_add_le _ _).trans (add_le_add hr a2)
    refine a3.trans ?_
    have a4 : 0 ≤ 8.08e-9 * h * (0.021 * (M + h) - 0.0205 * (M' + h) - 0.01) := by
      apply mul_nonneg (by positivity)
      norm_num at a1 c2 ⊢
      linarith
    linarith
  rw [show ((2 : ℕ) : ℝ) = 2 by norm_num]
  simp only [Nat.add_one_sub_one, pow_one]
  have e : (2 * y t 3 * F 3 + 2 * y t 4 * F 4 + 2 * y t 5 * F 5) / 2 + (liftRate (y t 0) h * S * F 0 + (gravityNed (y t 0) h).2 2 * F 2)
      - (s 0 * y t 3 + s 1 * y t 4 + s 2 * y t 5) = (liftRate (y t 0) h - 8.08e-9 * h * (M + h)) * (S * y t 3 / (M + h)) := by
    rw [hv.1, hv.2]
    have : (2 * y t 3 * F 3 + 2 * y t 4 * F 4 + 2 * y t 5 * F 5) / 2 = y t 3 * F 3 + y t 4 * F 4 + y t 5 * F 5 := by ring
    rw [this, hw, hn]
    field_simp
    ring
  rw [e, abs_mul, hn]
  have e2 : |-(8.08e-9 * h * S) * y t 3| = 8.08e-9 * h * (M + h) * |S * y t 3 / (M + h)| := by
    rw [abs_div, abs_of_pos hM, neg_mul, abs_neg, mul_assoc _ S, abs_mul (8.08e-9 * h), abs_of_nonneg (show (0 : ℝ) ≤ 8.08e-9 * h by positivity)]
    field_simp
  rw [e2, ← mul_assoc]
  exact mul_le_mul_of_nonneg_right key (abs_nonneg _)

/-- at every state between 0 and 20 km the hypotheses are met by a path that starts with the computed rates: here flying north-east at 10 km -/
example : ∃ (y : ℝ → Fin 6 → ℝ) (E' : ℝ), y 0 = ![0.7, 0.2, 10000, 200, 100, -5] ∧ HasDerivAt (fun t => energy (y t)) E' 0 ∧ |E' - 9.8 * 5| ≤ 0.021 * (8.08e-5 * 200) := by
  let y0 : Fin 6 → ℝ := ![0.7, 0.2, 10000, 200, 100, -5]
  let F := navRates ![0, 0, -9.8] (gravityNed (y0 0) (y0 2)).2 y0
  have hd : HasDerivAt (fun t : ℝ => y0 + t • F) F 0 := by
    simpa using ((hasDerivAt_id (0 : ℝ)).smul_const F).const_add y0
  obtain ⟨E', h1, h2⟩ := C169_energy_balance (fun t => y0 + t • F) 0 1 ![0, 0, -9.8] 0 F one_ne_zero (by simp [y0]) (by simp [y0]; norm_num)
    (by rw [dyn_eval, dyn_R]; simp [F]) hd
  refine ⟨_, E', by simp [y0], h1, ?_⟩
  have e : ∀ i, (y0 + (0 : ℝ) • F) i = y0 i := by simp
  simp only [e] at h2
  have hn : |(gravityNed (y0 0) (y0 2)).2 0 * y0 3| ≤ 8.08e-5 * 200 := by
    rw [north_R, abs_mul, abs_neg, abs_mul]
    have := Real.abs_sin_le_one (2 * y0 0)
    have a : |8.08e-9 * y0 2| = (8.08e-5 : ℝ) := by
      rw [show y0 2 = 10000 from rfl, abs_of_pos (by norm_num)]; norm_num
    have b : |y0 3| = (200 : ℝ) := by rw [show y0 3 = 200 from rfl, abs_of_pos (by norm_num)]
    rw [a, b]
    nlinarith
  have e3 : (![0, 0, -9.8] : V3 ℝ) 0 * y0 3 + (![0, 0, -9.8] : V3 ℝ) 1 * y0 4 + (![0, 0, -9.8] : V3 ℝ) 2 * y0 5 = 9.8 * 5 := by
    simp [y0]
  rw [e3] at h2
  refine h2.trans (mul_le_mul_of_nonneg_left hn (by norm_num))

/-- C169 (whole flights). Along every solution on `[0, T]` between 0 and 20 km with a velocity north of at most `V`, with any specific force, `W` being the work
that the specific force does: the energy gained is the work done, to within 3.4 microwatt per kilogram and metre per second. -/
theorem C169_energy_of_a_flight (y : ℝ → Fin 6 → ℝ) (T V : ℝ) (hT : 0 ≤ T) (s : ℝ → V3 ℝ) (W : ℝ → ℝ)
    (hh : ∀ t ∈ Set.Icc 0 T, 0 ≤ y t 2 ∧ y t 2 ≤ 20000 ∧ |y t 3| ≤ V)
    (hy : ∀ t ∈ Set.Icc 0 T, ∃ (dt : ℝ) (f0 F : Fin 6 → ℝ), dt ≠ 0 ∧
      strapdownDynamics ⟨6, y t⟩ ⟨6, f0⟩ (dt • s t) (gravityNed (y t 0) (y t 2)).2 dt = .ok (true, ⟨6, F⟩) ∧ HasDerivAt y F t)
    (hW : ∀ t ∈ Set.Icc 0 T, HasDerivAt W (s t 0 * y t 3 + s t 1 * y t 4 + s t 2 * y t 5) t) :
    |(energy (y T) - energy (y 0)) - (W T - W 0)| ≤ 3.4e-6 * V * T := by
  have hd : ∀ t ∈ Set.Icc 0 T, ∃ d, HasDerivAt (fun t => energy (y t) - W t) d t ∧ ‖d‖ ≤ 3.4e-6 * V := by
    intro t ht
    obtain ⟨dt, f0, F, a1, a2, a3⟩ := hy t ht
    obtain ⟨b1, b2, b3⟩ := hh t ht
    obtain ⟨E', c1, c2⟩ := C169_energy_balance y t dt (s t) f0 F a1 b1 b2 a2 a3
    refine ⟨_, c1.sub (hW t ht), ?_⟩
    rw [Real.norm_eq_abs]
    refine c2.trans ?_
    rw [north_R, abs_mul, abs_neg]
    have e1 : |8.08e-9 * y t 2 * Real.sin (2 * y t 0)| ≤ 8.08e-9 * 20000 * 1 := by
      rw [abs_mul, abs_of_nonneg (show (0 : ℝ) ≤ 8.08e-9 * y t 2 by positivity)]
      exact mul_le_mul (by linarith) (Real.abs_sin_le_one _) (abs_nonneg _) (by norm_num)
    have e2 : |8.08e-9 * y t 2 * Real.sin (2 * y t 0)| * |y t 3| ≤ 8.08e-9 * 20000 * 1 * V := mul_le_mul e1 b3 (abs_nonneg _) (by norm_num)
    have hV : 0 ≤ V := (abs_nonneg _).trans b3
    norm_num at e2 ⊢
    linarith
  choose! d h1 h2 using hd
  have := Convex.norm_image_sub_le_of_norm_hasDerivWithin_le (f := fun t => energy (y t) - W t) (s := Set.Icc 0 T) (fun t ht => (h1 t ht).hasDerivWithinAt) h2 (convex_Icc 0 T)
    (Set.left_mem_Icc.2 hT) (Set.right_mem_Icc.2 hT)
  rw [Real.norm_eq_abs, Real.norm_eq_abs, sub_zero, abs_of_nonneg hT] at this
  rwa [show energy (y T) - energy (y 0) - (W T - W 0) = energy (y T) - W T - (energy (y 0) - W 0) by ring]

/-- a climb at the equator with 10 m/s for 100 seconds meets the hypotheses -/
example : ∃ (y : ℝ → Fin 6 → ℝ) (W : ℝ → ℝ), y 100 2 = 1000 ∧
    |(energy (y 100) - energy (y 0)) - (W 100 - W 0)| ≤ 3.4e-6 * 0 * 100 := by
  refine ⟨fun t => ![0, 0, 10 * t, 0, 0, -10], fun t => liftEnergy 0 (10 * t), by
    show (10 * 100 : ℝ) = 1000; norm_num, ?_⟩
  refine C169_energy_of_a_flight (fun t => ![0, 0, 10 * t, 0, 0, -10]) 100 0 (by norm_num)
    (fun t => ![0, -(2 * earthRate * -10), -(gravityNed (0 : ℝ) (10 * t)).2 2]) (fun t => liftEnergy 0 (10 * t)) ?_ ?_ ?_
  · intro t ht
    have := ht.1; have := ht.2
    simp; constructor <;> linarith
  · intro t ht
    refine ⟨1, 0, _, one_ne_zero, dyn_eval _ _ _ _ _, ?_⟩
    have e : ![0, 0, 10 * t, 0, 0, -10] = (![0, 0, 10 * t, 0, 0, (-10 : ℝ)] : Fin 6 → ℝ) := rfl
    have hg : ((![0, -(2 * earthRate * -10), -(gravityNed (0 : ℝ) (10 * t)).2 2] : V3 ℝ) + (gravityNed (0 : ℝ) (10 * t)).2) = 0 + ![0, -(2 * earthRate * -10), 0] := by
      ext i; fin_cases i <;> simp [gravity_R]
    have hs : ∀ s g s' g' : V3 ℝ, s + g = s' + g' → ∀ y, navRates s g y = navRates s' g' y := by
      intro s g s' g' hsg y; simp only [navRates, velRates, hsg]
    rw [dyn_R]
    simp only [one_smul, inv_one]
    show HasDerivAt _ (navRates _ (gravityNed (0 : ℝ) (10 * t)).2 _) t
    rw [hs _ _ _ _ hg, climb_rates]
    rw [hasDerivAt_pi]
    intro i
    fin_cases i <;> simp [hasDerivAt_const]
    simpa using (hasDerivAt_id t).const_mul (10 : ℝ)
  · intro t ht
    refine (liftEnergy_along (fun _ => 0) (fun t => 10 * t) t 0 10 (hasDerivAt_const _ _) (by simpa using (hasDerivAt_id t).const_mul (10 : ℝ))).congr_deriv ?_
    simp

end NavFuse.Props
