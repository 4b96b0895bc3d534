import Verif.Props.Poison
import Mathlib.Analysis.Real.Pi.Bounds

/-! # C180: the navigator at the poles -/

namespace NavFuse.Props
open Matrix NavFuse.Spec NavFuse.Strapdown NavFuse.NavUtils NavFuse.XR

theorem div_mul_zero_notfin (a b : XR) : ¬(a / (b * fin 0)).Finite := by
  cases b with
  | fin x => rw [fin_mul, mul_zero]; exact div_zero_not_finite a
  | nan => rw [nan_mul, div_nan]; exact not_finite_nan
  | pinf => rw [pinf_mul_zero, div_nan]; exact not_finite_nan
  | ninf => rw [ninf_mul_zero, div_nan]; exact not_finite_nan

/-- C180 fails at the poles: from a state whose latitude has cosine zero one call makes all three velocities non-finite, whatever the height, the velocity (also zero), the
attitude and the sample, and reports success; `C178_lost_for_good` says that they stay so. -/
theorem C180_at_the_pole_fails (s : St XR) (l v dV dTh : V3 XR) (R : M3 XR) (t t' : Int) (lat : ℝ) (hl : l 0 = fin lat) (hc : Real.cos lat = 0)
    (h : s.lla = some l ∧ s.vNed = some v ∧ s.RB2N = some R ∧ s.tov = some t) (hf : -2 ^ 63 ≤ t' - t ∧ t' - t < 2 ^ 63) :
    ∃ s' v', integrate s dV dTh t' = .ok (true, s') ∧ s'.vNed = some v' ∧ ∀ j, ¬(v' j).Finite := by
  refine ⟨_, _, integrate_eval s l v dV dTh R t t' h hf, rfl, ?_⟩
  have key : ∀ (dVN gN : V3 XR) (dt : XR) (y : Fin 6 → XR), y 0 = fin lat → ∀ i : Fin 6, 3 ≤ i.val → ¬(rk4G dVN gN dt y i).Finite := by
    intro dVN gN dt y hy i hi
    have hq : Flt.cos (y 0) = fin 0 := by rw [hy, X_cos, hc]
    have hd : ∀ N : XR, ¬(y 4 / ((N + y 2) * Flt.cos (y 0))).Finite := fun N => by rw [hq]; exact div_mul_zero_notfin _ _
    have h1 : ¬(dynG dVN gN dt y i).Finite := by
      have sub' : ∀ {a : XR} (b : XR), ¬a.Finite → ¬(b - a).Finite := by
        intro a b ha ⟨z, hz⟩
        cases a <;> cases b <;> first | exact ha ⟨_, rfl⟩ | cases hz
      fin_cases i <;> simp at hi
      · exact sub' _ (notfin_mul (notfin_mul (hd _) _) _)
      · exact notfin_add' (notfin_mul (notfin_mul (hd _) _) _) _
      · exact notfin_sub (sub' _ (notfin_mul (notfin_mul (hd _) _) _)) _
    exact notfin_add (notfin_add (notfin_add (notfin_add' (notfin_mul' (notfin_mul' h1 _) _) _) _) _) _
  intro j
  fin_cases j
  · exact key _ _ _ _ hl 3 (by decide)
  · exact key _ _ _ _ hl 4 (by decide)
  · exact key _ _ _ _ hl 5 (by decide)

/-- the poles meet the hypothesis -/
example : Real.cos (Real.pi / 2) = 0 ∧ Real.cos (-(Real.pi / 2)) = 0 := by simp

theorem radii_bounds (lat : ℝ) : 6378137 ≤ primeVertical lat ∧ primeVertical lat ≤ 6400000 ∧ 6300000 ≤ meridian lat := by
  have hw := w_pos lat
  have he : ecc2 ≤ 0.0067 := by rw [ecc2_eq]; norm_num [flattening]
  have he0 := ecc2_pos
  have h1 := Real.sin_sq_le_one lat
  have hs : Real.sqrt (1 - ecc2 * Real.sin lat ^ 2) ≤ 1 := by
    exact (Real.sqrt_le_sqrt (by nlinarith [sq_nonneg (Real.sin lat)] : _ ≤ (1 : ℝ))).trans_eq Real.sqrt_one
  have hs' : 0.9966 ≤ Real.sqrt (1 - ecc2 * Real.sin lat ^ 2) := by
    apply Real.le_sqrt_of_sq_le; nlinarith [sq_nonneg (Real.sin lat)]
  refine ⟨?_, ?_, ?_⟩
  · rw [primeVertical, le_div_iff₀ (by linarith), semiMajor]; linarith
  · rw [primeVertical, div_le_iff₀ (by linarith), semiMajor]; linarith
  · rw [meridian, le_div_iff₀ (by positivity), semiMajor]
    have : Real.sqrt (1 - ecc2 * Real.sin lat ^ 2) ^ 3 ≤ 1 := pow_le_one₀ (by linarith) hs
    linarith

/-- C180 fails next to the poles: for an eastward speed of one metre per second and no forces the computed northward acceleration exceeds 10^9 m/s², where the
latitude is so close to a pole that its cosine is at most 6.2e-17. (The double `M_PI/2` is such a latitude.) -/
theorem C180_next_to_the_pole_fails (lat lon h : ℝ) (hc : 0 < |Real.cos lat|) (hc' : |Real.cos lat| ≤ 6.2e-17) (h0 : 0 ≤ h) (h1 : h ≤ 20000) (f0 : Fin 6 → ℝ) :
    ∃ f, strapdownDynamics ⟨6, ![lat, lon, h, 0, 1, 0]⟩ ⟨6, f0⟩ 0 0 1 = .ok (true, ⟨6, f⟩) ∧ 10 ^ 9 ≤ |f 3| := by
  refine ⟨_, dyn_eval _ _ _ _ _, ?_⟩
  rw [dyn_R]
  have e : navRates ((1 : ℝ)⁻¹ • (0 : V3 ℝ)) 0 ![lat, lon, h, 0, 1, 0] 3
      = -((2 * earthRate + 1 / ((primeVertical lat + h) * Real.cos lat)) * Real.sin lat) := by
    simp [navRates, velRates, posRates, earthVec, transportVec, crossProduct]
    ring
  rw [e, abs_neg, abs_mul]
  obtain ⟨hN1, hN2, -⟩ := radii_bounds lat
  have hs : 0.99 ≤ |Real.sin lat| := by
    rw [← Real.sqrt_sq_eq_abs]
    apply Real.le_sqrt_of_sq_le
    have := Real.sin_sq_add_cos_sq lat
    rw [← sq_abs (Real.cos lat)] at this
    nlinarith
  have hq : 2.4e9 ≤ |1 / ((primeVertical lat + h) * Real.cos lat)| := by
    rw [abs_div, abs_one, abs_mul, abs_of_pos (by linarith : 0 < primeVertical lat + h), le_div_iff₀ (mul_pos (by linarith) hc)]
    have : (primeVertical lat + h) * |Real.cos lat| ≤ 6420000 * 6.2e-17 := mul_le_mul (by linarith) hc' hc.le (by norm_num)
    nlinarith
  have hw : |2 * earthRate| ≤ 1 := by rw [earthRate]; norm_num [abs_le]
  have hsum : 2e9 ≤ |2 * earthRate + 1 / ((primeVertical lat + h) * Real.cos lat)| := by
    have := abs_sub_abs_le_abs_sub (1 / ((primeVertical lat + h) * Real.cos lat)) (-(2 * earthRate))
    rw [abs_neg, sub_neg_eq_add, add_comm (1 / _)] at this
    linarith
  nlinarith

/-- the double nearest to a quarter turn, `M_PI/2`, is a latitude next to the pole -/
example : 0 < |Real.cos (884279719003555 / 2 ^ 49)| ∧ |Real.cos (884279719003555 / 2 ^ 49)| ≤ 6.2e-17 := by
  have h1 := Real.pi_gt_d20
  have h2 := Real.pi_lt_d20
  rw [← Real.sin_pi_div_two_sub]
  have hp : 0 < Real.pi / 2 - 884279719003555 / 2 ^ 49 := by norm_num at *; linarith
  have hq : Real.pi / 2 - 884279719003555 / 2 ^ 49 ≤ 6.2e-17 := by norm_num at *; linarith
  have hsin := Real.sin_pos_of_pos_of_le_one hp (by linarith)
  rw [abs_of_pos hsin]
  exact ⟨hsin, (Real.sin_le hp.le).trans hq⟩

/-- C180, the part that holds: at non-negative heights the computed acceleration differs from specific force plus gravity by at most `2 V (2 Ω + V / (6300 km cos lat))`,
for velocity components up to `V`. (Missing: a bound that does not degenerate towards the poles.) -/
theorem C180_away_from_the_poles_partial (lat lon h V : ℝ) (v s g : V3 ℝ) (hc : 0 < Real.cos lat) (h0 : 0 ≤ h) (hv : ∀ i, |v i| ≤ V) (f0 : Fin 6 → ℝ) :
    ∃ f, strapdownDynamics ⟨6, ![lat, lon, h, v 0, v 1, v 2]⟩ ⟨6, f0⟩ s g 1 = .ok (true, ⟨6, f⟩)
      ∧ ∀ i : Fin 3, |![f 3, f 4, f 5] i - (s i + g i)| ≤ 2 * V * (2 * earthRate + V / (6300000 * Real.cos lat)) := by
  refine ⟨_, dyn_eval _ _ _ _ _, ?_⟩
  rw [dyn_R, inv_one, one_smul]
  obtain ⟨hN, -, hM⟩ := radii_bounds lat
  have hV : 0 ≤ V := (abs_nonneg _).trans (hv 0)
  have hc1 := Real.cos_le_one lat
  set lonDot := v 1 / ((primeVertical lat + h) * Real.cos lat) with hlon
  set latDot := v 0 / (meridian lat + h) with hlat
  set q := V / (6300000 * Real.cos lat) with hq
  have b1 : |lonDot| ≤ q := by
    rw [hlon, abs_div, abs_of_pos (mul_pos (by linarith : 0 < primeVertical lat + h) hc)]
    exact div_le_div₀ hV (hv 1) (by positivity) (mul_le_mul_of_nonneg_right (by linarith) hc.le)
  have b2 : |latDot| ≤ q := by
    rw [hlat, abs_div, abs_of_pos (by linarith : 0 < meridian lat + h)]
    exact div_le_div₀ hV (hv 0) (by positivity) (by nlinarith)
  have hw : 0 < earthRate := by rw [earthRate]; norm_num
  have hs := Real.abs_sin_le_one lat
  have hcc := Real.abs_cos_le_one lat
  have q0 : 0 ≤ q := (abs_nonneg _).trans b1
  have w0 : |2 * earthRate * Real.cos lat + lonDot * Real.cos lat| ≤ 2 * earthRate + q := by
    rw [← add_mul, abs_mul]
    refine (mul_le_of_le_one_right (abs_nonneg _) hcc).trans ((abs_add_le _ _).trans ?_)
    rw [abs_of_pos (by linarith : 0 < 2 * earthRate)]; linarith
  have w2 : |2 * earthRate * Real.sin lat + lonDot * Real.sin lat| ≤ 2 * earthRate + q := by
    rw [← add_mul, abs_mul]
    refine (mul_le_of_le_one_right (abs_nonneg _) hs).trans ((abs_add_le _ _).trans ?_)
    rw [abs_of_pos (by linarith : 0 < 2 * earthRate)]; linarith
  have two : ∀ a b c d A : ℝ, |a| ≤ A → |b| ≤ V → |c| ≤ A → |d| ≤ V → |a * b + c * d| ≤ 2 * V * A := by
    intro a b c d A ha hb hc hd
    refine (abs_add_le _ _).trans ?_
    rw [abs_mul, abs_mul]
    have k1 := mul_le_mul ha hb (abs_nonneg _) ((abs_nonneg _).trans ha)
    have k2 := mul_le_mul hc hd (abs_nonneg _) ((abs_nonneg _).trans hc)
    linarith
  have b2' : |latDot| ≤ 2 * earthRate + q := by linarith
  have neg' : ∀ {a b : ℝ}, |a| ≤ b → |-a| ≤ b := fun h => by rwa [abs_neg]
  intro i
  fin_cases i
  · refine le_of_eq_of_le (congrArg _ ?_) (two latDot (v 2) (-(2 * earthRate * Real.sin lat + lonDot * Real.sin lat)) (v 1) _ b2' (hv 2) (neg' w2) (hv 1))
    simp [navRates, velRates, posRates, earthVec, transportVec, crossProduct, hlon, hlat]; ring
  · refine le_of_eq_of_le (congrArg _ ?_) (two (2 * earthRate * Real.sin lat + lonDot * Real.sin lat) (v 0) (2 * earthRate * Real.cos lat + lonDot * Real.cos lat) (v 2) _
      w2 (hv 0) w0 (hv 2))
    simp [navRates, velRates, posRates, earthVec, transportVec, crossProduct, hlon]; ring
  · refine le_of_eq_of_le (congrArg _ ?_) (two (-(2 * earthRate * Real.cos lat + lonDot * Real.cos lat)) (v 1) (-latDot) (v 0) _ (neg' w0) (hv 1) (neg' b2') (hv 0))
    simp [navRates, velRates, posRates, earthVec, transportVec, crossProduct, hlon, hlat]; ring

/-- an airliner at 60 degrees north: the bound is 0.09 m/s² -/
example : 0 < Real.cos (Real.pi / 3) ∧ (∀ i, |(![150, 200, -10] : V3 ℝ) i| ≤ 200)
    ∧ 2 * 200 * (2 * earthRate + 200 / (6300000 * Real.cos (Real.pi / 3))) ≤ 0.09 := by
  rw [Real.cos_pi_div_three, earthRate]
  refine ⟨by norm_num, fun i => by fin_cases i <;> norm_num [abs_of_neg], by norm_num⟩

end NavFuse.Props
