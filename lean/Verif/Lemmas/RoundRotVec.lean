import Verif.Lemmas.DblBound
import Verif.Lemmas.RoundEuler
import Verif.Props.RotVec
import Verif.Props.AttitudeRnd

/-! # Rounding errors of the conversions between rotation vectors and quaternions -/

namespace NavFuse
open Matrix Spec Attitude
variable [Machine] {r : ℝ → ℝ}

omit [Machine] in
/-- the factor `(1 / m) sin (m / 2)` as computed -/
theorem half_coef (h : Rounds53 r) {ρ : ℝ → ℝ} (hρ : Rounds53 ρ) {m : ℝ} (h1 : (2 : ℝ) ^ (-537 : ℤ) ≤ m) (hm2 : m ≤ 100) :
    |r (r (1 / m) * ρ (Real.sin (r (m / 2)))) - Real.sin (m / 2) / m| ≤ 3 * ulp := by
  have hu := ulp_pos
  have hu2 : ulp ≤ 1 / 1000000000000000 := by have := ulp_le; norm_num at this ⊢; exact this
  have hm : 0 < m := lt_of_lt_of_le (by positivity) h1
  have ht : tau ≤ 1 / 10 ^ 60 * (ulp * m) := by
    have e : tau = (2 : ℝ) ^ (-537 : ℤ) * (2 : ℝ) ^ (-537 : ℤ) := by rw [tau, ← zpow_add₀ (by norm_num)]; norm_num
    have h2 : (2 : ℝ) ^ (-537 : ℤ) ≤ 1 / 10 ^ 60 * ulp :=
      (zpow_le_zpow_right₀ (by norm_num) (by norm_num : (-537 : ℤ) ≤ -255)).trans (by rw [ulp, _root_.zpow_neg]; norm_num)
    rw [e, ← mul_assoc]
    exact mul_le_mul h2 h1 (by positivity) (by positivity)
  have ht' : tau ≤ ulp / 1000 := by
    have : tau ≤ 1e-75 := zpow_1074
    refine this.trans ?_
    rw [ulp]; norm_num
  -- half the angle
  have a1 : |r (m / 2) - m / 2| ≤ ulp * m / 2 + tau := by
    have := h.rel_tau (m / 2)
    rw [abs_of_pos (by positivity : 0 < m / 2)] at this
    linarith
  -- its sine
  have a2 : |Real.sin (r (m / 2)) - Real.sin (m / 2)| ≤ ulp * m / 2 + tau := (Real.abs_sin_sub_sin_le _ _).trans a1
  have a3 : |Real.sin (m / 2)| ≤ m / 2 := (Real.abs_sin_le_abs (x := m / 2)).trans (abs_of_pos (by positivity)).le
  have a4 := hρ.rel_tau (Real.sin (r (m / 2)))
  generalize Real.sin (r (m / 2)) = s at *
  generalize Real.sin (m / 2) = σ at *
  have hs : |s| ≤ m := by
    have := abs_add_le (s - σ) σ
    rw [sub_add_cancel] at this
    have : ulp * m ≤ 1 / 1000 * m := mul_le_mul_of_nonneg_right (by linarith) hm.le
    linarith
  have b1 : |ρ s - σ| ≤ 17 / 10 * (ulp * m) := by
    have e1 := abs_add_le (ρ s - s) (s - σ)
    rw [sub_add_sub_cancel] at e1
    have : |s| * ulp ≤ m * ulp := mul_le_mul_of_nonneg_right hs hu.le
    have : 0 ≤ ulp * m := by positivity
    norm_num at *; linarith
  -- the reciprocal
  have c1 : |r (1 / m) - 1 / m| ≤ ulp / m + tau := by
    have := h.rel_tau (1 / m)
    rw [abs_of_pos (by positivity : 0 < 1 / m)] at this
    rw [show ulp / m = 1 / m * ulp by ring]; linarith
  have e : r (1 / m) * ρ s - σ / m = (r (1 / m) - 1 / m) * ρ s + (ρ s - σ) / m := by ring
  have hrs : |ρ s| ≤ 6 / 10 * m := by
    have e1 := abs_add_le (ρ s - σ) σ
    rw [sub_add_cancel] at e1
    have : ulp * m ≤ 1 / 1000 * m := mul_le_mul_of_nonneg_right (by linarith) hm.le
    linarith
  have d1 : |(r (1 / m) - 1 / m) * ρ s| ≤ 7 / 10 * ulp := by
    rw [abs_mul]
    refine (mul_le_mul c1 hrs (abs_nonneg _) (by have := tau_pos; positivity)).trans ?_
    have e2 : (ulp / m + tau) * (6 / 10 * m) = 6 / 10 * ulp + 6 / 10 * (tau * m) := by field_simp
    rw [e2]
    have : tau * m ≤ ulp / 1000 * 100 := mul_le_mul ht' hm2 hm.le (by positivity)
    linarith
  have d2 : |(ρ s - σ) / m| ≤ 17 / 10 * ulp := by
    rw [abs_div, abs_of_pos hm, div_le_iff₀ hm]; linarith
  have d3 : |r (1 / m) * ρ s - σ / m| ≤ 24 / 10 * ulp := by
    rw [e]; exact (abs_add_le _ _).trans (by linarith)
  have hσ : |σ / m| ≤ 1 / 2 := by rw [abs_div, abs_of_pos hm, div_le_iff₀ hm]; linarith
  have := h.step d3 hσ
  nlinarith

omit [Machine] in
/-- how fast the exact factor varies -/
theorem half_sinc {m θ : ℝ} (hm : 0 < m) (hθ : 0 < θ) : |Real.sin (m / 2) / m - Real.sin (θ / 2) / θ| ≤ |m - θ| / m := by
  have e : Real.sin (m / 2) / m - Real.sin (θ / 2) / θ
      = (θ * (Real.sin (m / 2) - Real.sin (θ / 2)) + (θ - m) * Real.sin (θ / 2)) / (m * θ) := by field_simp; ring
  rw [e, abs_div, abs_of_pos (mul_pos hm hθ), div_le_div_iff₀ (mul_pos hm hθ) hm]
  have h1 : |Real.sin (m / 2) - Real.sin (θ / 2)| ≤ |m - θ| / 2 := by
    refine (Real.abs_sin_sub_sin_le _ _).trans ?_
    rw [show m / 2 - θ / 2 = (m - θ) / 2 by ring, abs_div, abs_two]
  have h2 : |Real.sin (θ / 2)| ≤ θ / 2 := (Real.abs_sin_le_abs (x := θ / 2)).trans (abs_of_pos (by positivity)).le
  have h3 : |θ * (Real.sin (m / 2) - Real.sin (θ / 2)) + (θ - m) * Real.sin (θ / 2)| ≤ |m - θ| * θ := by
    refine (abs_add_le _ _).trans ?_
    rw [abs_mul, abs_mul, abs_of_pos hθ, abs_sub_comm θ m]
    have k1 := mul_le_mul_of_nonneg_left h1 hθ.le
    have k2 := mul_le_mul_of_nonneg_left h2 (abs_nonneg (m - θ))
    linarith
  calc _ ≤ |m - θ| * θ * m := mul_le_mul_of_nonneg_right h3 hm.le
    _ = _ := by ring

omit [Machine] in
/-- near zero it is a half -/
theorem half_sinc_tiny {m : ℝ} (hm : 0 < m) (h1 : m ≤ 1e-19) : |Real.sin (m / 2) / m - 1 / 2| ≤ 1e-20 := by
  have k1 := Real.sin_le (x := m / 2) (by positivity)
  have k2 := Real.sin_gt_sub_cube (x := m / 2) (by positivity)
  have e : Real.sin (m / 2) / m - 1 / 2 = (Real.sin (m / 2) - m / 2) / m := by field_simp
  rw [e, abs_div, abs_of_pos hm, div_le_iff₀ hm, abs_of_nonpos (by linarith)]
  have h3 : m ^ 2 ≤ 1e-20 := by nlinarith
  have h4 : (m / 2) ^ 3 / 6 ≤ 1e-20 * m := by
    calc (m / 2) ^ 3 / 6 = m ^ 2 * m / 48 := by ring
      _ ≤ 1e-20 * m / 48 := by gcongr
      _ ≤ _ := by norm_num; linarith
  linarith

/-- the length as computed by `computeQuaternionFromRotationVec` -/
noncomputable def mag3 (p : V3 (Rnd r)) : Rnd r := Flt.sqrt ((p 0 * p 0) + (p 1 * p 1) + (p 2 * p 2))

omit [Machine] in
theorem sq3_val (p : V3 (Rnd r)) : ((p 0 * p 0) + (p 1 * p 1) + (p 2 * p 2)).val = r (r ((p 0 * p 0).val + (p 1 * p 1).val) + (p 2 * p 2).val) := rfl

theorem mag3_rnd (h : Rounds53 r) (p : V3 (Rnd r)) (hp : 1e-20 ≤ len3 (valV p)) : |(mag3 p).val - len3 (valV p)| ≤ 7 * len3 (valV p) * ulp := by
  have hu := ulp_pos
  have hu2 : ulp ≤ 1 / 1000000000000000 := by have := ulp_le; norm_num at this ⊢; exact this
  have hl := Props.len3_sq (valV p)
  have hmv : (mag3 p).val = r (Real.sqrt ((p 0 * p 0) + (p 1 * p 1) + (p 2 * p 2)).val) := rfl
  have hn := sq3_val p
  have hs : ∀ i, 0 ≤ (p i * p i).val := fun i => h.nonneg (mul_self_nonneg _)
  have hr : ∀ i, |(p i * p i).val - valV p i ^ 2| ≤ valV p i ^ 2 * ulp + tau := fun i => by
    have := h.rel_tau ((p i).val * (p i).val)
    rw [abs_of_nonneg (mul_self_nonneg (p i).val)] at this
    rw [pow_two]; exact this
  have r0 := hr 0; have r1 := hr 1; have r2 := hr 2
  have s0 := hs 0; have s1 := hs 1; have s2 := hs 2
  have q0 := sq_nonneg (valV p 0); have q1 := sq_nonneg (valV p 1); have q2 := sq_nonneg (valV p 2)
  rw [hmv]
  generalize ((p 0 * p 0) + (p 1 * p 1) + (p 2 * p 2)).val = n at *
  generalize (p 0 * p 0).val = a at *
  generalize (p 1 * p 1).val = b at *
  generalize (p 2 * p 2).val = c at *
  generalize valV p 0 ^ 2 = x at *
  generalize valV p 1 ^ 2 = y at *
  generalize valV p 2 ^ 2 = z at *
  have hθ0 := len3_nonneg' (valV p)
  generalize len3 (valV p) = θ at *
  have k1 := h.rel_tau (a + b)
  have n1 := h.nonneg (add_nonneg s0 s1)
  have k2 := h.rel_tau (r (a + b) + c)
  have n2 := h.nonneg (add_nonneg n1 s2)
  rw [← hn] at k2 n2
  rw [abs_of_nonneg (add_nonneg s0 s1)] at k1
  rw [abs_of_nonneg (add_nonneg n1 s2)] at k2
  have hθp : 0 < θ := lt_of_lt_of_le (by norm_num) hp
  have ht : tau ≤ θ ^ 2 * ulp / 1000 := by
    have h1 : tau ≤ 1e-75 := zpow_1074
    have h2 : (1e-20) ^ 2 ≤ θ ^ 2 := pow_le_pow_left₀ (by norm_num) hp 2
    have h3 : (1e-20) ^ 2 * ulp ≤ θ ^ 2 * ulp := mul_le_mul_of_nonneg_right h2 hu.le
    have h4 : (1e-75 : ℝ) ≤ (1e-20) ^ 2 * ulp / 1000 := by rw [ulp]; norm_num
    linarith
  have hT : 0 < θ ^ 2 := by positivity
  have hb : θ ^ 2 * ulp ≤ θ ^ 2 * (1 / 1000000000000000) := mul_le_mul_of_nonneg_left hu2 hT.le
  -- the sum of the squares
  have hq : |n - θ ^ 2| ≤ 4 * (θ ^ 2 * ulp) := by
    have e0 := abs_le.1 r0; have e1 := abs_le.1 r1; have e2 := abs_le.1 r2; have f1 := abs_le.1 k1; have f2 := abs_le.1 k2
    have x1 : x * ulp ≤ θ ^ 2 * ulp := mul_le_mul_of_nonneg_right (by linarith) hu.le
    have y1 : y * ulp ≤ θ ^ 2 * ulp := mul_le_mul_of_nonneg_right (by linarith) hu.le
    have z1 : z * ulp ≤ θ ^ 2 * ulp := mul_le_mul_of_nonneg_right (by linarith) hu.le
    have xyz : x * ulp + y * ulp + z * ulp = θ ^ 2 * ulp := by rw [hl]; ring
    have ab : a + b ≤ 11 / 10 * θ ^ 2 := by linarith
    have ab1 : (a + b) * ulp ≤ 11 / 10 * θ ^ 2 * ulp := mul_le_mul_of_nonneg_right ab hu.le
    have abc : r (a + b) + c ≤ 12 / 10 * θ ^ 2 := by linarith
    have abc1 : (r (a + b) + c) * ulp ≤ 12 / 10 * θ ^ 2 * ulp := mul_le_mul_of_nonneg_right abc hu.le
    rw [abs_le]; constructor <;> linarith
  have hq2 := Real.sq_sqrt n2
  have hqs := Real.sqrt_nonneg n
  have hw : |Real.sqrt n - θ| ≤ 4 * θ * ulp := by
    generalize Real.sqrt n = w at *
    rw [← hq2] at hq
    have e : |w - θ| * (w + θ) = |w ^ 2 - θ ^ 2| := by
      rw [show w ^ 2 - θ ^ 2 = (w - θ) * (w + θ) by ring, abs_mul, abs_of_nonneg (by linarith : 0 ≤ w + θ)]
    have k3 : |w - θ| * θ ≤ 4 * (θ ^ 2 * ulp) := by
      refine le_trans ?_ (e.le.trans hq)
      exact mul_le_mul_of_nonneg_left (by linarith) (abs_nonneg _)
    have k4 : |w - θ| * θ ≤ (4 * θ * ulp) * θ := by linarith
    exact le_of_mul_le_mul_right k4 hθp
  have k := h.step hw (show |θ| ≤ θ from (abs_of_nonneg hθ0).le) (le_trans (by norm_num) hp)
  refine k.trans ?_
  have : θ * ulp * ulp ≤ θ * ulp * (1 / 1000000000000000) := mul_le_mul_of_nonneg_left hu2 (by positivity)
  have : 0 ≤ θ * ulp := by positivity
  linarith

omit [Machine] in
theorem sq3_ge (h : Rounds53 r) (p : V3 (Rnd r)) (i : Fin 3) (hi : tau ≤ (p i * p i).val) : tau ≤ ((p 0 * p 0) + (p 1 * p 1) + (p 2 * p 2)).val := by
  rw [sq3_val]
  have hs : ∀ i, 0 ≤ (p i * p i).val := fun i => h.nonneg (mul_self_nonneg _)
  have g1 := h.nonneg (add_nonneg (hs 0) (hs 1))
  have s0 := hs 0; have s1 := hs 1; have s2 := hs 2
  have k : ∀ x, tau ≤ x → tau ≤ r x := fun x hx => h.le_pow (by norm_num) hx
  fin_cases i <;> simp only [Fin.zero_eta, Fin.mk_one, Fin.reduceFinMk] at hi
  · have := k ((p 0 * p 0).val + (p 1 * p 1).val) (by linarith)
    exact k _ (by linarith)
  · have := k ((p 0 * p 0).val + (p 1 * p 1).val) (by linarith)
    exact k _ (by linarith)
  · exact k _ (by linarith)

theorem mag3_low (h : Rounds53 r) (p : V3 (Rnd r)) (hm : tau ≤ ((p 0 * p 0) + (p 1 * p 1) + (p 2 * p 2)).val) : (2 : ℝ) ^ (-537 : ℤ) ≤ (mag3 p).val := by
  refine h.le_pow (by norm_num) (Real.le_sqrt_of_sq_le ?_)
  have : ((2 : ℝ) ^ (-537 : ℤ)) ^ 2 = tau := by rw [tau, ← zpow_natCast, ← _root_.zpow_mul]; norm_num
  rw [this]; exact hm

theorem mag3_tiny (h : Rounds53 r) (p : V3 (Rnd r)) (hs : len3 (valV p) ≤ 1e-20) : (mag3 p).val ≤ (2 : ℝ) ^ (-65 : ℤ) := by
  have hc : ∀ i, |(p i).val| ≤ 1e-20 := fun i => (le_len3 (valV p) i).trans hs
  have hp : ∀ i, |(p i * p i).val| ≤ (2 : ℝ) ^ (-132 : ℤ) := fun i => h.pow_le (by norm_num) (by
    rw [abs_mul]
    refine (mul_le_mul (hc i) (hc i) (abs_nonneg _) (by norm_num)).trans ?_
    rw [_root_.zpow_neg]; norm_num)
  have e1 : (2 : ℝ) ^ (-131 : ℤ) = 2 * (2 : ℝ) ^ (-132 : ℤ) := by rw [show (-131 : ℤ) = 1 + -132 by norm_num, zpow_add₀ (by norm_num)]; norm_num
  have e2 : (2 : ℝ) ^ (-130 : ℤ) = 2 * (2 : ℝ) ^ (-131 : ℤ) := by rw [show (-130 : ℤ) = 1 + -131 by norm_num, zpow_add₀ (by norm_num)]; norm_num
  have g1 : |r ((p 0 * p 0).val + (p 1 * p 1).val)| ≤ (2 : ℝ) ^ (-131 : ℤ) := h.pow_le (by norm_num) ((abs_add_le _ _).trans (by rw [e1]; linarith [hp 0, hp 1]))
  have g2 : |r (r ((p 0 * p 0).val + (p 1 * p 1).val) + (p 2 * p 2).val)| ≤ (2 : ℝ) ^ (-130 : ℤ) :=
    h.pow_le (by norm_num) ((abs_add_le _ _).trans (by
      have : (0 : ℝ) < (2 : ℝ) ^ (-132 : ℤ) := by positivity
      rw [e2]; linarith [hp 2]))
  rw [← sq3_val p] at g2
  refine (le_abs_self _).trans (h.pow_le (by norm_num) ?_)
  rw [abs_of_nonneg (Real.sqrt_nonneg _)]
  refine Real.sqrt_le_iff.2 ⟨by positivity, ?_⟩
  have : ((2 : ℝ) ^ (-65 : ℤ)) ^ 2 = (2 : ℝ) ^ (-130 : ℤ) := by rw [← zpow_natCast, ← _root_.zpow_mul]; norm_num
  rw [this]; exact (le_abs_self _).trans g2

/-- the computed quaternion of a rotation vector: the scalar part and the factor of the vector part -/
theorem rvq_parts (h : Rounds53 r) (p : V3 (Rnd r)) (hm : tau ≤ ((p 0 * p 0) + (p 1 * p 1) + (p 2 * p 2)).val) (hθ : 0 < len3 (valV p)) (h4 : len3 (valV p) ≤ 4) :
    |Machine.lib .cos (r ((mag3 p).val / 2)) 0 (Real.cos (r ((mag3 p).val / 2))) - Real.cos (len3 (valV p) / 2)| ≤ 20 * ulp ∧
    |r (r (1 / (mag3 p).val) * Machine.lib .sin (r ((mag3 p).val / 2)) 0 (Real.sin (r ((mag3 p).val / 2)))) - Real.sin (len3 (valV p) / 2) / len3 (valV p)| ≤ 11 * ulp := by
  have hu := ulp_pos
  have hu2 : ulp ≤ 1 / 1000000000000000 := by have := ulp_le; norm_num at this ⊢; exact this
  have low := mag3_low h p hm
  have hrel := mag3_rnd h p
  have htiny := mag3_tiny h p
  generalize (mag3 p).val = m at *
  generalize len3 (valV p) = θ at *
  have hm0 : 0 < m := lt_of_lt_of_le (by positivity) low
  have key : m ≤ 5 ∧ |m - θ| ≤ 29 * ulp ∧ |Real.sin (m / 2) / m - Real.sin (θ / 2) / θ| ≤ 8 * ulp := by
    rcases le_total 1e-20 θ with ht | ht
    · have k := hrel ht
      have kb : 7 * θ * ulp ≤ 7 * θ * (1 / 1000000000000000) := mul_le_mul_of_nonneg_left hu2 (by positivity)
      have k' := abs_le.1 k
      refine ⟨by linarith, k.trans (by nlinarith), (half_sinc hm0 hθ).trans ?_⟩
      rw [div_le_iff₀ hm0]
      refine k.trans ?_
      have : 7 * θ ≤ 8 * m := by linarith
      nlinarith
    · have k := htiny ht
      have e : (2 : ℝ) ^ (-65 : ℤ) ≤ 3e-20 := by rw [_root_.zpow_neg]; norm_num
      have hm2 : m ≤ 3e-20 := k.trans e
      have u3 : (4e-20 : ℝ) ≤ ulp := by rw [ulp]; norm_num
      refine ⟨by norm_num at *; linarith, ?_, ?_⟩
      · rw [abs_le]; constructor <;> norm_num at * <;> linarith
      · have k1 := half_sinc_tiny hm0 (hm2.trans (by norm_num))
        have k2 := half_sinc_tiny hθ (ht.trans (by norm_num))
        have e2 : Real.sin (m / 2) / m - Real.sin (θ / 2) / θ = (Real.sin (m / 2) / m - 1 / 2) - (Real.sin (θ / 2) / θ - 1 / 2) := by ring
        rw [e2]
        refine (abs_sub _ _).trans ?_
        norm_num at *; linarith
  obtain ⟨m5, hmθ, hsc⟩ := key
  constructor
  · have a1 : |r (m / 2) - m / 2| ≤ 3 * ulp := by
      have k := h.rel_tau (m / 2)
      rw [abs_of_pos (by positivity : 0 < m / 2)] at k
      have ht' : tau ≤ ulp / 1000 := by
        have : tau ≤ 1e-75 := zpow_1074
        refine this.trans ?_
        rw [ulp]; norm_num
      nlinarith
    have a2 : |Real.cos (r (m / 2)) - Real.cos (θ / 2)| ≤ 35 / 2 * ulp := by
      refine (Real.abs_cos_sub_cos_le _ _).trans ?_
      have e : r (m / 2) - θ / 2 = (r (m / 2) - m / 2) + (m - θ) / 2 := by ring
      rw [e]
      refine (abs_add_le _ _).trans ?_
      rw [abs_div, abs_two]; linarith
    have k := (Machine.faithful .cos (r (m / 2)) 0).step a2 (Real.abs_cos_le_one _)
    refine k.trans ?_
    nlinarith
  · have c := half_coef h (Machine.faithful .sin (r (m / 2)) 0) low (by linarith)
    have e : r (r (1 / m) * Machine.lib .sin (r (m / 2)) 0 (Real.sin (r (m / 2)))) - Real.sin (θ / 2) / θ
        = (r (r (1 / m) * Machine.lib .sin (r (m / 2)) 0 (Real.sin (r (m / 2)))) - Real.sin (m / 2) / m) + (Real.sin (m / 2) / m - Real.sin (θ / 2) / θ) := by ring
    rw [e]
    exact (abs_add_le _ _).trans (by linarith)

theorem lit_two (h : Rounds53 r) : (Flt.lit 2 : Rnd r).val = 2 := by
  show r ((2 : ℚ) : ℝ) = 2
  have := h.int 2 (by norm_num)
  norm_num at this ⊢; exact this

theorem rvq_val0 (h : Rounds53 r) (p : V3 (Rnd r)) : (rvqG p 0).val = Machine.lib .cos (r ((mag3 p).val / 2)) 0 (Real.cos (r ((mag3 p).val / 2))) := by
  rw [← lit_two h]; rfl

theorem rvq_val (h : Rounds53 r) (p : V3 (Rnd r)) (i : Fin 3) :
    (rvqG p i.succ).val = r (r (r (1 / (mag3 p).val) * Machine.lib .sin (r ((mag3 p).val / 2)) 0 (Real.sin (r ((mag3 p).val / 2)))) * (p i).val) := by
  have e : r (1 / (mag3 p).val) = (Flt.lit 1 / mag3 p).val := by rw [← Rnd.lit_one h]; rfl
  rw [e, ← lit_two h]
  fin_cases i <;> rfl

/-- no overflow: the finite doubles are those of the calculation without overflow -/
theorem rvq_dbl (h : Rounds53 r) (p : V3 (Rnd r)) (hm : tau ≤ ((p 0 * p 0) + (p 1 * p 1) + (p 2 * p 2)).val) (h4 : len3 (valV p) ≤ 4) (i : Fin 4) :
    Dbl.Sim (rvqG (dblV p) i) (rvqG p i) := by
  have hp : ∀ i, Bd (dblV p i) (p i) 2 := fun i => ⟨rfl, ((le_len3 (valV p) i).trans h4).trans (by norm_num)⟩
  have hq : ∀ i, Bd (dblV p i * dblV p i) (p i * p i) 4 := fun i => Bd.mul h (hp i) (hp i)
  have hn : Bd (dblV p 0 * dblV p 0 + dblV p 1 * dblV p 1 + dblV p 2 * dblV p 2) ((p 0 * p 0) + (p 1 * p 1) + (p 2 * p 2)) (2 * 3) :=
    Bd.add h (Bd.add h (hq 0) (hq 1)) ((hq 2).mono (by norm_num))
  have hmag : Bd (Flt.sqrt (dblV p 0 * dblV p 0 + dblV p 1 * dblV p 1 + dblV p 2 * dblV p 2)) (mag3 p) 3 := Bd.sqrt h hn (tau_pos.le.trans hm)
  have h2 : Dbl.Sim (Flt.lit 2 : Dbl r) (Flt.lit 2 : Rnd r) := Dbl.Sim.lit 2 (by rw [lit_two h]; norm_num)
  have hh := Bd.div (l := 0) h hmag h2 (by rw [lit_two h]; norm_num)
  have hs := Bd.sin h hh.sim
  have hr := Bd.div (l := 537) h (Bd.one h) hmag.sim (by
    have := mag3_low h p hm
    rw [_root_.zpow_neg] at this; exact this)
  have hc := Bd.mul h hr hs
  fin_cases i
  · exact (Bd.cos h hh.sim).sim
  · exact (Bd.mul h hc (hp 0)).sim
  · exact (Bd.mul h hc (hp 1)).sim
  · exact (Bd.mul h hc (hp 2)).sim

omit [Machine] in
theorem len3_mono {v w : Fin 3 → ℝ} (h : ∀ i, |v i| ≤ |w i|) : len3 v ≤ len3 w := by
  refine Real.sqrt_le_sqrt ?_
  have e : ∀ i, v i ^ 2 ≤ w i ^ 2 := fun i => sq_le_sq.2 (h i)
  linarith [e 0, e 1, e 2]

omit [Machine] in
theorem len3_abs (v : Fin 3 → ℝ) : len3 (fun i => |v i|) = len3 v := by simp [len3, sq_abs]

omit [Machine] in
/-- the length of a vector with nearby components -/
theorem len3_near {a b : Fin 3 → ℝ} {k t : ℝ} (hk : 0 ≤ k) (ht : 0 ≤ t) (h : ∀ i, |a i - b i| ≤ k * |b i| + t) :
    |len3 a - len3 b| ≤ k * len3 b + 2 * t := by
  have hd : len3 (a - b) ≤ k * len3 b + 2 * t := by
    have h1 : len3 (a - b) ≤ len3 ((k • fun i => |b i|) + fun _ => t) := len3_mono fun i => by
      simp only [Pi.sub_apply, Pi.add_apply, Pi.smul_apply, smul_eq_mul]
      exact (h i).trans (le_abs_self _)
    refine h1.trans ((Props.len3_add _ _).trans ?_)
    rw [Props.len3_smul, abs_of_nonneg hk, len3_abs]
    have := Props.len3_of_entries (v := fun _ => t) ht (fun _ => (abs_of_nonneg ht).le)
    linarith
  have h1 := Props.len3_add (a - b) b
  have h2 := Props.len3_add (b - a) a
  have h3 : len3 (b - a) = len3 (a - b) := by rw [← len3_abs (b - a), ← len3_abs (a - b)]; congr 1; funext i; exact abs_sub_comm _ _
  rw [sub_add_cancel] at h1 h2
  rw [abs_le]; constructor <;> linarith

theorem lit_neg_two (h : Rounds53 r) : (Flt.lit (-2) : Rnd r).val = -2 := by
  show r ((-2 : ℚ) : ℝ) = -2
  have := h.int (-2) (by norm_num)
  norm_num at this ⊢; exact this

set_option maxHeartbeats 1000000 in
/-- the second conversion above the cut-off: a vector of length `L` and the computed `-2 asin(length) · vector / length` -/
theorem back_core (h : Rounds53 r) (v : V3 (Rnd r)) (u : Fin 3 → ℝ) (huv : ∀ i, |(v i).val - u i| ≤ ulp * |u i| + tau) {L c : ℝ} (hL : len3 u = L)
    (h1 : 1e-6 ≤ L) (hc : c = Real.sqrt (1 - L ^ 2)) (hc1 : 1e-5 ≤ c) :
    |(vnorm v).val - L| ≤ 15 * ulp * L ∧ Dbl.Sim (vnorm (dblV v)) (vnorm v) ∧
    ∀ i, Aj (Flt.lit (-2) * Flt.asin (vnorm (dblV v)) * vdiv (dblV v) (vnorm (dblV v)) i) (Flt.lit (-2) * Flt.asin (vnorm v) * vdiv v (vnorm v) i)
      (-2 * Real.arcsin L * (u i / L)) (4.2e-14 / c) 3.2 := by
  have hu := ulp_pos
  have hu2 : ulp ≤ 2.23e-16 := by unfold ulp; norm_num
  have ht : tau ≤ 1e-75 := zpow_1074
  have ht0 := tau_pos
  have hL0 : 0 < L := lt_of_lt_of_le (by norm_num) h1
  have c0 : 0 < c := lt_of_lt_of_le (by norm_num) hc1
  have hcs : c ^ 2 = 1 - L ^ 2 := by
    rw [hc, Real.sq_sqrt]
    by_contra hn
    rw [hc, Real.sqrt_eq_zero_of_nonpos (by linarith)] at c0
    exact lt_irrefl _ c0
  have hL1 : L < 1 := by nlinarith
  have hcc : c ≤ 1 := by nlinarith
  have ulpL : (1e-74 : ℝ) ≤ ulp * L := by
    have : (1e-16 : ℝ) ≤ ulp := by unfold ulp; norm_num
    calc (1e-74 : ℝ) ≤ 1e-16 * 1e-6 := by norm_num
      _ ≤ _ := mul_le_mul this h1 (by norm_num) hu.le
  -- the length
  have n1 : |len3 (valV v) - L| ≤ 1.5 * (ulp * L) := by
    have := len3_near hu.le ht0.le (a := valV v) (b := u) huv
    rw [hL] at this
    refine this.trans ?_
    norm_num at *; linarith
  have ulpL2 : ulp * L ≤ 1e-15 * L := mul_le_mul_of_nonneg_right (hu2.trans (by norm_num)) hL0.le
  have n1' := abs_le.1 n1
  have n2 := vnorm_rnd h v (by norm_num at *; linarith)
  have nd := (vnorm_dbl h v (by norm_num at *; linarith)).sim
  have n3 : |(vnorm v).val - L| ≤ 15 * ulp * L := by
    have e := abs_add_le ((vnorm v).val - len3 (valV v)) (len3 (valV v) - L)
    rw [sub_add_sub_cancel] at e
    have k : 12 * len3 (valV v) * ulp ≤ 12 * (1.001 * L) * ulp := by
      refine mul_le_mul_of_nonneg_right ?_ hu.le
      norm_num at *; linarith
    norm_num at *; linarith
  refine ⟨n3, nd, fun i => ?_⟩
  -- the angle
  have hp : Real.arcsin L ∈ Set.Ioo (-(Real.pi / 2)) (Real.pi / 2) := ⟨by
    have := Real.neg_pi_div_two_lt_arcsin.2 (by linarith : -1 < L); exact this, Real.arcsin_lt_pi_div_two.2 hL1⟩
  have aL : Aj (vnorm (dblV v)) (vnorm v) (Real.sin (Real.arcsin L)) 3.4e-15 1 := by
    rw [Real.sin_arcsin (by linarith) hL1.le]
    refine ⟨nd, ⟨n3.trans ?_, by rw [abs_of_pos hL0]; exact hL1.le⟩⟩
    have : ulp * L ≤ 2.23e-16 * 1 := mul_le_mul hu2 hL1.le hL0.le (by norm_num)
    norm_num at *; linarith
  have hz1 : (1 : ℝ) ≤ 1 / c := by rw [le_div_iff₀ c0]; linarith
  have hz2 : 1 / c ≤ 1e6 := by rw [div_le_iff₀ c0]; norm_num at *; linarith
  have ez : ∀ k : ℝ, k / c = k * (1 / c) := fun k => by ring
  have aA := aL.asin h hp (c := c) (D := 1.1e-14 / c) (by rw [Real.cos_arcsin, ← hc])
    (le_trans (by norm_num) (pow_le_pow_left₀ (by norm_num) hc1 2)) c0
    (by rw [ez, ez (1.1e-14)]; generalize 1 / c = z at *; norm_num at *; linarith) (by rw [ez]; generalize 1 / c = z at *; norm_num at *; linarith)
  have two : Aj (Flt.lit (-2) : Dbl r) (Flt.lit (-2) : Rnd r) (-2) 0 2 :=
    ⟨.lit _ (by rw [lit_neg_two h]; norm_num), ⟨by rw [lit_neg_two h]; norm_num, by norm_num⟩⟩
  have aP := two.mul h aA (D := 2.4e-14 / c) (N := 3.2)
    (by rw [ez, ez (2.4e-14)]; generalize 1 / c = z at *; norm_num at *; linarith) (by norm_num)
    (hv := by rw [ez]; generalize 1 / c = z at *; norm_num at *; linarith)
  -- the axis
  have n3' := abs_le.1 n3
  have np : 0 < (vnorm v).val := by norm_num at *; linarith
  have vi : |(v i).val| ≤ 2 := (le_len3 (valV v) i).trans (by norm_num at *; linarith)
  have dS : Dbl.Sim (dblV v i / vnorm (dblV v)) (v i / vnorm v) :=
    (Bd.div (k := 1) (l := 20) h (⟨rfl, by simpa using vi⟩ : Bd (dblV v i) (v i) 1) nd (by norm_num at *; linarith)).sim
  have ui : |u i| ≤ L := by rw [← hL]; exact le_len3 u i
  have hQ : |u i / L| ≤ 1 := by rw [abs_div, abs_of_pos hL0, div_le_one hL0]; exact ui
  have q1 : |(v i).val / (vnorm v).val - u i / L| ≤ 18 * ulp := by
    have e : (v i).val / (vnorm v).val - u i / L = (((v i).val - u i) + u i / L * (L - (vnorm v).val)) / (vnorm v).val := by field_simp; ring
    rw [e, abs_div, abs_of_pos np, div_le_iff₀ np]
    have k1 : |u i / L * (L - (vnorm v).val)| ≤ 15 * ulp * L := by
      rw [abs_mul, abs_sub_comm]
      calc _ ≤ 1 * (15 * ulp * L) := mul_le_mul hQ n3 (abs_nonneg _) (by norm_num)
        _ = _ := one_mul _
    have k2 : |(v i).val - u i| ≤ 1.5 * (ulp * L) := by
      refine (huv i).trans ?_
      have := mul_le_mul_of_nonneg_left ui hu.le
      norm_num at *; linarith
    have k3 : ulp * (0.99 * L) ≤ ulp * (vnorm v).val := mul_le_mul_of_nonneg_left (by norm_num at *; linarith) hu.le
    refine (abs_add_le _ _).trans ?_
    norm_num at *; linarith
  have q2 := h.step q1 hQ
  have aQ : Aj (dblV v i / vnorm (dblV v)) (v i / vnorm v) (u i / L) 4.5e-15 1 := ⟨dS, ⟨q2.trans (by unfold ulp; norm_num), hQ⟩⟩
  exact aP.mul h aQ (D := 4.2e-14 / c) (N := 3.2) (by rw [ez, ez (4.2e-14)]; generalize 1 / c = z at *; norm_num at *; linarith) (by norm_num)
    (hv := by rw [ez]; generalize 1 / c = z at *; norm_num at *; linarith)

end NavFuse
