import Verif.Lemmas.AttitudeEval
import Verif.Props.Quaternion

/-! # C30-C33: rotation vectors and quaternion products -/

set_option linter.unusedSectionVars false
set_option linter.unusedSimpArgs false
set_option linter.unusedTactic false
set_option linter.unreachableTactic false

namespace NavFuse.Props
open Matrix Quaternion NavFuse.Spec NavFuse.Attitude NavFuse.XR

/-! ## C30 -/

theorem turn_neg (n : Fin 3 → ℝ) (θ : ℝ) (v : Fin 3 → ℝ) : turn (-n) θ v = turn n (-θ) v := by
  ext i
  simp only [turn, Real.cos_neg, Real.sin_neg, Pi.add_apply, Pi.smul_apply, smul_eq_mul, neg_dotProduct, Pi.neg_apply]
  fin_cases i <;> simp [cross_apply] <;> ring

/-- the half-angle quaternion of a unit axis turns backwards -/
theorem dcm_half_angle (n : Fin 3 → ℝ) (hn : n 0 ^ 2 + n 1 ^ 2 + n 2 ^ 2 = 1) (θ : ℝ) (v : Fin 3 → ℝ) :
    sq4 ![Real.cos (θ / 2), Real.sin (θ / 2) * n 0, Real.sin (θ / 2) * n 1, Real.sin (θ / 2) * n 2] = 1
    ∧ dcmG ![Real.cos (θ / 2), Real.sin (θ / 2) * n 0, Real.sin (θ / 2) * n 1, Real.sin (θ / 2) * n 2] *ᵥ v = turn n (-θ) v := by
  have hsc := Real.sin_sq_add_cos_sq (θ / 2)
  have hc : Real.cos θ = 2 * Real.cos (θ / 2) ^ 2 - 1 := by rw [← Real.cos_two_mul]; congr 1; ring
  have hs : Real.sin θ = 2 * Real.sin (θ / 2) * Real.cos (θ / 2) := by rw [← Real.sin_two_mul]; congr 1; ring
  have h1 : sq4 ![Real.cos (θ / 2), Real.sin (θ / 2) * n 0, Real.sin (θ / 2) * n 1, Real.sin (θ / 2) * n 2] = 1 := by
    simp [sq4]; linear_combination hsc + Real.sin (θ / 2) ^ 2 * hn
  refine ⟨h1, ?_⟩
  rw [dcmR, h1, inv_one, one_smul]
  generalize Real.cos (θ / 2) = c at *
  generalize Real.sin (θ / 2) = s at *
  ext i
  simp only [turn, Real.cos_neg, Real.sin_neg, Pi.add_apply, Pi.smul_apply, smul_eq_mul, hc, hs, mulVec, dotProduct, Fin.sum_univ_three]
  fin_cases i <;> simp [cross_apply]
  · linear_combination (2 * n 0 * (n 0 * v 0 + n 1 * v 1 + n 2 * v 2) - v 0) * hsc - v 0 * s ^ 2 * hn
  · linear_combination (2 * n 1 * (n 0 * v 0 + n 1 * v 1 + n 2 * v 2) - v 1) * hsc - v 1 * s ^ 2 * hn
  · linear_combination (2 * n 2 * (n 0 * v 0 + n 1 * v 1 + n 2 * v 2) - v 2) * hsc - v 2 * s ^ 2 * hn

theorem len3_pos {φ : Fin 3 → ℝ} (h : φ ≠ 0) : 0 < len3 φ := by
  apply Real.sqrt_pos.2
  by_contra hn
  apply h
  have h0 := sq_nonneg (φ 0); have h1 := sq_nonneg (φ 1); have h2 := sq_nonneg (φ 2)
  ext i; fin_cases i <;> simp <;> nlinarith

theorem len3_sq (φ : Fin 3 → ℝ) : len3 φ ^ 2 = φ 0 ^ 2 + φ 1 ^ 2 + φ 2 ^ 2 := Real.sq_sqrt (by positivity)

theorem unit_of {φ : Fin 3 → ℝ} (h : φ ≠ 0) :
    ((len3 φ)⁻¹ • φ) 0 ^ 2 + ((len3 φ)⁻¹ • φ) 1 ^ 2 + ((len3 φ)⁻¹ • φ) 2 ^ 2 = 1 := by
  have hp := len3_pos h
  have := len3_sq φ
  simp; field_simp; linarith

theorem rvq_R (φ : Fin 3 → ℝ) : rvqG φ = ![Real.cos (len3 φ / 2), Real.sin (len3 φ / 2) * ((len3 φ)⁻¹ • φ) 0,
    Real.sin (len3 φ / 2) * ((len3 φ)⁻¹ • φ) 1, Real.sin (len3 φ / 2) * ((len3 φ)⁻¹ • φ) 2] := by
  have : Real.sqrt (φ 0 * φ 0 + φ 1 * φ 1 + φ 2 * φ 2) = len3 φ := by simp [len3, sq]
  ext i; fin_cases i <;> simp [rvqG, rsimp, this] <;> ring

theorem rvq_finite (φ : Fin 3 → ℝ) (h : φ ≠ 0) : rvqG (finV φ) = finV (rvqG φ) := by
  have hl : Real.sqrt (φ 0 * φ 0 + φ 1 * φ 1 + φ 2 * φ 2) = len3 φ := by simp [len3, sq]
  have h0 : 0 ≤ φ 0 * φ 0 + φ 1 * φ 1 + φ 2 * φ 2 :=
    add_nonneg (add_nonneg (mul_self_nonneg _) (mul_self_nonneg _)) (mul_self_nonneg _)
  have hp := (len3_pos h).ne'
  ext i
  fin_cases i <;>
    simp [rvqG, xsimp, rsimp, X_sqrt _ h0, hl, fin_div _ _ hp, fin_div _ _ (two_ne_zero (α := ℝ))]

/-- C30, what does hold. (Full claim: for every rotation vector; missing: the zero vector.) For every non-zero rotation vector `φ`, in arithmetic
with NaN and infinities, `computeQuaternionFromRotationVec` returns a finite unit quaternion whose direction cosine matrix undoes the turn by
`φ` (it is the transposed Rodrigues matrix). -/
theorem C30_rotation_vector_partial (φ : Fin 3 → ℝ) (h : φ ≠ 0) (q0 : Fin 4 → XR) (R0 : M3 XR) :
    ∃ (q : Fin 4 → ℝ) (R : M3 ℝ), computeQuaternionFromRotationVec ⟨3, finV φ⟩ ⟨4, q0⟩ = .ok (true, ⟨4, finV q⟩) ∧ sq4 q = 1
      ∧ computeDcmFromQuaternion ⟨4, finV q⟩ ⟨3, 3, R0⟩ = .ok (true, ⟨3, 3, finM R⟩)
      ∧ (∀ v, R *ᵥ v = turn ((len3 φ)⁻¹ • φ) (-len3 φ) v) ∧ ∀ v, Rᵀ *ᵥ v = rotByVec φ v := by
  have hd := dcm_half_angle _ (unit_of h) (len3 φ)
  rw [← rvq_R] at hd
  have h1 : sq4 (rvqG φ) = 1 := (hd 0).1
  have hne : rvqG φ ≠ 0 := by intro h0; rw [h0] at h1; simp [sq4] at h1
  refine ⟨rvqG φ, dcmG (rvqG φ), by rw [rvq_eval, rvq_finite _ h], h1, C28_finite _ hne _, fun v => (hd v).2, fun v => ?_⟩
  -- the transposed matrix is the one of the opposite quaternion
  have hd' := dcm_half_angle _ (unit_of h) (-len3 φ)
  have hT : (dcmG (rvqG φ))ᵀ = dcmG ![Real.cos (-len3 φ / 2), Real.sin (-len3 φ / 2) * ((len3 φ)⁻¹ • φ) 0,
      Real.sin (-len3 φ / 2) * ((len3 φ)⁻¹ • φ) 1, Real.sin (-len3 φ / 2) * ((len3 φ)⁻¹ • φ) 2] := by
    rw [dcmR, dcmR, h1, (hd' 0).1, rvq_R, neg_div, Real.cos_neg, Real.sin_neg]
    ext i j; fin_cases i <;> fin_cases j <;> simp <;> ring
  rw [hT, (hd' v).2, neg_neg]; rfl

example : (![1, -2, 3] : Fin 3 → ℝ) ≠ 0 := fun h => by have := congrFun h 0; simp at this

/-- C30 is false for the code: the zero rotation vector gives NaN in the vector part instead of the identity quaternion, and `true`. -/
theorem C30_zero_vector_fails (q0 : Fin 4 → XR) :
    computeQuaternionFromRotationVec ⟨3, finV 0⟩ ⟨4, q0⟩ = .ok (true, ⟨4, ![fin 1, nan, nan, nan]⟩) := by
  rw [rvq_eval]
  suffices h : rvqG (finV 0) = ![fin 1, nan, nan, nan] by rw [h]
  ext i
  fin_cases i <;> simp [rvqG, xsimp, X_sqrt, fin_div _ _ (two_ne_zero (α := ℝ)), pos_div_zero]

/-! ## C31 -/

theorem vnorm_len3 (w : Fin 3 → ℝ) : vnorm w = len3 w := by
  rw [R_vnorm]; simp [len3, dotProduct, Fin.sum_univ_three, sq]

theorem len3_smul (s : ℝ) (w : Fin 3 → ℝ) : len3 (s • w) = |s| * len3 w := by
  simp only [len3, Pi.smul_apply, smul_eq_mul]
  rw [show (s * w 0) ^ 2 + (s * w 1) ^ 2 + (s * w 2) ^ 2 = s ^ 2 * (w 0 ^ 2 + w 1 ^ 2 + w 2 ^ 2) by ring, Real.sqrt_mul (sq_nonneg s),
    Real.sqrt_sq_eq_abs]

/-- the vector part with the sign chosen so that the scalar part is not negative -/
noncomputable def posVec (q : Fin 4 → ℝ) : Fin 3 → ℝ := if q 0 < 0 then -![q 1, q 2, q 3] else ![q 1, q 2, q 3]

theorem qrv_R (q : Fin 4 → ℝ) : qrvG q =
    if 1.0e-6 < len3 (posVec q) then (-2 * Real.arcsin (len3 (posVec q))) • ((len3 (posVec q))⁻¹ • posVec q) else 0 := by
  have hv : (if Flt.lt (q 0) (Flt.lit 0) then (fun i => (![q 1, q 2, q 3] : V3 ℝ) i * Flt.lit (-1)) else ![q 1, q 2, q 3]) = posVec q := by
    simp only [rsimp, posVec]
    split_ifs <;> (ext i; simp)
  simp only [qrvG]
  rw [hv]
  simp only [vnorm_len3, rsimp]
  split_ifs with h1
  · rfl
  · ext i; simp

/-- C31 is false for the code, in the strongest way: on the whole range of angles where the cut-off does not strike, the round trip returns the
*negated* rotation vector. (Full claim: it returns the rotation vector itself, for every angle up to π.) -/
theorem C31_round_trip_negates_fails (φ : Fin 3 → ℝ) (hpi : len3 φ ≤ Real.pi) (hcut : 1.0e-6 < Real.sin (len3 φ / 2)) (q0 : Fin 4 → ℝ)
    (p0 : Fin 3 → ℝ) :
    ∃ q p, computeQuaternionFromRotationVec ⟨3, φ⟩ ⟨4, q0⟩ = .ok (true, ⟨4, q⟩)
      ∧ computeRotationVecFromQuaternion ⟨4, q⟩ ⟨3, p0⟩ = .ok (true, ⟨3, p⟩) ∧ p = -φ ∧ p ≠ φ := by
  have hne : φ ≠ 0 := by
    rintro rfl; simp [len3] at hcut; norm_num at hcut
  have hp := len3_pos hne
  refine ⟨_, _, rvq_eval φ q0, qrv_eval _ _, ?_⟩
  have hc : 0 ≤ Real.cos (len3 φ / 2) := Real.cos_nonneg_of_mem_Icc ⟨by linarith, by linarith⟩
  have hs : 0 ≤ Real.sin (len3 φ / 2) := le_trans (by norm_num) hcut.le
  have hpv : posVec (rvqG φ) = Real.sin (len3 φ / 2) • ((len3 φ)⁻¹ • φ) := by
    rw [posVec, rvq_R, if_neg (by simpa using hc)]
    ext i; fin_cases i <;> simp
  have hl : len3 (posVec (rvqG φ)) = Real.sin (len3 φ / 2) := by
    rw [hpv, len3_smul, len3_smul, abs_of_nonneg hs, abs_of_pos (inv_pos.2 hp), inv_mul_cancel₀ hp.ne', mul_one]
  have hres : qrvG (rvqG φ) = -φ := by
    rw [qrv_R, hl, if_pos hcut, Real.arcsin_sin (by linarith) (by linarith), hpv]
    ext i
    have hs' : Real.sin (len3 φ / 2) ≠ 0 := ne_of_gt (lt_trans (by norm_num) hcut)
    simp; field_simp
  refine ⟨hres, ?_⟩
  rw [hres]
  intro h
  apply hne
  ext i
  have := congrFun h i
  simp at this ⊢
  linarith

/-- the hypotheses are met, for instance by the half turn about the first axis -/
example : len3 ![Real.pi, 0, 0] ≤ Real.pi ∧ 1.0e-6 < Real.sin (len3 ![Real.pi, 0, 0] / 2) := by
  have : len3 ![Real.pi, 0, 0] = Real.pi := by simp [len3, Real.sqrt_sq Real.pi_pos.le]
  rw [this, Real.sin_pi_div_two]; norm_num

/-- C31, what does hold: the round trip keeps the axis up to sign and the angle. (Full claim: it keeps the vector; missing: its sign.) -/
theorem C31_round_trip_up_to_sign_partial (φ : Fin 3 → ℝ) (hpi : len3 φ ≤ Real.pi) (hcut : 1.0e-6 < Real.sin (len3 φ / 2)) (q0 : Fin 4 → ℝ)
    (p0 : Fin 3 → ℝ) :
    ∃ q p, computeQuaternionFromRotationVec ⟨3, φ⟩ ⟨4, q0⟩ = .ok (true, ⟨4, q⟩)
      ∧ computeRotationVecFromQuaternion ⟨4, q⟩ ⟨3, p0⟩ = .ok (true, ⟨3, p⟩) ∧ len3 p = len3 φ ∧ (p = φ ∨ p = -φ) := by
  obtain ⟨q, p, h1, h2, h3, -⟩ := C31_round_trip_negates_fails φ hpi hcut q0 p0
  refine ⟨q, p, h1, h2, ?_, Or.inr h3⟩
  rw [h3]; simp [len3]

/-! ## C32 -/

/-- C32. For every unit quaternion whose vector part is longer than the cut-off, the returned rotation vector has length at most π, and turning by
it is exactly what the quaternion's direction cosine matrix does. -/
theorem C32_rotation_vector_reproduces_dcm (q : Fin 4 → ℝ) (hq : sq4 q = 1) (hcut : 1.0e-6 < len3 ![q 1, q 2, q 3]) (p0 : Fin 3 → ℝ) (R0 : M3 ℝ) :
    ∃ p R, computeRotationVecFromQuaternion ⟨4, q⟩ ⟨3, p0⟩ = .ok (true, ⟨3, p⟩) ∧ computeDcmFromQuaternion ⟨4, q⟩ ⟨3, 3, R0⟩ = .ok (true, ⟨3, 3, R⟩)
      ∧ len3 p ≤ Real.pi ∧ ∀ v, R *ᵥ v = rotByVec p v := by
  refine ⟨_, _, qrv_eval _ _, dcm_eval _ _, ?_⟩
  have hl : len3 (posVec q) = len3 ![q 1, q 2, q 3] := by
    unfold posVec; split_ifs
    · rw [← neg_one_smul ℝ, len3_smul]; simp
    · rfl
  set w := posVec q with hw
  set L := len3 ![q 1, q 2, q 3]
  have hL0 : 0 < L := lt_trans (by norm_num) hcut
  have hwne : w ≠ 0 := by intro h; rw [h] at hl; simp [len3] at hl; linarith
  have hL2 : L ^ 2 = q 1 ^ 2 + q 2 ^ 2 + q 3 ^ 2 := by rw [len3_sq]; simp
  have hq0 : q 0 ^ 2 + L ^ 2 = 1 := by rw [hL2]; simp only [sq4] at hq; linarith
  have hL1 : L ≤ 1 := by nlinarith [sq_nonneg (q 0)]
  have has : 0 < Real.arcsin L := Real.arcsin_pos.2 hL0
  have hle : Real.arcsin L ≤ Real.pi / 2 := Real.arcsin_le_pi_div_two L
  have hres : qrvG q = (-2 * Real.arcsin L) • (L⁻¹ • w) := by rw [qrv_R, ← hw, hl, if_pos hcut]
  have hlen : len3 (qrvG q) = 2 * Real.arcsin L := by
    rw [hres, len3_smul, len3_smul, hl, abs_of_pos (inv_pos.2 hL0), inv_mul_cancel₀ hL0.ne', mul_one, abs_of_neg (by linarith)]; ring
  refine ⟨by rw [hlen]; linarith, fun v => ?_⟩
  have hdir : (len3 (qrvG q))⁻¹ • qrvG q = -(L⁻¹ • w) := by
    rw [hlen, hres]; ext i; simp; field_simp
  have hu : (L⁻¹ • w) 0 ^ 2 + (L⁻¹ • w) 1 ^ 2 + (L⁻¹ • w) 2 ^ 2 = 1 := by
    have := unit_of hwne; rwa [hl] at this
  rw [rotByVec, hdir, turn_neg, ← (dcm_half_angle _ hu (len3 (qrvG q)) v).2, hlen, mul_div_cancel_left₀ _ two_ne_zero, Real.sin_arcsin (by linarith) hL1,
    Real.cos_arcsin, show 1 - L ^ 2 = q 0 ^ 2 by linarith, Real.sqrt_sq_eq_abs]
  -- the two quaternions agree up to sign
  congr 1
  by_cases hneg : q 0 < 0
  · have hq' : q = (-1 : ℝ) • ![|q 0|, L * (L⁻¹ • w) 0, L * (L⁻¹ • w) 1, L * (L⁻¹ • w) 2] := by
      have hL := hL0.ne'
      ext i
      fin_cases i <;> simp [hw, posVec, hneg, abs_of_neg hneg, hL]
    have := C28_direction_only ![|q 0|, L * (L⁻¹ • w) 0, L * (L⁻¹ • w) 1, L * (L⁻¹ • w) 2] (-1) (by norm_num) 0
    rw [← hq', dcm_eval, dcm_eval] at this
    simpa using this
  · have hq' : q = ![|q 0|, L * (L⁻¹ • w) 0, L * (L⁻¹ • w) 1, L * (L⁻¹ • w) 2] := by
      have hL := hL0.ne'
      ext i
      fin_cases i <;> simp [hw, posVec, hneg, abs_of_nonneg (not_lt.1 hneg), hL]
    rw [← hq']

/-- C32 (below the cut-off). The returned vector is zero, and that is within 4e-6 of the truth in every matrix entry. -/
theorem C32_cutoff_error (q : Fin 4 → ℝ) (hq : sq4 q = 1) (hcut : len3 ![q 1, q 2, q 3] ≤ 1.0e-6) (p0 : Fin 3 → ℝ) (R0 : M3 ℝ) :
    ∃ R, computeRotationVecFromQuaternion ⟨4, q⟩ ⟨3, p0⟩ = .ok (true, ⟨3, 0⟩) ∧ computeDcmFromQuaternion ⟨4, q⟩ ⟨3, 3, R0⟩ = .ok (true, ⟨3, 3, R⟩)
      ∧ ∀ i j, |R i j - (1 : M3 ℝ) i j| ≤ 4.0e-6 := by
  have hl : len3 (posVec q) = len3 ![q 1, q 2, q 3] := by
    unfold posVec; split_ifs
    · rw [← neg_one_smul ℝ, len3_smul]; simp
    · rfl
  refine ⟨dcmG q, ?_, dcm_eval _ _, ?_⟩
  · rw [qrv_eval, qrv_R, hl, if_neg (not_lt.2 hcut)]
  · have hL2 : len3 ![q 1, q 2, q 3] ^ 2 = q 1 ^ 2 + q 2 ^ 2 + q 3 ^ 2 := by rw [len3_sq]; simp
    have hL0 : 0 ≤ len3 ![q 1, q 2, q 3] := Real.sqrt_nonneg _
    generalize len3 ![q 1, q 2, q 3] = L at *
    have hLL : q 1 ^ 2 + q 2 ^ 2 + q 3 ^ 2 ≤ 1.0e-6 ^ 2 := by rw [← hL2]; exact pow_le_pow_left₀ hL0 hcut 2
    rw [dcmR, hq, inv_one, one_smul]
    simp only [sq4] at hq
    have b : ∀ x : ℝ, x ^ 2 ≤ 1.0e-6 ^ 2 → |x| ≤ 1.0e-6 := fun x hx => abs_le_of_sq_le_sq hx (by norm_num)
    have b1 := abs_le.1 (b (q 1) (by nlinarith [sq_nonneg (q 2), sq_nonneg (q 3)]))
    have b2 := abs_le.1 (b (q 2) (by nlinarith [sq_nonneg (q 1), sq_nonneg (q 3)]))
    have b3 := abs_le.1 (b (q 3) (by nlinarith [sq_nonneg (q 2), sq_nonneg (q 1)]))
    have b0 : |q 0| ≤ 1 := abs_le_of_sq_le_sq (by nlinarith [sq_nonneg (q 1), sq_nonneg (q 2), sq_nonneg (q 3)]) (by norm_num)
    have hx : ∀ x : ℝ, |x| ≤ 1.0e-6 → |q 0 * x| ≤ 1.0e-6 := fun x h => by
      rw [abs_mul]; calc |q 0| * |x| ≤ 1 * 1.0e-6 := mul_le_mul b0 h (abs_nonneg x) (by norm_num)
        _ = _ := one_mul _
    have c1 := abs_le.1 (hx (q 1) (abs_le.2 b1)); have c2 := abs_le.1 (hx (q 2) (abs_le.2 b2)); have c3 := abs_le.1 (hx (q 3) (abs_le.2 b3))
    have hy : ∀ x y : ℝ, |x| ≤ 1.0e-6 → |y| ≤ 1.0e-6 → |x * y| ≤ 1.0e-6 := fun x y h k => by
      rw [abs_mul]; calc |x| * |y| ≤ 1 * 1.0e-6 := mul_le_mul (le_trans h (by norm_num)) k (abs_nonneg y) (by norm_num)
        _ = _ := one_mul _
    have d12 := abs_le.1 (hy _ _ (abs_le.2 b1) (abs_le.2 b2)); have d13 := abs_le.1 (hy _ _ (abs_le.2 b1) (abs_le.2 b3))
    have d23 := abs_le.1 (hy _ _ (abs_le.2 b2) (abs_le.2 b3))
    have s1 := sq_nonneg (q 1); have s2 := sq_nonneg (q 2); have s3 := sq_nonneg (q 3)
    norm_num at hLL b1 b2 b3 c1 c2 c3 d12 d13 d23 ⊢
    obtain ⟨c1, c1'⟩ := c1; obtain ⟨c2, c2'⟩ := c2; obtain ⟨c3, c3'⟩ := c3
    obtain ⟨d12, d12'⟩ := d12; obtain ⟨d13, d13'⟩ := d13; obtain ⟨d23, d23'⟩ := d23
    intro i j
    rw [abs_le]
    fin_cases i <;> fin_cases j <;> simp <;> constructor <;> linarith

example : sq4 ![3 / 5, 0, 4 / 5, 0] = 1 ∧ 1.0e-6 < len3 ![0, 4 / 5, 0] := by
  constructor
  · simp [sq4]; norm_num
  · have : len3 ![0, 4 / 5, 0] = 4 / 5 := by simp [len3]; rw [Real.sqrt_sq (by norm_num)]
    rw [this]; norm_num

/-! ## C33 -/

/-- C33. The matrix built from `p`, applied to `q`, is the Hamilton product `p q`; the matrix of a product is the product of the matrices. -/
theorem C33_quaternion_product (p q : Fin 4 → ℝ) (P0 Q0 : Matrix (Fin 4) (Fin 4) ℝ) :
    ∃ P Q, buildQuaternionEquivalent ⟨4, p⟩ ⟨4, 4, P0⟩ = .ok (true, ⟨4, 4, P⟩) ∧ buildQuaternionEquivalent ⟨4, q⟩ ⟨4, 4, Q0⟩ = .ok (true, ⟨4, 4, Q⟩)
      ∧ toQ (P *ᵥ q) = toQ p * toQ q
      ∧ buildQuaternionEquivalent ⟨4, P *ᵥ q⟩ ⟨4, 4, P0⟩ = .ok (true, ⟨4, 4, P * Q⟩) := by
  refine ⟨_, _, qeq_eval _ _, qeq_eval _ _, ?_, ?_⟩
  · ext <;> simp [qeqG, mulVec, dotProduct, Fin.sum_univ_four] <;> ring
  · rw [qeq_eval]
    suffices h : qeqG (qeqG p *ᵥ q) = qeqG p * qeqG q by rw [h]
    ext i j
    fin_cases i <;> fin_cases j <;> simp [qeqG, mul_apply, mulVec, dotProduct, Fin.sum_univ_four] <;> ring

/-- C33 (direction cosine matrices of products). The matrix of `p q` is the matrix of `q` times the matrix of `p`. -/
theorem C33_dcm_composition (p q : Fin 4 → ℝ) (hp : p ≠ 0) (hq : q ≠ 0) (P0 : Matrix (Fin 4) (Fin 4) ℝ) (R0 : M3 ℝ) :
    ∃ P Rp Rq, buildQuaternionEquivalent ⟨4, p⟩ ⟨4, 4, P0⟩ = .ok (true, ⟨4, 4, P⟩)
      ∧ computeDcmFromQuaternion ⟨4, p⟩ ⟨3, 3, R0⟩ = .ok (true, ⟨3, 3, Rp⟩) ∧ computeDcmFromQuaternion ⟨4, q⟩ ⟨3, 3, R0⟩ = .ok (true, ⟨3, 3, Rq⟩)
      ∧ computeDcmFromQuaternion ⟨4, P *ᵥ q⟩ ⟨3, 3, R0⟩ = .ok (true, ⟨3, 3, Rq * Rp⟩) := by
  refine ⟨_, _, _, qeq_eval _ _, dcm_eval _ _, dcm_eval _ _, ?_⟩
  rw [dcm_eval]
  suffices h : dcmG (qeqG p *ᵥ q) = dcmG q * dcmG p by rw [h]
  have hs : sq4 (qeqG p *ᵥ q) = sq4 p * sq4 q := by
    simp [sq4, qeqG, mulVec, dotProduct, Fin.sum_univ_four]; ring
  have h1 := (sq4_pos hp).ne'
  have h2 := (sq4_pos hq).ne'
  rw [dcmR, dcmR, dcmR, hs]
  ext i j
  fin_cases i <;> fin_cases j <;> simp [qeqG, mul_apply, mulVec, dotProduct, Fin.sum_univ_three, Fin.sum_univ_four] <;> field_simp <;> ring

end NavFuse.Props
