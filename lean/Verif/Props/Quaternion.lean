import Verif.Lemmas.AttitudeEval
import Mathlib.Tactic.Module

/-! # C28-C33: quaternions, direction cosine matrices, rotation vectors -/

set_option linter.unusedSectionVars false
set_option linter.unusedSimpArgs false
set_option linter.unusedTactic false
set_option linter.unreachableTactic false

namespace NavFuse.Props
open Matrix Quaternion NavFuse.Spec NavFuse.Attitude NavFuse.XR

/-! ## C28 -/

/-- C28. For every non-zero quaternion `computeDcmFromQuaternion` succeeds with a proper rotation matrix, and the rotation is `v ↦ q⁻¹ v q`
(Mathlib's quaternions). -/
theorem C28_dcm_is_rotation (q : Fin 4 → ℝ) (hq : q ≠ 0) (R0 : M3 ℝ) :
    ∃ R, computeDcmFromQuaternion ⟨4, q⟩ ⟨3, 3, R0⟩ = .ok (true, ⟨3, 3, R⟩) ∧ IsRot R
      ∧ ∀ v, pureQ (R *ᵥ v) = (toQ q)⁻¹ * pureQ v * toQ q := by
  refine ⟨_, dcm_eval q R0, dcm_isRot hq, fun v => ?_⟩
  have hs := (sq4_pos hq).ne'
  rw [inv_toQ, dcmR]
  ext <;> simp [mulVec, dotProduct, Fin.sum_univ_three] <;> field_simp <;> ring

/-- C28 (the quaternion's length and sign do not matter). -/
theorem C28_direction_only (q : Fin 4 → ℝ) (s : ℝ) (hs : s ≠ 0) (R0 : M3 ℝ) :
    computeDcmFromQuaternion ⟨4, s • q⟩ ⟨3, 3, R0⟩ = computeDcmFromQuaternion ⟨4, q⟩ ⟨3, 3, R0⟩ := by
  rw [dcm_eval, dcm_eval]
  suffices h : dcmG (s • q) = dcmG q by rw [h]
  rw [dcmR, dcmR]
  have : sq4 (s • q) = s ^ 2 * sq4 q := by simp [sq4]; ring
  rw [this, mul_inv]
  ext i j
  fin_cases i <;> fin_cases j <;> simp [-mul_eq_mul_left_iff] <;> field_simp <;> ring

/-- C28 (finite results). In arithmetic with NaN and infinities the result is the finite matrix of C28. -/
theorem C28_finite (q : Fin 4 → ℝ) (hq : q ≠ 0) (R0 : M3 XR) :
    computeDcmFromQuaternion ⟨4, finV q⟩ ⟨3, 3, R0⟩ = .ok (true, ⟨3, 3, finM (dcmG q)⟩) := by
  rw [dcm_eval]
  have hs : q 0 * q 0 + q 1 * q 1 + q 2 * q 2 + q 3 * q 3 ≠ 0 := by
    have := (sq4_pos hq).ne'; intro h; apply this; rw [← h]; simp [sq4]; ring
  suffices h : dcmG (finV q) = finM (dcmG q) by rw [h]
  ext i j
  fin_cases i <;> fin_cases j <;> simp [dcmG, xsimp, rsimp, fin_div _ _ hs]

/-- C28 (boundary): the zero quaternion gives NaN in every entry of the diagonal, and `true`. -/
theorem C28_zero_quaternion_nan (R0 : M3 XR) :
    ∃ R, computeDcmFromQuaternion ⟨4, finV 0⟩ ⟨3, 3, R0⟩ = .ok (true, ⟨3, 3, R⟩) ∧ ∀ i j, R i j = nan := by
  refine ⟨_, dcm_eval _ _, fun i j => ?_⟩
  fin_cases i <;> fin_cases j <;> simp [dcmG, xsimp]

example : (![1, 2, 3, 4] : Fin 4 → ℝ) ≠ 0 := fun h => by have := congrFun h 0; simp at this

/-! ## C29 -/

/-- four times the matrix of products `q i * q j`, expressed by the rotation matrix -/
def prodM (R : M3 ℝ) : Matrix (Fin 4) (Fin 4) ℝ :=
  !![1 + R 0 0 + R 1 1 + R 2 2, R 1 2 - R 2 1, R 2 0 - R 0 2, R 0 1 - R 1 0;
     R 1 2 - R 2 1, 1 + R 0 0 - R 1 1 - R 2 2, R 0 1 + R 1 0, R 2 0 + R 0 2;
     R 2 0 - R 0 2, R 0 1 + R 1 0, 1 - R 0 0 + R 1 1 - R 2 2, R 1 2 + R 2 1;
     R 0 1 - R 1 0, R 2 0 + R 0 2, R 1 2 + R 2 1, 1 - R 0 0 - R 1 1 + R 2 2]

theorem prodM_rank_one {R : M3 ℝ} (h : IsRot R) (k i j : Fin 4) : prodM R k i * prodM R k j = prodM R k k * prodM R i j := by
  obtain ⟨c00, c01, c02, c10, c11, c12, c20, c21, c22⟩ := h.cof
  have r00 := h.rows 0 0; have r01 := h.rows 0 1; have r02 := h.rows 0 2
  have r11 := h.rows 1 1; have r12 := h.rows 1 2; have r22 := h.rows 2 2
  have k00 := h.cols 0 0; have k01 := h.cols 0 1; have k02 := h.cols 0 2
  have k11 := h.cols 1 1; have k12 := h.cols 1 2; have k22 := h.cols 2 2
  simp at r00 r01 r02 r11 r12 r22 k00 k01 k02 k11 k12 k22
  simp only [prodM]
  generalize R 0 0 = a at *; generalize R 0 1 = b at *; generalize R 0 2 = c at *
  generalize hd : R 1 0 = d at *; generalize R 1 1 = e at *; generalize R 1 2 = f at *
  generalize R 2 0 = g at *; generalize R 2 1 = p at *; generalize R 2 2 = q at *
  fin_cases k <;> fin_cases i <;> fin_cases j <;> simp [-mul_eq_mul_left_iff, -mul_eq_mul_right_iff] <;> grind

/-- products of the components determine the rotation -/
theorem dcm_of_products {R : M3 ℝ} {q : Fin 4 → ℝ} (h : ∀ i j, q i * q j = prodM R i j / 4) : sq4 q = 1 ∧ dcmG q = R := by
  have h00 := h 0 0; have h01 := h 0 1; have h02 := h 0 2; have h03 := h 0 3; have h11 := h 1 1; have h12 := h 1 2; have h13 := h 1 3
  have h22 := h 2 2; have h23 := h 2 3; have h33 := h 3 3
  simp [prodM] at h00 h01 h02 h03 h11 h12 h13 h22 h23 h33
  have h1 : sq4 q = 1 := by simp only [sq4, sq]; linarith
  refine ⟨h1, ?_⟩
  rw [dcmR, h1, inv_one, one_smul]
  ext i j
  fin_cases i <;> fin_cases j <;> simp [sq] <;> linarith

/-- The rotation matrices on which the branch selection of `computeQuaternionFromDcm` is unambiguous: the squared first, second or third
quaternion component (each given by the diagonal of `R`) strictly exceeds the other three, or the fourth is not zero. -/
def Regular (R : M3 ℝ) : Prop :=
  (∃ k : Fin 4, k ≠ 3 ∧ ∀ i, i ≠ k → prodM R i i < prodM R k k) ∨ prodM R 3 3 ≠ 0

theorem prodM_nonneg {R : M3 ℝ} (h : IsRot R) (k : Fin 4) : 0 ≤ prodM R k k := by
  obtain ⟨c00, c01, c02, c10, c11, c12, c20, c21, c22⟩ := h.cof
  have r00 := h.rows 0 0; have r11 := h.rows 1 1; have r22 := h.rows 2 2
  simp at r00 r11 r22
  -- the trace is 4, and every off-diagonal square is a product of diagonal entries
  have hsum : prodM R 0 0 + prodM R 1 1 + prodM R 2 2 + prodM R 3 3 = 4 := by simp [prodM]; ring
  have key : prodM R k 0 ^ 2 + prodM R k 1 ^ 2 + prodM R k 2 ^ 2 + prodM R k 3 ^ 2 = 4 * prodM R k k := by
    have e : ∀ i, prodM R k i ^ 2 = prodM R k k * prodM R i i := fun i => by rw [sq, prodM_rank_one h]
    rw [e, e, e, e, ← mul_add, ← mul_add, ← mul_add, hsum]; ring
  nlinarith [sq_nonneg (prodM R k 0), sq_nonneg (prodM R k 1), sq_nonneg (prodM R k 2), sq_nonneg (prodM R k 3)]

theorem prodM_trace (R : M3 ℝ) : prodM R 0 0 + prodM R 1 1 + prodM R 2 2 + prodM R 3 3 = 4 := by simp [prodM]; ring

/-- on a regular rotation one of the four formulas with non-zero divisor is used -/
theorem quatG_regular {R : M3 ℝ} (h : IsRot R) (hr : Regular R) :
    ∃ k, 0 < prodM R k k ∧ (∀ i, quatG R i = prodM R k i * (1 / (4 * Real.sqrt (prodM R k k / 4)))) ∧ quatG (finM R) = finV (quatG R) := by
  have htr := prodM_trace R
  have e0 : (0.25 : ℝ) * (1 + R 0 0 + R 1 1 + R 2 2) = prodM R 0 0 / 4 := by simp [prodM]; ring
  have e1 : (0.25 : ℝ) * (1 + R 0 0 - R 1 1 - R 2 2) = prodM R 1 1 / 4 := by simp [prodM]; ring
  have e2 : (0.25 : ℝ) * (1 - R 0 0 + R 1 1 - R 2 2) = prodM R 2 2 / 4 := by simp [prodM]; ring
  have e3 : (0.25 : ℝ) * (1 - R 0 0 - R 1 1 + R 2 2) = prodM R 3 3 / 4 := by simp [prodM]; ring
  have hl : ∀ x y : ℝ, x / 4 < y / 4 ↔ x < y := fun x y => by constructor <;> intro h <;> linarith
  have div4 : ∀ x : ℝ, 0 < x → (4 : ℝ) * Real.sqrt (x / 4) ≠ 0 := fun x hx => by positivity
  have sq4' : ∀ x : ℝ, 0 < x → (4 : ℝ) * Real.sqrt (x / 4) ^ 2 = x := fun x hx => by rw [Real.sq_sqrt (by positivity)]; ring
  by_cases b0 : prodM R 1 1 < prodM R 0 0 ∧ prodM R 2 2 < prodM R 0 0 ∧ prodM R 3 3 < prodM R 0 0
  · have hp : 0 < prodM R 0 0 := by linarith [b0.1, b0.2.1, b0.2.2]
    have hR : ∀ i, quatG R i = prodM R 0 i * (1 / (4 * Real.sqrt (prodM R 0 0 / 4))) := by
      intro i
      simp only [quatG, rsimp, e0, e1, e2, e3, Bool.and_eq_true, hl, b0, and_self, if_true, sq4' _ hp]
      fin_cases i <;> simp [prodM]
    refine ⟨0, hp, hR, ?_⟩
    ext i
    simp only [finV_apply, hR]
    simp only [quatG, xsimp, e0, e1, e2, e3, Bool.and_eq_true, rsimp, hl, b0, and_self, if_true, X_sqrt _ (le_of_lt (div_pos hp four_pos)),
      fin_div _ _ (div4 _ hp), sq4' _ hp]
    fin_cases i <;> simp [prodM, xsimp]
  by_cases b1 : prodM R 0 0 < prodM R 1 1 ∧ prodM R 2 2 < prodM R 1 1 ∧ prodM R 3 3 < prodM R 1 1
  · have hp : 0 < prodM R 1 1 := by linarith [b1.1, b1.2.1, b1.2.2]
    have hR : ∀ i, quatG R i = prodM R 1 i * (1 / (4 * Real.sqrt (prodM R 1 1 / 4))) := by
      intro i
      simp only [quatG, rsimp, e0, e1, e2, e3, Bool.and_eq_true, hl, and_assoc, b0, b1, and_self, if_true, if_false, sq4' _ hp]
      fin_cases i <;> simp [prodM]
    refine ⟨1, hp, hR, ?_⟩
    ext i
    simp only [finV_apply, hR]
    simp only [quatG, xsimp, e0, e1, e2, e3, Bool.and_eq_true, rsimp, hl, and_assoc, b0, b1, and_self, if_true, if_false, X_sqrt _ (le_of_lt (div_pos hp four_pos)),
      fin_div _ _ (div4 _ hp), sq4' _ hp]
    fin_cases i <;> simp [prodM, xsimp]
  by_cases b2 : prodM R 0 0 < prodM R 2 2 ∧ prodM R 1 1 < prodM R 2 2 ∧ prodM R 3 3 < prodM R 2 2
  · have hp : 0 < prodM R 2 2 := by linarith [b2.1, b2.2.1, b2.2.2]
    have hR : ∀ i, quatG R i = prodM R 2 i * (1 / (4 * Real.sqrt (prodM R 2 2 / 4))) := by
      intro i
      simp only [quatG, rsimp, e0, e1, e2, e3, Bool.and_eq_true, hl, and_assoc, b0, b1, b2, and_self, if_true, if_false, sq4' _ hp]
      fin_cases i <;> simp [prodM]
    refine ⟨2, hp, hR, ?_⟩
    ext i
    simp only [finV_apply, hR]
    simp only [quatG, xsimp, e0, e1, e2, e3, Bool.and_eq_true, rsimp, hl, and_assoc, b0, b1, b2, and_self, if_true, if_false, X_sqrt _ (le_of_lt (div_pos hp four_pos)),
      fin_div _ _ (div4 _ hp), sq4' _ hp]
    fin_cases i <;> simp [prodM, xsimp]
  · have hp : 0 < prodM R 3 3 := by
      rcases hr with ⟨k, hk3, hk⟩ | hr
      · fin_cases k
        · exact absurd ⟨hk 1 (by decide), hk 2 (by decide), hk 3 (by decide)⟩ b0
        · exact absurd ⟨hk 0 (by decide), hk 2 (by decide), hk 3 (by decide)⟩ b1
        · exact absurd ⟨hk 0 (by decide), hk 1 (by decide), hk 3 (by decide)⟩ b2
        · exact absurd rfl hk3
      · exact lt_of_le_of_ne (prodM_nonneg h 3) (Ne.symm hr)
    have hR : ∀ i, quatG R i = prodM R 3 i * (1 / (4 * Real.sqrt (prodM R 3 3 / 4))) := by
      intro i
      simp only [quatG, rsimp, e0, e1, e2, e3, Bool.and_eq_true, hl, and_assoc, b0, b1, b2, and_self, if_true, if_false, sq4' _ hp]
      fin_cases i <;> simp [prodM]
    refine ⟨3, hp, hR, ?_⟩
    ext i
    simp only [finV_apply, hR]
    simp only [quatG, xsimp, e0, e1, e2, e3, Bool.and_eq_true, rsimp, hl, and_assoc, b0, b1, b2, and_self, if_true, if_false, X_sqrt _ (le_of_lt (div_pos hp four_pos)),
      fin_div _ _ (div4 _ hp), sq4' _ hp]
    fin_cases i <;> simp [prodM, xsimp]

theorem quatG_products {R : M3 ℝ} (h : IsRot R) (hr : Regular R) (i j : Fin 4) : quatG R i * quatG R j = prodM R i j / 4 := by
  obtain ⟨k, hk, hq, -⟩ := quatG_regular h hr
  rw [hq, hq]
  have hs : 0 < Real.sqrt (prodM R k k / 4) := Real.sqrt_pos.2 (by positivity)
  have hss : Real.sqrt (prodM R k k / 4) ^ 2 = prodM R k k / 4 := Real.sq_sqrt (by positivity)
  have := prodM_rank_one h k i j
  field_simp
  rw [hss, this]; ring

/-- C29, what does hold. (Full claim: for every rotation matrix; missing: the matrices that are not `Regular`.) For every regular rotation matrix,
in arithmetic with NaN and infinities, `computeQuaternionFromDcm` returns a finite unit quaternion, and converting it back with
`computeDcmFromQuaternion` returns exactly the matrix. -/
theorem C29_round_trip_partial (R : M3 ℝ) (h : IsRot R) (hr : Regular R) (q0 : Fin 4 → XR) (R0 : M3 XR) :
    ∃ q : Fin 4 → ℝ, computeQuaternionFromDcm ⟨3, 3, finM R⟩ ⟨4, q0⟩ = .ok (true, ⟨4, finV q⟩) ∧ sq4 q = 1
      ∧ computeDcmFromQuaternion ⟨4, finV q⟩ ⟨3, 3, R0⟩ = .ok (true, ⟨3, 3, finM R⟩)
      ∧ ∀ v, pureQ (R *ᵥ v) = (toQ q)⁻¹ * pureQ v * toQ q := by
  obtain ⟨k, -, -, hX⟩ := quatG_regular h hr
  obtain ⟨h1, h2⟩ := dcm_of_products (quatG_products h hr)
  have hne : quatG R ≠ 0 := by intro h0; rw [h0] at h1; simp [sq4] at h1
  refine ⟨quatG R, by rw [quat_eval, hX], h1, by rw [C28_finite _ hne, h2], fun v => ?_⟩
  obtain ⟨R', h3, -, h5⟩ := C28_dcm_is_rotation (quatG R) hne 0
  rw [dcm_eval, h2] at h3
  simp at h3
  rw [← h3] at h5; exact h5 v

/-- the same statement read from the quaternion's side: a unit quaternion is recovered up to sign -/
theorem C29_recovers_quaternion_partial (p : Fin 4 → ℝ) (hp : sq4 p = 1)
    (hr : (∃ k : Fin 4, k ≠ 3 ∧ ∀ i, i ≠ k → p i ^ 2 < p k ^ 2) ∨ p 3 ≠ 0) (R0 : M3 ℝ) (q0 : Fin 4 → ℝ) :
    ∃ R q, computeDcmFromQuaternion ⟨4, p⟩ ⟨3, 3, R0⟩ = .ok (true, ⟨3, 3, R⟩)
      ∧ computeQuaternionFromDcm ⟨3, 3, R⟩ ⟨4, q0⟩ = .ok (true, ⟨4, q⟩) ∧ (q = p ∨ q = -p) := by
  have hne : p ≠ 0 := by intro h0; rw [h0] at hp; simp [sq4] at hp
  refine ⟨_, _, dcm_eval p R0, quat_eval _ _, ?_⟩
  have hprod : ∀ i j, prodM (dcmG p) i j = 4 * (p i * p j) := by
    intro i j
    rw [dcmR, hp]
    simp only [sq4] at hp
    fin_cases i <;> fin_cases j <;> simp [prodM] <;> nlinarith
  have hreg : Regular (dcmG p) := by
    rcases hr with ⟨k, hk, hk'⟩ | hr
    · refine Or.inl ⟨k, hk, fun i hi => ?_⟩
      rw [hprod, hprod]; have := hk' i hi; nlinarith
    · refine Or.inr ?_
      rw [hprod]; have := mul_self_pos.2 hr; nlinarith
  have hq := quatG_products (dcm_isRot hne) hreg
  set q := quatG (dcmG p)
  have hqq : ∀ i j, q i * q j = p i * p j := fun i j => by rw [hq, hprod]; ring
  -- two vectors with the same products are equal up to sign
  obtain ⟨k, hk⟩ : ∃ k, p k ≠ 0 := by
    by_contra hn; push Not at hn; exact hne (funext hn)
  rcases mul_self_eq_mul_self_iff.1 (hqq k k) with h | h
  · left; ext i
    have := hqq i k; rw [h] at this; exact mul_right_cancel₀ hk this
  · right; ext i
    have := hqq i k; rw [h] at this
    have := mul_right_cancel₀ hk (show (-q i) * p k = p i * p k by linarith)
    simp; linarith

/-- regular rotations exist: the identity -/
example : IsRot (1 : M3 ℝ) ∧ Regular 1 := ⟨IsRot.one, Or.inl ⟨0, by decide, fun i hi => by fin_cases i <;> simp_all [prodM] <;> norm_num⟩⟩
example : Regular (rotZ 1) := by
  right
  have : Real.cos 1 < 1 := by
    have h := Real.cos_lt_cos_of_nonneg_of_le_pi (le_refl 0) (by linarith [Real.two_le_pi]) (zero_lt_one' ℝ)
    simpa using h
  simp [prodM, rotZ]; intro h; linarith

/-- C29 is false for the code: the quarter turn about the first axis is a rotation matrix, the call returns true, and every
component of the quaternion is NaN. -/
theorem C29_quarter_turn_fails (q0 : Fin 4 → XR) :
    IsRot (rotX (Real.pi / 2))
    ∧ computeQuaternionFromDcm ⟨3, 3, finM (rotX (Real.pi / 2))⟩ ⟨4, q0⟩ = .ok (true, ⟨4, fun _ => nan⟩) := by
  refine ⟨isRot_rotX _, ?_⟩
  rw [quat_eval]
  suffices h : quatG (finM (rotX (Real.pi / 2))) = fun _ => nan by rw [h]
  ext i
  simp only [quatG, rotX, xsimp, rsimp, Bool.and_eq_true]
  simp
  norm_num
  simp only [X_sqrt _ (le_refl 0), Real.sqrt_zero, xsimp, mul_zero, pos_div_zero _ one_pos]
  fin_cases i <;> simp [xsimp]

end NavFuse.Props
