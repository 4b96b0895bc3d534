import Verif.Props.Kalman

/-! # An update moves the estimate towards the measurement: C185 -/

namespace NavFuse.Props
open Matrix Kalman Spec KA

/-- C185: after an update the residual is `R S⁻¹` times the innovation (`S = H P Hᵀ + R`), is no larger than the innovation in the metric of the
noise, and the difference pays for twice the squared step in units of the covariance: with `u = S⁻¹ (z - H x)`,
`|z - H x'|² + 2 uᵀ H P Hᵀ u ≤ |z - H x|²`. -/
theorem C185_residual_shrinks {n m : ℕ} {L : LinSolver ℝ} (hL : L.Correct) (x : Fin n → ℝ) (P : Matrix (Fin n) (Fin n) ℝ) (z : Fin m → ℝ)
    (H : Matrix (Fin m) (Fin n) ℝ) (R : Matrix (Fin m) (Fin m) ℝ) (xo : Fin n → ℝ) (Po : Matrix (Fin n) (Fin n) ℝ) (hP : IsCov P) (hR : IsPosCov R) :
    ∃ x' P', filterUpdate L ⟨n, x⟩ ⟨n, n, P⟩ ⟨m, z⟩ ⟨m, n, H⟩ ⟨m, m, R⟩ ⟨n, xo⟩ ⟨n, n, Po⟩ = .ok (true, ⟨n, x'⟩, ⟨n, n, P'⟩) ∧
      ∃ u, (H * P * Hᵀ + R) *ᵥ u = z - H *ᵥ x ∧ z - H *ᵥ x' = R *ᵥ u ∧ x' - x = P *ᵥ (Hᵀ *ᵥ u) ∧
        quad R⁻¹ (z - H *ᵥ x') + 2 * quad P (Hᵀ *ᵥ u) ≤ quad R⁻¹ (z - H *ᵥ x) := by
  rw [isCov_iff] at hP
  rw [isPosCov_iff] at hR
  have hS := innov_pd hP H hR
  have hSd := pd_det hS
  refine ⟨_, _, update_R hL x hP z H hR xo Po, (innov P H R)⁻¹ *ᵥ (z - H *ᵥ x), ?_⟩
  set y := z - H *ᵥ x with hy
  set u := (innov P H R)⁻¹ *ᵥ y with hu
  have h1 : (H * P * Hᵀ + R) *ᵥ u = y := by
    rw [hu, mulVec_mulVec, ← innov, mul_nonsing_inv _ hSd, one_mulVec]
  have gk : gain P H R *ᵥ y = P *ᵥ (Hᵀ *ᵥ u) := by rw [gain, ← mulVec_mulVec, ← mulVec_mulVec]
  have A : (H * P * Hᵀ) *ᵥ u = H *ᵥ (P *ᵥ (Hᵀ *ᵥ u)) := by rw [← mulVec_mulVec, ← mulVec_mulVec]
  have h2 : z - H *ᵥ (x + gain P H R *ᵥ y) = R *ᵥ u := by
    rw [add_mulVec, A] at h1
    rw [mulVec_add, ← sub_sub, ← hy, gk, ← h1, add_sub_cancel_left]
  refine ⟨h1, h2, by rw [add_sub_cancel_left, gk], ?_⟩
  have hRd := pd_det hR
  have hRt := psd_tr hR.posSemidef
  have ri : R⁻¹ *ᵥ (R *ᵥ u) = u := by rw [mulVec_mulVec, nonsing_inv_mul _ hRd, one_mulVec]
  set a := H *ᵥ (P *ᵥ (Hᵀ *ᵥ u)) with ha
  have ey : y = a + R *ᵥ u := by rw [← h1, add_mulVec, A]
  have q : u ⬝ᵥ a = quad P (Hᵀ *ᵥ u) := by
    rw [ha, quad, dotProduct_mulVec, ← mulVec_transpose]
  have c : (R *ᵥ u) ⬝ᵥ (R⁻¹ *ᵥ a) = u ⬝ᵥ a := by
    rw [dotProduct_comm, dotProduct_mulVec, ← mulVec_transpose, hRt, mulVec_mulVec, mul_nonsing_inv _ hRd, one_mulVec, dotProduct_comm]
  have pos : 0 ≤ a ⬝ᵥ (R⁻¹ *ᵥ a) := by
    have := hR.inv.posSemidef.dotProduct_mulVec_nonneg a
    simpa using this
  rw [h2, ey]
  simp only [quad, mulVec_add, add_dotProduct, dotProduct_add, ri, c]
  rw [dotProduct_comm a u, q, quad]
  linarith

/-- C185 for a single measured number: the residual keeps the sign of the innovation and is no larger -/
theorem C185_between {n : ℕ} {L : LinSolver ℝ} (hL : L.Correct) (x : Fin n → ℝ) (P : Matrix (Fin n) (Fin n) ℝ) (z : Fin 1 → ℝ)
    (H : Matrix (Fin 1) (Fin n) ℝ) (R : Matrix (Fin 1) (Fin 1) ℝ) (xo : Fin n → ℝ) (Po : Matrix (Fin n) (Fin n) ℝ) (hP : IsCov P) (hR : IsPosCov R) :
    ∃ x' P' t, filterUpdate L ⟨n, x⟩ ⟨n, n, P⟩ ⟨1, z⟩ ⟨1, n, H⟩ ⟨1, 1, R⟩ ⟨n, xo⟩ ⟨n, n, Po⟩ = .ok (true, ⟨n, x'⟩, ⟨n, n, P'⟩) ∧
      0 < t ∧ t ≤ 1 ∧ (H *ᵥ x') 0 = t * (H *ᵥ x) 0 + (1 - t) * z 0 := by
  obtain ⟨x', P', e, u, h1, h2, -, -⟩ := C185_residual_shrinks hL x P z H R xo Po hP hR
  rw [isCov_iff] at hP
  rw [isPosCov_iff] at hR
  have r0 : 0 < R 0 0 := hR.diag_pos
  have s0 : 0 ≤ (H * P * Hᵀ) 0 0 := (psd_conj hP H).diag_nonneg
  have k1 := congrFun h1 0
  have k2 := congrFun h2 0
  simp only [mulVec, dotProduct, Fin.sum_univ_one, Matrix.add_apply, Pi.sub_apply] at k1 k2
  refine ⟨x', P', R 0 0 / ((H * P * Hᵀ) 0 0 + R 0 0), e, by positivity, ?_, ?_⟩
  · rw [div_le_one (by positivity)]; linarith
  · simp only [mulVec, dotProduct]
    have hd : ((H * P * Hᵀ) 0 0 + R 0 0) ≠ 0 := by positivity
    field_simp
    linear_combination (-(R 0 0)) * k1 - ((H * P * Hᵀ) 0 0 + R 0 0) * k2

/-- hypotheses met: two correlated states, one of them measured -/
example : IsCov !![2, 1; 1, (2 : ℝ)] ∧ IsPosCov (diagonal ![(3 : ℝ)]) := by
  refine ⟨⟨?_, fun v => ?_⟩, diag_isPosCov _ (by intro i; fin_cases i; norm_num)⟩
  · ext i j; fin_cases i <;> fin_cases j <;> rfl
  · simp [dotProduct, mulVec, Fin.sum_univ_two]; nlinarith [sq_nonneg (v 0 + v 1), sq_nonneg (v 0), sq_nonneg (v 1)]

end NavFuse.Props
