import Verif.Props.Kalman

/-! # Properties C83-C86: unscented filter -/

set_option linter.unusedSectionVars false

namespace NavFuse.Props
open Matrix Kalman Spec KA

section spec
variable {n m N : ℕ}

/-- weighted mean of the sigma points (the columns of `Y`) -/
def wmean (W : Fin N → ℝ) (Y : Matrix (Fin n) (Fin N) ℝ) : Fin n → ℝ := fun k => ∑ i, W i * Y k i

/-- deviation of sigma point `i` from `a` -/
def dev (Y : Matrix (Fin n) (Fin N) ℝ) (a : Fin n → ℝ) (i : Fin N) : Fin n → ℝ := fun k => Y k i - a k

/-- weighted cross scatter of two sigma-point sets -/
def wscat (W : Fin N → ℝ) (Y : Matrix (Fin n) (Fin N) ℝ) (a : Fin n → ℝ) (Z : Matrix (Fin m) (Fin N) ℝ) (b : Fin m → ℝ) :
    Matrix (Fin n) (Fin m) ℝ := moment W (dev Y a) (dev Z b)

/-- each sigma point mapped through `y ↦ A y + c` -/
def mapPts (A : Matrix (Fin m) (Fin n) ℝ) (c : Fin m → ℝ) (Y : Matrix (Fin n) (Fin N) ℝ) : Matrix (Fin m) (Fin N) ℝ :=
  of fun k i => (A *ᵥ fun l => Y l i) k + c k
end spec

section helpers
variable {n m N : ℕ}

theorem wmean_eq (W : Fin N → ℝ) (Y : Matrix (Fin n) (Fin N) ℝ) : Y *ᵥ W = wmean W Y := by
  ext k; simp [wmean, mulVec, dotProduct, mul_comm]

theorem wscat_eq (W : Fin N → ℝ) (Y : Matrix (Fin n) (Fin N) ℝ) (a : Fin n → ℝ) (Z : Matrix (Fin m) (Fin N) ℝ) (b : Fin m → ℝ) :
    ∑ i, W i • vecMulVec (fun k => Y k i - a k) (fun k => Z k i - b k) = wscat W Y a Z b := by
  ext p q
  simp [wscat, moment, dev, Matrix.sum_apply, vecMulVec]

theorem wscat_tr (W : Fin N → ℝ) (Y : Matrix (Fin n) (Fin N) ℝ) (a : Fin n → ℝ) (Z : Matrix (Fin m) (Fin N) ℝ) (b : Fin m → ℝ) :
    (wscat W Y a Z b)ᵀ = wscat W Z b Y a := moment_tr _ _ _

theorem moment_self_quad {Ω : Type} [Fintype Ω] (w : Ω → ℝ) (a : Ω → Fin n → ℝ) (v : Fin n → ℝ) :
    v ⬝ᵥ (moment w a a *ᵥ v) = ∑ ω, w ω * (v ⬝ᵥ a ω) ^ 2 := by
  have h : moment w a a = ∑ ω, w ω • vecMulVec (a ω) (a ω) := by
    ext p q; simp [moment, Matrix.sum_apply, vecMulVec]
  rw [h, sum_mulVec, dotProduct_sum]
  refine Finset.sum_congr rfl fun ω _ => ?_
  rw [smul_mulVec, vecMulVec_mulVec, dotProduct_smul, op_smul_eq_smul, dotProduct_smul, smul_eq_mul, smul_eq_mul, dotProduct_comm v (a ω)]
  ring

theorem moment_psd {Ω : Type} [Fintype Ω] (w : Ω → ℝ) (a : Ω → Fin n → ℝ) (h : ∀ ω, a ω = 0 ∨ 0 ≤ w ω) : IsCov (moment w a a) := by
  refine ⟨moment_tr _ _ _, fun v => ?_⟩
  rw [moment_self_quad]
  refine Finset.sum_nonneg fun ω _ => ?_
  rcases h ω with h | h
  · simp [h]
  · exact mul_nonneg h (sq_nonneg _)

theorem isCov_add {A B : Matrix (Fin n) (Fin n) ℝ} (hA : IsCov A) (hB : IsCov B) : IsCov (A + B) := by
  rw [isCov_iff] at *; exact hA.add hB

theorem ukfPredict_R (W : Fin (2 * n + 1) → ℝ) (Y : Matrix (Fin n) (Fin (2 * n + 1)) ℝ) (Q : Matrix (Fin n) (Fin n) ℝ)
    (xo : Fin n → ℝ) (Po : Matrix (Fin n) (Fin n) ℝ) :
    filterUkfPredict ⟨2 * n + 1, W⟩ ⟨n, 2 * n + 1, Y⟩ ⟨n, n, Q⟩ ⟨n, xo⟩ ⟨n, n, Po⟩
      = .ok (true, ⟨n, wmean W Y⟩, ⟨n, n, Q + wscat W Y (wmean W Y) Y (wmean W Y)⟩) := by
  rw [ukfPredict_fit, meanC_R, scatterC_R, wscat_eq, wmean_eq]

/-- predicted measurement covariance of the UKF update -/
def ukfS (W : Fin N → ℝ) (Z : Matrix (Fin m) (Fin N) ℝ) (R : Matrix (Fin m) (Fin m) ℝ) : Matrix (Fin m) (Fin m) ℝ :=
  R + wscat W Z (wmean W Z) Z (wmean W Z)

theorem ukfUpdate_R {L : LinSolver ℝ} (hL : L.Correct) (x : Fin n → ℝ) (P : Matrix (Fin n) (Fin n) ℝ) (Y : Matrix (Fin n) (Fin (2 * n + 1)) ℝ)
    (W : Fin (2 * n + 1) → ℝ) (Z : Matrix (Fin m) (Fin (2 * n + 1)) ℝ) (z : Fin m → ℝ) (R : Matrix (Fin m) (Fin m) ℝ)
    (xo : Fin n → ℝ) (Po : Matrix (Fin n) (Fin n) ℝ) (hS : IsUnit (ukfS W Z R).det) :
    filterUkfUpdate L ⟨n, x⟩ ⟨n, n, P⟩ ⟨n, 2 * n + 1, Y⟩ ⟨2 * n + 1, W⟩ ⟨m, 2 * n + 1, Z⟩ ⟨m, z⟩ ⟨m, m, R⟩ ⟨n, xo⟩ ⟨n, n, Po⟩
      = .ok (true,
          ⟨n, x + (wscat W Y x Z (wmean W Z) * (ukfS W Z R)⁻¹) *ᵥ (z - wmean W Z)⟩,
          ⟨n, n, P - wscat W Y x Z (wmean W Z) * (ukfS W Z R)⁻¹ * ukfS W Z R * (wscat W Y x Z (wmean W Z) * (ukfS W Z R)⁻¹)ᵀ⟩) := by
  have h0 : (mzero : Matrix (Fin n) (Fin m) ℝ) = 0 := by ext; simp [mzero, rsimp]
  have hi := hL.inv_eq _ hS
  simp only [ukfS] at hi
  rw [ukfUpdate_fit, meanC_R, scatterC_R, scatterC_R, wscat_eq, wscat_eq, wmean_eq, h0, zero_add, hi]
  simp only [rsimp, ukfS]

theorem wmean_mapPts (W : Fin N → ℝ) (hW : ∑ i, W i = 1) (A : Matrix (Fin m) (Fin n) ℝ) (c : Fin m → ℝ) (Y : Matrix (Fin n) (Fin N) ℝ) :
    wmean W (mapPts A c Y) = A *ᵥ wmean W Y + c := by
  ext k
  simp only [wmean, mapPts, of_apply, Pi.add_apply, mulVec, dotProduct, mul_add, Finset.sum_add_distrib, ← Finset.sum_mul, hW, one_mul,
    Finset.mul_sum]
  rw [Finset.sum_comm]
  congr 1
  exact Finset.sum_congr rfl fun l _ => Finset.sum_congr rfl fun i _ => by ring

theorem dev_mapPts (A : Matrix (Fin m) (Fin n) ℝ) (c : Fin m → ℝ) (Y : Matrix (Fin n) (Fin N) ℝ) (b : Fin n → ℝ) :
    dev (mapPts A c Y) (A *ᵥ b + c) = fun i => A *ᵥ dev Y b i := by
  funext i
  have : dev Y b i = (fun l => Y l i) - b := rfl
  rw [this, mulVec_sub]; ext k; simp [dev, mapPts]
end helpers

/-! ## C83 -/

/-- C83. The UKF prediction returns the weighted mean, and `Q` plus the weighted second moment of the deviations from it. -/
theorem C83_ukf_predict_moments {n : ℕ} (W : Fin (2 * n + 1) → ℝ) (Y : Matrix (Fin n) (Fin (2 * n + 1)) ℝ) (Q : Matrix (Fin n) (Fin n) ℝ)
    (xo : Fin n → ℝ) (Po : Matrix (Fin n) (Fin n) ℝ) :
    ∃ x' P', filterUkfPredict ⟨2 * n + 1, W⟩ ⟨n, 2 * n + 1, Y⟩ ⟨n, n, Q⟩ ⟨n, xo⟩ ⟨n, n, Po⟩ = .ok (true, ⟨n, x'⟩, ⟨n, n, P'⟩)
      ∧ (∀ k, x' k = ∑ i, W i * Y k i) ∧ (∀ p q, P' p q = Q p q + ∑ i, W i * ((Y p i - x' p) * (Y q i - x' q)))
      ∧ (Q.IsSymm → P'.IsSymm) ∧ ((∀ i, 0 ≤ W i) → IsCov Q → IsCov P') := by
  refine ⟨_, _, ukfPredict_R W Y Q xo Po, fun k => rfl, fun p q => rfl, fun hQ => ?_, fun hW hQ => ?_⟩
  · rw [IsSymm, transpose_add, hQ, wscat_tr]
  · exact isCov_add hQ (moment_psd _ _ fun i => Or.inr (hW i))

/-- C83 (affine equivariance). When the weights sum to one, mapping every sigma point through `y ↦ A y + c` maps the returned mean through the
same map and the scatter part of the covariance to `A · Aᵀ`; in particular a translation leaves the covariance unchanged (`A = 1`). -/
theorem C83_ukf_predict_equivariant {n : ℕ} (W : Fin (2 * n + 1) → ℝ) (hW : ∑ i, W i = 1) (Y : Matrix (Fin n) (Fin (2 * n + 1)) ℝ)
    (Q : Matrix (Fin n) (Fin n) ℝ) (xo : Fin n → ℝ) (Po : Matrix (Fin n) (Fin n) ℝ) (A : Matrix (Fin n) (Fin n) ℝ) (c : Fin n → ℝ) :
    ∃ x' P', filterUkfPredict ⟨2 * n + 1, W⟩ ⟨n, 2 * n + 1, Y⟩ ⟨n, n, Q⟩ ⟨n, xo⟩ ⟨n, n, Po⟩ = .ok (true, ⟨n, x'⟩, ⟨n, n, P'⟩)
      ∧ filterUkfPredict ⟨2 * n + 1, W⟩ ⟨n, 2 * n + 1, mapPts A c Y⟩ ⟨n, n, Q⟩ ⟨n, xo⟩ ⟨n, n, Po⟩
        = .ok (true, ⟨n, A *ᵥ x' + c⟩, ⟨n, n, A * (P' - Q) * Aᵀ + Q⟩) := by
  refine ⟨_, _, ukfPredict_R W Y Q xo Po, ?_⟩
  have hm := wmean_mapPts W hW A c Y
  rw [ukfPredict_R, hm, add_sub_cancel_left, add_comm Q, wscat, dev_mapPts, moment_mulVec_left, moment_mulVec_right, wscat, Matrix.mul_assoc]

/-- C83 (linear dynamics). If the sigma points before propagation reproduce `x` and `P`, and propagation is linear, the UKF prediction equals
`filterPredict`, whatever the signs of the weights. -/
theorem C83_ukf_predict_linear {n : ℕ} (W : Fin (2 * n + 1) → ℝ) (hW : ∑ i, W i = 1) (Y : Matrix (Fin n) (Fin (2 * n + 1)) ℝ)
    (x : Fin n → ℝ) (P F Q : Matrix (Fin n) (Fin n) ℝ) (xo : Fin n → ℝ) (Po : Matrix (Fin n) (Fin n) ℝ)
    (hx : wmean W Y = x) (hP : wscat W Y x Y x = P) :
    filterUkfPredict ⟨2 * n + 1, W⟩ ⟨n, 2 * n + 1, mapPts F 0 Y⟩ ⟨n, n, Q⟩ ⟨n, xo⟩ ⟨n, n, Po⟩
      = filterPredict ⟨n, x⟩ ⟨n, n, P⟩ ⟨n, n, F⟩ ⟨n, n, Q⟩ ⟨n, xo⟩ ⟨n, n, Po⟩ := by
  obtain ⟨x', P', h1, h2⟩ := C83_ukf_predict_equivariant W hW Y Q xo Po F 0
  rw [ukfPredict_R, hx, hP] at h1
  simp only [Except.ok.injEq, Prod.mk.injEq, DVec.mk.injEq, DMat.mk.injEq, true_and, heq_eq_eq] at h1
  rw [h2, predict_R, ← h1.1, ← h1.2, add_zero, add_sub_cancel_left]

/-- the standard three-point rule for a scalar state with mean 5 and variance 3 (centre weight 2/3) meets the hypotheses -/
example : let W : Fin 3 → ℝ := ![2 / 3, 1 / 6, 1 / 6]; let Y : Matrix (Fin 1) (Fin 3) ℝ := !![5, 8, 2]
    ∑ i, W i = 1 ∧ wmean W Y = ![5] ∧ wscat W Y ![5] Y ![5] = !![3] := by
  refine ⟨?_, ?_, ?_⟩
  · simp [Fin.sum_univ_three]; norm_num
  · ext k; fin_cases k; simp [wmean, Fin.sum_univ_three]; norm_num
  · ext p q; fin_cases p; fin_cases q; simp [wscat, moment, dev, Fin.sum_univ_three]; norm_num

/-! ## C84 -/

/-- C84 is false of the code. The full claim would be: whenever the weights sum to one and `Q` is positive semidefinite, so is the returned
covariance. With a negative centre weight (as the usual parameter choices give) and a curved dynamics the returned "variance" can be negative,
even for a positive definite `Q`. -/
theorem C84_negative_centre_weight_fails :
    ∃ (W : Fin (2 * 1 + 1) → ℝ) (Y : Matrix (Fin 1) (Fin (2 * 1 + 1)) ℝ) (Q : Matrix (Fin 1) (Fin 1) ℝ), ∑ i, W i = 1 ∧ IsPosCov Q
      ∧ ∀ xo Po, ∃ x' P', filterUkfPredict ⟨2 * 1 + 1, W⟩ ⟨1, 2 * 1 + 1, Y⟩ ⟨1, 1, Q⟩ ⟨1, xo⟩ ⟨1, 1, Po⟩ = .ok (true, ⟨1, x'⟩, ⟨1, 1, P'⟩)
        ∧ P' 0 0 = -1 ∧ ¬ IsCov P' := by
  refine ⟨![-1, 1, 1], !![1, 0, 0], diagonal ![1], ?_, diag_isPosCov _ (by intro i; fin_cases i; norm_num), fun xo Po => ?_⟩
  · simp [Fin.sum_univ_three]
  · refine ⟨_, _, ukfPredict_R _ _ _ xo Po, ?_⟩
    have h : (diagonal ![1] + wscat ![-1, 1, 1] !![1, 0, 0] (wmean ![-1, 1, 1] !![1, 0, 0]) !![1, 0, 0] (wmean ![-1, 1, 1] !![1, 0, 0]) :
        Matrix (Fin 1) (Fin 1) ℝ) 0 0 = -1 := by
      simp [wscat, moment, dev, wmean, Fin.sum_univ_three]; norm_num
    refine ⟨h, fun hc => ?_⟩
    have := hc.2 ![1]
    simp only [dotProduct, mulVec, Fin.sum_univ_one, Fin.isValue, h] at this
    norm_num at this

/-- C84, what does hold. (Full claim: for all weights that sum to one; missing: a negative weight on a point away from the weighted mean.)
The predicted covariance is a covariance matrix provided every sigma point of negative weight sits at the weighted mean. -/
theorem C84_ukf_predict_psd_partial {n : ℕ} (W : Fin (2 * n + 1) → ℝ) (Y : Matrix (Fin n) (Fin (2 * n + 1)) ℝ) (Q : Matrix (Fin n) (Fin n) ℝ)
    (xo : Fin n → ℝ) (Po : Matrix (Fin n) (Fin n) ℝ) (hQ : IsCov Q) (hW : ∀ i, W i < 0 → ∀ k, Y k i = ∑ j, W j * Y k j) :
    ∃ x' P', filterUkfPredict ⟨2 * n + 1, W⟩ ⟨n, 2 * n + 1, Y⟩ ⟨n, n, Q⟩ ⟨n, xo⟩ ⟨n, n, Po⟩ = .ok (true, ⟨n, x'⟩, ⟨n, n, P'⟩) ∧ IsCov P' := by
  refine ⟨_, _, ukfPredict_R W Y Q xo Po, isCov_add hQ (moment_psd _ _ fun i => ?_)⟩
  rcases lt_or_ge (W i) 0 with h | h
  · left; ext k; simp [dev, wmean, hW i h k]
  · exact Or.inr h

/-- C84, propagation that keeps the sigma points symmetric: pairs `y₀ ± dᵢ` of equal weights, any centre weight. -/
theorem C84_symmetric_points_partial {n : ℕ} (W : Fin (2 * n + 1) → ℝ) (hW1 : ∑ i, W i = 1) (Y : Matrix (Fin n) (Fin (2 * n + 1)) ℝ)
    (Q : Matrix (Fin n) (Fin n) ℝ) (xo : Fin n → ℝ) (Po : Matrix (Fin n) (Fin n) ℝ) (hQ : IsCov Q)
    (c : Fin (2 * n + 1)) (pair : Fin (2 * n + 1) ≃ Fin (2 * n + 1))
    (hsym : ∀ i k, Y k (pair i) - Y k c = -(Y k i - Y k c)) (hwt : ∀ i, W (pair i) = W i) (hpos : ∀ i, i ≠ c → 0 ≤ W i) :
    ∃ x' P', filterUkfPredict ⟨2 * n + 1, W⟩ ⟨n, 2 * n + 1, Y⟩ ⟨n, n, Q⟩ ⟨n, xo⟩ ⟨n, n, Po⟩ = .ok (true, ⟨n, x'⟩, ⟨n, n, P'⟩)
      ∧ (∀ k, x' k = Y k c) ∧ IsCov P' := by
  have hmean : ∀ k, ∑ j, W j * Y k j = Y k c := by
    intro k
    have h0 : ∑ j, W j * (Y k j - Y k c) = 0 := by
      have e : ∑ j, W j * (Y k j - Y k c) = ∑ j, W (pair j) * (Y k (pair j) - Y k c) :=
        (Equiv.sum_comp pair fun j => W j * (Y k j - Y k c)).symm
      have e2 : ∑ j, W (pair j) * (Y k (pair j) - Y k c) = -∑ j, W j * (Y k j - Y k c) := by
        rw [← Finset.sum_neg_distrib]; exact Finset.sum_congr rfl fun j _ => by rw [hsym, hwt]; ring
      linarith
    simp only [mul_sub, Finset.sum_sub_distrib, ← Finset.sum_mul, hW1, one_mul] at h0
    linarith
  obtain ⟨x', P', h, hc⟩ := C84_ukf_predict_psd_partial W Y Q xo Po hQ (fun i hi k => by
    have : i = c := by by_contra hne; exact absurd (hpos i hne) (not_le.2 hi)
    rw [this, hmean])
  refine ⟨x', P', h, fun k => ?_, hc⟩
  rw [ukfPredict_R] at h
  simp only [Except.ok.injEq, Prod.mk.injEq, DVec.mk.injEq, DMat.mk.injEq, true_and, heq_eq_eq] at h
  rw [← h.1]; exact hmean k

example : let W : Fin 3 → ℝ := ![-1, 1, 1]; let Y : Matrix (Fin 1) (Fin 3) ℝ := !![5, 8, 2]
    ∑ i, W i = 1 ∧ (∀ i k, Y k (Equiv.swap 1 2 i) - Y k 0 = -(Y k i - Y k 0)) ∧ (∀ i, W (Equiv.swap 1 2 i) = W i) ∧ ∀ i, i ≠ 0 → 0 ≤ W i := by
  refine ⟨by simp [Fin.sum_univ_three], fun i k => ?_, fun i => ?_, fun i hi => ?_⟩
  · fin_cases k; fin_cases i <;> simp [Equiv.swap_apply_def] <;> norm_num
  · fin_cases i <;> simp [Equiv.swap_apply_def]
  · fin_cases i <;> simp at hi ⊢

/-! ## C85 -/

/-- C85. If the sigma points reproduce the state and covariance and the measurement model is affine (`z = H y + c`), the UKF update returns exactly
what `filterUpdate` returns for the offset-free measurement. -/
theorem C85_ukf_update_linear {n m : ℕ} {L : LinSolver ℝ} (hL : L.Correct) (W : Fin (2 * n + 1) → ℝ) (hW : ∑ i, W i = 1)
    (Y : Matrix (Fin n) (Fin (2 * n + 1)) ℝ) (x : Fin n → ℝ) (P : Matrix (Fin n) (Fin n) ℝ) (z c : Fin m → ℝ) (H : Matrix (Fin m) (Fin n) ℝ)
    (R : Matrix (Fin m) (Fin m) ℝ) (xo : Fin n → ℝ) (Po : Matrix (Fin n) (Fin n) ℝ)
    (hx : wmean W Y = x) (hP : wscat W Y x Y x = P) (hPc : IsCov P) (hR : IsPosCov R) :
    filterUkfUpdate L ⟨n, x⟩ ⟨n, n, P⟩ ⟨n, 2 * n + 1, Y⟩ ⟨2 * n + 1, W⟩ ⟨m, 2 * n + 1, mapPts H c Y⟩ ⟨m, z⟩ ⟨m, m, R⟩ ⟨n, xo⟩ ⟨n, n, Po⟩
      = filterUpdate L ⟨n, x⟩ ⟨n, n, P⟩ ⟨m, z - c⟩ ⟨m, n, H⟩ ⟨m, m, R⟩ ⟨n, xo⟩ ⟨n, n, Po⟩ := by
  rw [isCov_iff] at hPc
  rw [isPosCov_iff] at hR
  have hm := wmean_mapPts W hW H c Y
  have hSpd := innov_pd hPc H hR
  have hS : ukfS W (mapPts H c Y) R = innov P H R := by
    rw [ukfS, hm, wscat, dev_mapPts, moment_mulVec_left, moment_mulVec_right, hx]
    rw [show moment W (dev Y x) (dev Y x) = P from hP, innov, add_comm, Matrix.mul_assoc]
  have hT : wscat W Y x (mapPts H c Y) (wmean W (mapPts H c Y)) = P * Hᵀ := by
    rw [hm, wscat, dev_mapPts, moment_mulVec_right, hx]
    rw [show moment W (dev Y x) (dev Y x) = P from hP]
  rw [ukfUpdate_R hL x P Y W _ z R xo Po (by rw [hS]; exact pd_det hSpd), hS, hT, hm, hx, update_R hL x hPc (z - c) H hR,
    joseph_opt (psd_tr hPc) (psd_tr hSpd.posSemidef) (pd_det hSpd)]
  rw [show z - (H *ᵥ x + c) = z - c - H *ᵥ x by abel]
  simp only [gain]

/-- the hypotheses of C85 are met by the three-point rule of the example after C83, with `R = 2` -/
example : IsCov (!![3] : Matrix (Fin 1) (Fin 1) ℝ) ∧ IsPosCov (diagonal ![(2 : ℝ)]) := by
  refine ⟨?_, diag_isPosCov _ (by intro i; fin_cases i; norm_num)⟩
  have : (!![3] : Matrix (Fin 1) (Fin 1) ℝ) = diagonal ![3] := by ext i j; fin_cases i; fin_cases j; simp
  rw [this]; exact diag_isCov _ (by intro i; fin_cases i; norm_num)

/-! ## C86 -/

/-- C86. Whenever the predicted measurement covariance is positive definite, the UKF update succeeds, keeps a symmetric covariance symmetric and
never increases the variance in any direction. -/
theorem C86_ukf_update_contracts {n m : ℕ} {L : LinSolver ℝ} (hL : L.Correct) (W : Fin (2 * n + 1) → ℝ)
    (Y : Matrix (Fin n) (Fin (2 * n + 1)) ℝ) (x : Fin n → ℝ) (P : Matrix (Fin n) (Fin n) ℝ) (z : Fin m → ℝ) (Z : Matrix (Fin m) (Fin (2 * n + 1)) ℝ)
    (R : Matrix (Fin m) (Fin m) ℝ) (xo : Fin n → ℝ) (Po : Matrix (Fin n) (Fin n) ℝ)
    (hS : IsPosCov (R + wscat W Z (wmean W Z) Z (wmean W Z))) :
    ∃ x' P', filterUkfUpdate L ⟨n, x⟩ ⟨n, n, P⟩ ⟨n, 2 * n + 1, Y⟩ ⟨2 * n + 1, W⟩ ⟨m, 2 * n + 1, Z⟩ ⟨m, z⟩ ⟨m, m, R⟩ ⟨n, xo⟩ ⟨n, n, Po⟩
        = .ok (true, ⟨n, x'⟩, ⟨n, n, P'⟩) ∧ CovLe P' P ∧ (P.IsSymm → P'.IsSymm) := by
  rw [isPosCov_iff] at hS
  have hS' : (ukfS W Z R).PosDef := hS
  refine ⟨_, _, ukfUpdate_R hL x P Y W Z z R xo Po (pd_det hS'), ?_, fun hP => ?_⟩
  · rw [covLe_iff, sub_sub_cancel]
    exact psd_conj hS'.posSemidef _
  · have := psd_tr (psd_conj hS'.posSemidef (wscat W Y x Z (wmean W Z) * (ukfS W Z R)⁻¹))
    rw [IsSymm, transpose_sub, hP, this]

/-- C86 (health). If moreover the weights are non-negative, `R` is positive definite and `P` is at least the scatter of the state sigma points
(equality for the usual construction), the updated matrix is again a covariance matrix. -/
theorem C86_ukf_update_psd {n m : ℕ} {L : LinSolver ℝ} (hL : L.Correct) (W : Fin (2 * n + 1) → ℝ) (hW : ∀ i, 0 ≤ W i)
    (Y : Matrix (Fin n) (Fin (2 * n + 1)) ℝ) (x : Fin n → ℝ) (P : Matrix (Fin n) (Fin n) ℝ) (z : Fin m → ℝ) (Z : Matrix (Fin m) (Fin (2 * n + 1)) ℝ)
    (R : Matrix (Fin m) (Fin m) ℝ) (xo : Fin n → ℝ) (Po : Matrix (Fin n) (Fin n) ℝ) (hR : IsPosCov R)
    (hP : CovLe (wscat W Y x Y x) P) :
    ∃ x' P', filterUkfUpdate L ⟨n, x⟩ ⟨n, n, P⟩ ⟨n, 2 * n + 1, Y⟩ ⟨2 * n + 1, W⟩ ⟨m, 2 * n + 1, Z⟩ ⟨m, z⟩ ⟨m, m, R⟩ ⟨n, xo⟩ ⟨n, n, Po⟩
        = .ok (true, ⟨n, x'⟩, ⟨n, n, P'⟩) ∧ IsCov P' ∧ CovLe P' P := by
  have hSc : IsCov (wscat W Z (wmean W Z) Z (wmean W Z)) := moment_psd _ _ fun i => Or.inr (hW i)
  rw [isPosCov_iff] at hR
  rw [isCov_iff] at hSc
  rw [covLe_iff] at hP
  have hS' : (ukfS W Z R).PosDef := hR.add_posSemidef hSc
  refine ⟨_, _, ukfUpdate_R hL x P Y W Z z R xo Po (pd_det hS'), ?_, ?_⟩
  · set T := wscat W Y x Z (wmean W Z) with hT
    set S := ukfS W Z R with hSd
    set K := T * S⁻¹ with hK
    have hKS : K * S = T := by rw [hK, Matrix.mul_assoc, nonsing_inv_mul _ (pd_det hS'), Matrix.mul_one]
    have hSt : Sᵀ = S := psd_tr hS'.posSemidef
    have hTt : Tᵀ = S * Kᵀ := by rw [← hKS, transpose_mul, hSt]
    have hD : moment W (fun i => dev Y x i + (-K) *ᵥ dev Z (wmean W Z) i) (fun i => dev Y x i + (-K) *ᵥ dev Z (wmean W Z) i)
        = wscat W Y x Y x - T * Kᵀ - K * Tᵀ + K * wscat W Z (wmean W Z) Z (wmean W Z) * Kᵀ := by
      rw [moment_add_left, moment_add_right, moment_add_right, moment_mulVec_left, moment_mulVec_right, moment_mulVec_left, moment_mulVec_right]
      rw [show moment W (dev Y x) (dev Z (wmean W Z)) = T from rfl, show moment W (dev Z (wmean W Z)) (dev Y x) = Tᵀ from (wscat_tr _ _ _ _ _).symm]
      simp only [wscat, transpose_neg]
      mat_ring
    have key : P - K * S * Kᵀ = moment W (fun i => dev Y x i + (-K) *ᵥ dev Z (wmean W Z) i) (fun i => dev Y x i + (-K) *ᵥ dev Z (wmean W Z) i)
        + K * R * Kᵀ + (P - wscat W Y x Y x) := by
      have hSe : wscat W Z (wmean W Z) Z (wmean W Z) = S - R := by rw [hSd, ukfS, add_sub_cancel_left]
      rw [hD, hSe, hTt, ← hKS]
      mat_ring
    rw [key, isCov_iff]
    exact ((isCov_iff.1 (moment_psd _ _ fun i => Or.inr (hW i))).add (psd_conj hR.posSemidef _)).add hP
  · rw [covLe_iff, sub_sub_cancel]
    exact psd_conj hS'.posSemidef _

/-- hypotheses of C86: non-negative weights and `P` equal to the scatter of the points -/
example : let W : Fin 3 → ℝ := ![2 / 3, 1 / 6, 1 / 6]; (∀ i, 0 ≤ W i) ∧ CovLe (!![3] : Matrix (Fin 1) (Fin 1) ℝ) !![3] := by
  refine ⟨fun i => by fin_cases i <;> norm_num, ?_⟩
  rw [covLe_iff, sub_self]; exact PosSemidef.zero

end NavFuse.Props
