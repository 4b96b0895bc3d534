import Verif.Props.KalmanRun
import Verif.Props.LeastSquares

/-! # Properties C97-C99: what estimation does not need, and how the estimators relate -/

namespace NavFuse.Props
open Matrix Kalman Spec KA MeasureTheory Lsq

/-! ## C97 -/

/-- (helper) the update at ℝ with any solver -/
theorem update_any {n m : ℕ} (L : LinSolver ℝ) (P : Matrix (Fin n) (Fin n) ℝ) (H : Matrix (Fin m) (Fin n) ℝ) (R : Matrix (Fin m) (Fin m) ℝ) :
    ∃ G : Matrix (Fin n) (Fin m) ℝ, ∀ (x : Fin n → ℝ) (z : Fin m → ℝ) (xo : Fin n → ℝ) (Po : Matrix (Fin n) (Fin n) ℝ),
      filterUpdate L ⟨n, x⟩ ⟨n, n, P⟩ ⟨m, z⟩ ⟨m, n, H⟩ ⟨m, m, R⟩ ⟨n, xo⟩ ⟨n, n, Po⟩
        = .ok (true, ⟨n, x + G *ᵥ (z - H *ᵥ x)⟩, ⟨n, n, joseph P H R G⟩) :=
  ⟨gainC L P H R, fun x z xo Po => by rw [update_fit]; simp only [rsimp, joseph]⟩

/-- C97. No assumption on the matrix inversion: whatever `inverse()` returns, the update succeeds and the returned covariance is symmetric and
positive semidefinite for covariances `P` and `R` (`R` may be singular). -/
theorem C97_any_inverse_covariance {n m : ℕ} (L : LinSolver ℝ) (x : Fin n → ℝ) (P : Matrix (Fin n) (Fin n) ℝ) (z : Fin m → ℝ)
    (H : Matrix (Fin m) (Fin n) ℝ) (R : Matrix (Fin m) (Fin m) ℝ) (xo : Fin n → ℝ) (Po : Matrix (Fin n) (Fin n) ℝ)
    (hP : IsCov P) (hR : IsCov R) :
    ∃ x' P', filterUpdate L ⟨n, x⟩ ⟨n, n, P⟩ ⟨m, z⟩ ⟨m, n, H⟩ ⟨m, m, R⟩ ⟨n, xo⟩ ⟨n, n, Po⟩ = .ok (true, ⟨n, x'⟩, ⟨n, n, P'⟩) ∧ IsCov P' := by
  obtain ⟨G, h⟩ := update_any L P H R
  exact ⟨_, _, h x z xo Po, isCov_iff.2 (joseph_psd (isCov_iff.1 hP) H (isCov_iff.1 hR) G)⟩

/-- C97 (runs). Hence every finite run of predictions and updates stays healthy, whatever `inverse()` does. -/
theorem C97_any_inverse_run {n : ℕ} (L : LinSolver ℝ) (ops : List (FilterOp n)) (hops : ∀ o ∈ ops, o.Sound) (x : Fin n → ℝ)
    (P : Matrix (Fin n) (Fin n) ℝ) (hP : IsCov P) :
    ∃ x' P', runFilter L ops (⟨n, x⟩, ⟨n, n, P⟩) = .ok (⟨n, x'⟩, ⟨n, n, P'⟩) ∧ IsCov P' := by
  induction ops generalizing x P with
  | nil => exact ⟨x, P, rfl, hP⟩
  | cons o os ih =>
    have ho := hops o (by simp)
    have hos : ∀ o ∈ os, o.Sound := fun o' h => hops o' (by simp [h])
    cases o with
    | predict F Q =>
      obtain ⟨x1, P1, h, -, -, hc⟩ := C74_predict_covariance x P F Q x P hP ho
      obtain ⟨x', P', h', hc'⟩ := ih hos x1 P1 hc
      exact ⟨x', P', by simp [runFilter, FilterOp.exec, h, osimp, h'], hc'⟩
    | update m z H R =>
      have hR : IsCov R := isCov_iff.2 (isPosCov_iff.1 ho).posSemidef
      obtain ⟨x1, P1, h, hc⟩ := C97_any_inverse_covariance L x P z H R x P hP hR
      obtain ⟨x', P', h', hc'⟩ := ih hos x1 P1 hc
      exact ⟨x', P', by simp [runFilter, FilterOp.exec, h, osimp, h'], hc'⟩

/-- C97 (honesty). The covariance also remains honest: on any probability space, if the prior errors have second moment `P` and the measurement
noise has second moment `R` and is uncorrelated with them, the returned covariance is exactly the second moment of the errors of the returned
states, however inaccurate the inverse. -/
theorem C97_any_inverse_honest {n m : ℕ} {Ω : Type} [MeasurableSpace Ω] {μ : Measure Ω} (L : LinSolver ℝ)
    (truth est : Ω → Fin n → ℝ) (v : Ω → Fin m → ℝ) (P : Matrix (Fin n) (Fin n) ℝ) (H : Matrix (Fin m) (Fin n) ℝ)
    (R : Matrix (Fin m) (Fin m) ℝ) (xo : Fin n → ℝ) (Po : Matrix (Fin n) (Fin n) ℝ)
    (he2 : ∀ f ∈ comps (fun ω => truth ω - est ω), MemLp f 2 μ) (hv2 : ∀ f ∈ comps v, MemLp f 2 μ)
    (hP : secondMoment μ (fun ω => truth ω - est ω) (fun ω => truth ω - est ω) = P) (hR : secondMoment μ v v = R)
    (hev : secondMoment μ (fun ω => truth ω - est ω) v = 0) :
    ∃ (x' : Ω → Fin n → ℝ) (P' : Matrix (Fin n) (Fin n) ℝ),
      (∀ ω, filterUpdate L ⟨n, est ω⟩ ⟨n, n, P⟩ ⟨m, H *ᵥ truth ω + v ω⟩ ⟨m, n, H⟩ ⟨m, m, R⟩ ⟨n, xo⟩ ⟨n, n, Po⟩
        = .ok (true, ⟨n, x' ω⟩, ⟨n, n, P'⟩))
      ∧ secondMoment μ (fun ω => truth ω - x' ω) (fun ω => truth ω - x' ω) = P' := by
  obtain ⟨G, h⟩ := update_any L P H R
  refine ⟨fun ω => est ω + G *ᵥ (H *ᵥ truth ω + v ω - H *ᵥ est ω), joseph P H R G, fun ω => h _ _ xo Po, ?_⟩
  have he : (fun ω => truth ω - (est ω + G *ᵥ (H *ᵥ truth ω + v ω - H *ᵥ est ω)))
      = fun ω => (1 - G * H) *ᵥ (truth ω - est ω) + (-G) *ᵥ v ω := by
    funext ω
    rw [show H *ᵥ truth ω + v ω - H *ᵥ est ω = H *ᵥ (truth ω - est ω) + v ω by rw [mulVec_sub]; abel,
      mulVec_add, mulVec_mulVec, sub_mulVec, one_mulVec, neg_mulVec]
    abel
  have hel : L2V μ fun ω => truth ω - est ω := fun i => he2 _ ⟨i, rfl⟩
  have hvl : L2V μ v := fun i => hv2 _ ⟨i, rfl⟩
  have hve : secondMoment μ v (fun ω => truth ω - est ω) = 0 := by rw [← sm_tr, hev, transpose_zero]
  have hA := hel.mulVec (1 - G * H)
  have hB := hvl.mulVec (-G)
  rw [he, sm_add_left hA hB (hA.add hB), sm_add_right hA hA hB, sm_add_right hB hA hB, sm_mulVec_left _ hel hA, sm_mulVec_left _ hel hB,
    sm_mulVec_left _ hvl hA, sm_mulVec_left _ hvl hB, sm_mulVec_right _ hel hel, sm_mulVec_right _ hel hvl, sm_mulVec_right _ hvl hel,
    sm_mulVec_right _ hvl hvl, hev, hve, hP, hR, joseph]
  simp [Matrix.mul_assoc]

example :
    let truth : Fin 4 → Fin 1 → ℝ := fun ω _ => ![2, 2, -2, -2] ω
    let v : Fin 4 → Fin 1 → ℝ := fun ω _ => ![1, -1, 1, -1] ω
    secondMoment fair4 (fun ω => truth ω - 0) (fun ω => truth ω - 0) = !![4] ∧ secondMoment fair4 v v = !![1]
      ∧ secondMoment fair4 (fun ω => truth ω - 0) v = 0 := by
  refine ⟨?_, ?_, ?_⟩ <;>
  · ext i j; fin_cases i; fin_cases j; simp [secondMoment, corr, integral_fair4] <;> norm_num

/-! ## C98 -/

section blue
variable {n m : ℕ} {Ω : Type} [MeasurableSpace Ω] {μ : Measure Ω}

/-- the affine estimator `y ↦ A y + c` is right on average for every state `x`, when `y = H x + v` -/
def Unbiased (μ : Measure Ω) (H : Matrix (Fin m) (Fin n) ℝ) (v : Ω → Fin m → ℝ) (A : Matrix (Fin n) (Fin m) ℝ) (c : Fin n → ℝ) : Prop :=
  ∀ (x : Fin n → ℝ) (i : Fin n), ∫ ω, (A *ᵥ (H *ᵥ x + v ω) + c) i ∂μ = x i

theorem mean_lin [IsProbabilityMeasure μ] {v : Ω → Fin m → ℝ} (hv2 : L2V μ v) (hv0 : ∀ i, ∫ ω, v ω i ∂μ = 0) (A : Matrix (Fin n) (Fin m) ℝ)
    (b : Fin n → ℝ) (i : Fin n) : ∫ ω, (b + A *ᵥ v ω) i ∂μ = b i := by
  have hi : ∀ j, Integrable (fun ω => v ω j) μ := fun j => (hv2 j).integrable (by norm_num)
  simp only [Pi.add_apply, Matrix.mulVec, dotProduct]
  rw [integral_add (integrable_const _) (integrable_finsetSum _ fun j _ => (hi j).const_mul _),
    integral_finsetSum _ fun j _ => (hi j).const_mul _]
  simp [integral_const_mul, hv0]

theorem unbiased_iff [IsProbabilityMeasure μ] {v : Ω → Fin m → ℝ} (hv2 : L2V μ v) (hv0 : ∀ i, ∫ ω, v ω i ∂μ = 0)
    (H : Matrix (Fin m) (Fin n) ℝ) (A : Matrix (Fin n) (Fin m) ℝ) (c : Fin n → ℝ) : Unbiased μ H v A c ↔ A * H = 1 ∧ c = 0 := by
  have e : ∀ x i, ∫ ω, (A *ᵥ (H *ᵥ x + v ω) + c) i ∂μ = ((A * H) *ᵥ x + c) i := by
    intro x i
    rw [← mean_lin hv2 hv0 A ((A * H) *ᵥ x + c) i]
    congr 1; funext ω; rw [mulVec_add, mulVec_mulVec]; simp only [Pi.add_apply]; ring
  simp only [Unbiased, e]
  constructor
  · intro h
    have hc : c = 0 := by ext i; simpa using h 0 i
    refine ⟨?_, hc⟩
    apply ext_of_mulVec_single
    intro j
    ext i; simpa [hc, Pi.single_apply, one_apply] using h (Pi.single j 1) i
  · rintro ⟨h, rfl⟩ x i; simp [h]

/-- (helper) the weighted solution as a matrix times the data -/
theorem wls_matrix {L : LinSolver ℝ} (hL : L.Correct) {H : Matrix (Fin m) (Fin n) ℝ} (hH : FullColumnRank H) {W : Matrix (Fin m) (Fin m) ℝ}
    (hW : W.PosDef) (y : Fin m → ℝ) : L.ldltSolve (Hᵀ * W * H) ((Hᵀ * W) *ᵥ y) = ((Hᵀ * W * H)⁻¹ * (Hᵀ * W)) *ᵥ y := by
  have hN := normal_pd hH hW
  have h1 := hL.solve _ ((Hᵀ * W) *ᵥ y) hN
  have inj : Function.Injective (fun w : Fin n → ℝ => (Hᵀ * W * H) *ᵥ w) := mulVec_injective_iff_isUnit.2 hN.isUnit
  apply inj
  show _ *ᵥ _ = _ *ᵥ _
  rw [h1, mulVec_mulVec, ← Matrix.mul_assoc, mul_nonsing_inv _ (pd_det hN), Matrix.one_mul]

/-- C98 (Gauss-Markov). Let `y = H x + v` with zero-mean noise of second moment `R` (positive definite), `H` of full column rank, any sizes, any
probability space. The weighted solver called with `W = R⁻¹` succeeds, its estimate is right on average, its error has second moment `M` with
`(Hᵀ R⁻¹ H) M = 1`, and no affine estimator that is right on average for every state has a smaller error second moment in any direction. -/
theorem C98_gauss_markov [IsProbabilityMeasure μ] {L : LinSolver ℝ} (hL : L.Correct) (H : Matrix (Fin m) (Fin n) ℝ) (hH : FullColumnRank H)
    (R W : Matrix (Fin m) (Fin m) ℝ) (hR : IsPosCov R) (hW : W * R = 1) (v : Ω → Fin m → ℝ) (hv2 : ∀ f ∈ comps v, MemLp f 2 μ)
    (hv0 : ∀ i, ∫ ω, v ω i ∂μ = 0) (hvR : secondMoment μ v v = R) (x x0 : Fin n → ℝ) (J0 : ℝ) :
    ∃ (est : Ω → Fin n → ℝ) (J : Ω → ℝ) (M : Matrix (Fin n) (Fin n) ℝ),
      (∀ ω, weightedLinear L ⟨m, H *ᵥ x + v ω⟩ ⟨m, n, H⟩ ⟨m, m, W⟩ ⟨n, x0⟩ J0 = .ok (true, ⟨n, est ω⟩, J ω))
      ∧ (∀ i, ∫ ω, est ω i ∂μ = x i)
      ∧ secondMoment μ (fun ω => est ω - x) (fun ω => est ω - x) = M ∧ Hᵀ * W * H * M = 1
      ∧ ∀ A c, Unbiased μ H v A c →
          CovLe M (secondMoment μ (fun ω => A *ᵥ (H *ᵥ x + v ω) + c - x) (fun ω => A *ᵥ (H *ᵥ x + v ω) + c - x)) := by
  have hv2' : L2V μ v := fun i => hv2 _ ⟨i, rfl⟩
  rw [isPosCov_iff] at hR
  have hWi : W = R⁻¹ := (inv_eq_left_inv hW).symm
  have hWp : W.PosDef := hWi ▸ hR.inv
  have hWs : Wᵀ = W := psd_tr hWp.posSemidef
  have hN := normal_pd hH hWp
  have hNs : (Hᵀ * W * H)ᵀ = Hᵀ * W * H := psd_tr hN.posSemidef
  have hRW : R * W = 1 := mul_eq_one_comm.1 hW
  have hsol := wls_matrix hL hH hWp
  set N := Hᵀ * W * H with hNd
  set B := N⁻¹ * (Hᵀ * W) with hB
  have hBH : B * H = 1 := by rw [hB, Matrix.mul_assoc, ← hNd, nonsing_inv_mul _ (pd_det hN)]
  have hNit : (N⁻¹)ᵀ = N⁻¹ := by rw [transpose_nonsing_inv, hNs]
  have hBt : Bᵀ = W * H * N⁻¹ := by rw [hB, transpose_mul, transpose_mul, transpose_transpose, hWs, hNit]
  have lin : ∀ (A : Matrix (Fin n) (Fin m) ℝ), secondMoment μ (fun ω => A *ᵥ v ω) (fun ω => A *ᵥ v ω) = A * R * Aᵀ := by
    intro A
    rw [sm_mulVec_left _ hv2' (hv2'.mulVec A), sm_mulVec_right _ hv2' hv2', hvR, Matrix.mul_assoc]
  have hBRB : B * R * Bᵀ = N⁻¹ := by
    rw [hBt, hB]
    calc N⁻¹ * (Hᵀ * W) * R * (W * H * N⁻¹) = N⁻¹ * (Hᵀ * W * (R * W) * H) * N⁻¹ := by simp only [Matrix.mul_assoc]
      _ = N⁻¹ := by rw [hRW, Matrix.mul_one, ← hNd, nonsing_inv_mul _ (pd_det hN), Matrix.one_mul]
  clear_value B N
  refine ⟨_, _, N⁻¹, fun ω => wlls_R L (H *ᵥ x + v ω) H W x0 J0 hH.le, fun i => ?_, ?_, mul_nonsing_inv _ (pd_det hN), ?_⟩
  · simp only [← hNd, hsol]
    rw [← mean_lin hv2' hv0 B x i]
    congr 1; funext ω; rw [mulVec_add, mulVec_mulVec, hBH, one_mulVec]
  · simp only [← hNd, hsol]
    have : (fun ω => B *ᵥ (H *ᵥ x + v ω) - x) = fun ω => B *ᵥ v ω := by
      funext ω; rw [mulVec_add, mulVec_mulVec, hBH, one_mulVec, add_sub_cancel_left]
    rw [this, lin, hBRB]
  · intro A c hA
    obtain ⟨hAH, rfl⟩ := (unbiased_iff hv2' hv0 H A c).1 hA
    have : (fun ω => A *ᵥ (H *ᵥ x + v ω) + 0 - x) = fun ω => A *ᵥ v ω := by
      funext ω; rw [mulVec_add, mulVec_mulVec, hAH, one_mulVec, add_zero, add_sub_cancel_left]
    rw [this, lin, covLe_iff]
    have hcross : (A - B) * R * Bᵀ = 0 := by
      rw [hBt]
      calc (A - B) * R * (W * H * N⁻¹) = (A - B) * (R * W) * H * N⁻¹ := by simp only [Matrix.mul_assoc]
        _ = 0 := by rw [hRW, Matrix.mul_one, Matrix.sub_mul, hAH, hBH, sub_self, Matrix.zero_mul]
    have hcross' : B * R * (A - B)ᵀ = 0 := by
      have := congrArg transpose hcross
      rw [transpose_mul, transpose_mul, transpose_transpose, psd_tr hR.posSemidef, transpose_zero, ← Matrix.mul_assoc] at this
      exact this
    have hAe : A * R * Aᵀ - N⁻¹ = (A - B) * R * (A - B)ᵀ := by
      have e : A * R * Aᵀ = (A - B) * R * (A - B)ᵀ + (A - B) * R * Bᵀ + B * R * (A - B)ᵀ + B * R * Bᵀ := by
        simp only [transpose_sub]; mat_ring
      rw [e, hcross, hcross', hBRB]; abel
    rw [hAe]
    exact psd_conj hR.posSemidef _

end blue

/-- the hypotheses of C98 are met by two fair-coin measurement errors of different size -/
example :
    let v : Fin 4 → Fin 2 → ℝ := fun ω => ![![1, 1, -1, -1] ω, ![2, -2, 2, -2] ω]
    FullColumnRank (!![1; 1] : Matrix (Fin 2) (Fin 1) ℝ) ∧ IsPosCov (diagonal ![(1 : ℝ), 4])
      ∧ diagonal ![(1 : ℝ), 1 / 4] * diagonal ![(1 : ℝ), 4] = 1 ∧ (∀ i, ∫ ω, v ω i ∂fair4 = 0) ∧ secondMoment fair4 v v = diagonal ![(1 : ℝ), 4] := by
  refine ⟨?_, diag_isPosCov _ (by intro i; fin_cases i <;> norm_num), ?_, ?_, ?_⟩
  · intro x y h
    have h0 := congrFun h 0
    simp [mulVec, dotProduct] at h0
    ext i; fin_cases i; exact h0
  · ext i j; fin_cases i <;> fin_cases j <;> simp
  · intro i; fin_cases i <;> simp [integral_fair4]
  · ext i j; fin_cases i <;> fin_cases j <;> simp [secondMoment, corr, integral_fair4] <;> norm_num

/-! ## C99 -/

/-- C99. Recursive estimation agrees with batch estimation. Solve a first batch of measurements by weighted least squares (weights `R1⁻¹`), start
the filter from that estimate with covariance `P1`, `(H1ᵀ R1⁻¹ H1) P1 = 1`, and give it a second batch: the filter's new state is exactly what
weighted least squares returns for all measurements at once, and its new covariance `P'` again satisfies `(Hᵀ R⁻¹ H) P' = 1` for the stacked
problem. -/
theorem C99_recursive_eq_batch {n m p : ℕ} {L : LinSolver ℝ} (hL : L.Correct)
    (y1 : Fin m → ℝ) (H1 : Matrix (Fin m) (Fin n) ℝ) (R1 W1 : Matrix (Fin m) (Fin m) ℝ) (hH1 : FullColumnRank H1)
    (hR1 : IsPosCov R1) (hW1 : W1 * R1 = 1)
    (y2 : Fin p → ℝ) (H2 : Matrix (Fin p) (Fin n) ℝ) (R2 W2 : Matrix (Fin p) (Fin p) ℝ) (hR2 : IsPosCov R2) (hW2 : W2 * R2 = 1)
    (P1 : Matrix (Fin n) (Fin n) ℝ) (hP1 : H1ᵀ * W1 * H1 * P1 = 1) (x0 xo : Fin n → ℝ) (Po : Matrix (Fin n) (Fin n) ℝ) (J0 : ℝ) :
    ∃ x1 J1 x2 J2 P',
      weightedLinear L ⟨m, y1⟩ ⟨m, n, H1⟩ ⟨m, m, W1⟩ ⟨n, x0⟩ J0 = .ok (true, ⟨n, x1⟩, J1)
      ∧ weightedLinear L ⟨m + p, stackV y1 y2⟩ ⟨m + p, n, stackM H1 H2⟩ ⟨m + p, m + p, blockDiag2 W1 W2⟩ ⟨n, x0⟩ J0 = .ok (true, ⟨n, x2⟩, J2)
      ∧ filterUpdate L ⟨n, x1⟩ ⟨n, n, P1⟩ ⟨p, y2⟩ ⟨p, n, H2⟩ ⟨p, p, R2⟩ ⟨n, xo⟩ ⟨n, n, Po⟩ = .ok (true, ⟨n, x2⟩, ⟨n, n, P'⟩)
      ∧ (stackM H1 H2)ᵀ * blockDiag2 W1 W2 * stackM H1 H2 * P' = 1 := by
  rw [isPosCov_iff] at hR1 hR2
  have e1 : W1 = R1⁻¹ := (inv_eq_left_inv hW1).symm
  have e2 : W2 = R2⁻¹ := (inv_eq_left_inv hW2).symm
  have hW1p : W1.PosDef := e1 ▸ hR1.inv
  have hW2p : W2.PosDef := e2 ▸ hR2.inv
  have hN1 := normal_pd hH1 hW1p
  have hP1i : P1 = (H1ᵀ * W1 * H1)⁻¹ := (inv_eq_right_inv hP1).symm
  have hP1p : P1.PosSemidef := hP1i ▸ hN1.inv.posSemidef
  have hHs : FullColumnRank (stackM H1 H2) := by
    intro x y h
    apply hH1
    ext i
    have := congrFun h (Fin.castAdd p i)
    simpa [mulVec, dotProduct, stackM_l] using this
  have hBp := blockDiag_pd hW1p hW2p
  have hNs := normal_pd hHs hBp
  have hinfo : (stackM H1 H2)ᵀ * blockDiag2 W1 W2 * stackM H1 H2 = H1ᵀ * W1 * H1 + H2ᵀ * W2 * H2 := by
    have := info_stack (H1 := H1) (H2 := H2) hR1 hR2
    rwa [info, info, info, blockDiag_inv hR1 hR2, ← e1, ← e2] at this
  have hrhs : ((stackM H1 H2)ᵀ * blockDiag2 W1 W2) *ᵥ stackV y1 y2 = (H1ᵀ * W1) *ᵥ y1 + (H2ᵀ * W2) *ᵥ y2 := by
    rw [← mulVec_mulVec, blockDiag_mulVec, stackM_tr_mulVec, mulVec_mulVec, mulVec_mulVec]
  have hx1 := hL.solve _ ((H1ᵀ * W1) *ᵥ y1) hN1
  have hx2 := hL.solve _ (((stackM H1 H2)ᵀ * blockDiag2 W1 W2) *ᵥ stackV y1 y2) hNs
  set x1 := L.ldltSolve (H1ᵀ * W1 * H1) ((H1ᵀ * W1) *ᵥ y1)
  set x2 := L.ldltSolve ((stackM H1 H2)ᵀ * blockDiag2 W1 W2 * stackM H1 H2) (((stackM H1 H2)ᵀ * blockDiag2 W1 W2) *ᵥ stackV y1 y2)
  have hi2 : info H2 R2 = H2ᵀ * W2 * H2 := by rw [info, e2]
  have hfac : H1ᵀ * W1 * H1 * (1 + P1 * info H2 R2) = (stackM H1 H2)ᵀ * blockDiag2 W1 W2 * stackM H1 H2 := by
    rw [Matrix.mul_add, Matrix.mul_one, ← Matrix.mul_assoc _ P1, hP1, Matrix.one_mul, hi2, hinfo]
  have hmean := post_mean hP1p H2 hR2 x1 y2
  have hcov := post_cov hP1p H2 hR2
  have hx : x1 + gain P1 H2 R2 *ᵥ (y2 - H2 *ᵥ x1) = x2 := by
    have inj : Function.Injective (fun w : Fin n → ℝ => ((stackM H1 H2)ᵀ * blockDiag2 W1 W2 * stackM H1 H2) *ᵥ w) :=
      mulVec_injective_iff_isUnit.2 hNs.isUnit
    apply inj
    show _ *ᵥ _ = _ *ᵥ _
    rw [hx2, hrhs, ← hfac, ← mulVec_mulVec, hmean, mulVec_add, hx1, mulVec_mulVec, hP1, one_mulVec, mulVec_mulVec, e2]
  refine ⟨x1, _, x2, _, joseph P1 H2 R2 (gain P1 H2 R2), wlls_R L y1 H1 W1 x0 J0 hH1.le, wlls_R L _ _ _ x0 J0 hHs.le, ?_, ?_⟩
  · rw [update_R hL x1 hP1p y2 H2 hR2 xo Po, hx]
  · rw [← hfac, Matrix.mul_assoc, hcov, hP1]

example : FullColumnRank (!![1; 1] : Matrix (Fin 2) (Fin 1) ℝ) ∧ IsPosCov (diagonal ![(1 : ℝ), 4])
    ∧ diagonal ![(1 : ℝ), 1 / 4] * diagonal ![(1 : ℝ), 4] = 1 ∧ IsPosCov (diagonal ![(2 : ℝ)])
    ∧ (!![1; 1] : Matrix (Fin 2) (Fin 1) ℝ)ᵀ * diagonal ![(1 : ℝ), 1 / 4] * (!![1; 1] : Matrix (Fin 2) (Fin 1) ℝ) * !![4 / 5] = 1 := by
  refine ⟨?_, diag_isPosCov _ (by intro i; fin_cases i <;> norm_num), ?_, diag_isPosCov _ (by intro i; fin_cases i; norm_num), ?_⟩
  · intro x y h
    have h0 := congrFun h 0
    simp [mulVec, dotProduct] at h0
    ext i; fin_cases i; exact h0
  · ext i j; fin_cases i <;> fin_cases j <;> simp
  · ext i j; fin_cases i; fin_cases j; simp [mul_apply, Fin.sum_univ_two]; norm_num

end NavFuse.Props
