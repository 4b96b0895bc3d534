import Verif.Lemmas.KalmanAlgebra
import Verif.Lemmas.KalmanEval
import Verif.Lemmas.Moments

/-! # Properties C74-C81: linear/extended Kalman filter -/

set_option linter.unusedSectionVars false

namespace NavFuse.Props
open Matrix Kalman Spec KA

section evaluation
variable {n m : ℕ}

/-- (helper) the update at ℝ, with a correct solver -/
theorem update_R {L : LinSolver ℝ} (hL : L.Correct) (x : Fin n → ℝ) {P : Matrix (Fin n) (Fin n) ℝ} (hP : P.PosSemidef) (z : Fin m → ℝ)
    (H : Matrix (Fin m) (Fin n) ℝ) {R : Matrix (Fin m) (Fin m) ℝ} (hR : R.PosDef) (xo : Fin n → ℝ) (Po : Matrix (Fin n) (Fin n) ℝ) :
    filterUpdate L ⟨n, x⟩ ⟨n, n, P⟩ ⟨m, z⟩ ⟨m, n, H⟩ ⟨m, m, R⟩ ⟨n, xo⟩ ⟨n, n, Po⟩
      = .ok (true, ⟨n, x + gain P H R *ᵥ (z - H *ᵥ x)⟩, ⟨n, n, joseph P H R (gain P H R)⟩) := by
  have hg : gainC L P H R = gain P H R := by
    have := hL.inv_eq _ (pd_det (innov_pd hP H hR))
    simp only [innov] at this
    simp only [gainC, rsimp, gain, innov, this]
  rw [update_fit, hg]; simp only [rsimp, joseph]
end evaluation

/-! ## C74 -/

/-- C74. For every dimension, `filterPredict` returns `Φ x` and `Φ P Φᵀ + Q`, and the latter is a covariance matrix whenever `P` and `Q` are. -/
theorem C74_predict_covariance {n : ℕ} (x : Fin n → ℝ) (P F Q : Matrix (Fin n) (Fin n) ℝ) (xo : Fin n → ℝ) (Po : Matrix (Fin n) (Fin n) ℝ)
    (hP : IsCov P) (hQ : IsCov Q) :
    ∃ x' P', filterPredict ⟨n, x⟩ ⟨n, n, P⟩ ⟨n, n, F⟩ ⟨n, n, Q⟩ ⟨n, xo⟩ ⟨n, n, Po⟩ = .ok (true, ⟨n, x'⟩, ⟨n, n, P'⟩)
      ∧ x' = F *ᵥ x ∧ P' = F * P * Fᵀ + Q ∧ IsCov P' := by
  refine ⟨_, _, predict_R x P F Q xo Po, rfl, rfl, ?_⟩
  rw [isCov_iff] at *
  exact (psd_conj hP F).add hQ

theorem diag_isPosCov {n : ℕ} (d : Fin n → ℝ) (hd : ∀ i, 0 < d i) : IsPosCov (diagonal d) :=
  isPosCov_iff.2 (PosDef.diagonal hd)
theorem diag_isCov {n : ℕ} (d : Fin n → ℝ) (hd : ∀ i, 0 ≤ d i) : IsCov (diagonal d) :=
  isCov_iff.2 (PosSemidef.diagonal hd)

example : IsCov (diagonal ![(4 : ℝ), 9]) ∧ IsCov (diagonal ![(0 : ℝ), 1]) :=
  ⟨diag_isCov _ (by intro i; fin_cases i <;> norm_num), diag_isCov _ (by intro i; fin_cases i <;> norm_num)⟩

/-- C74 (ensemble form). If the prior errors `e` have second moment `P` and the process noise `w` has second moment `Q` and is uncorrelated
with them, the returned matrix is exactly the second moment of the propagated errors `Φ e + w`. -/
theorem C74_predict_consistent {n : ℕ} {Ω : Type} [Fintype Ω] (p : Ω → ℝ) (e w : Ω → Fin n → ℝ) (x : Fin n → ℝ)
    (P F Q : Matrix (Fin n) (Fin n) ℝ) (xo : Fin n → ℝ) (Po : Matrix (Fin n) (Fin n) ℝ)
    (hP : moment p e e = P) (hQ : moment p w w = Q) (hew : moment p e w = 0) :
    ∃ x' P', filterPredict ⟨n, x⟩ ⟨n, n, P⟩ ⟨n, n, F⟩ ⟨n, n, Q⟩ ⟨n, xo⟩ ⟨n, n, Po⟩ = .ok (true, ⟨n, x'⟩, ⟨n, n, P'⟩)
      ∧ P' = moment p (fun ω => F *ᵥ e ω + w ω) (fun ω => F *ᵥ e ω + w ω) := by
  refine ⟨_, _, predict_R x P F Q xo Po, ?_⟩
  have hwe : moment p w e = 0 := by rw [← moment_tr, hew, transpose_zero]
  rw [moment_add_left, moment_add_right, moment_add_right, moment_mulVec_left, moment_mulVec_right, moment_mulVec_right,
    moment_mulVec_left, hP, hQ, hew, hwe, Matrix.mul_zero, Matrix.zero_mul, add_zero, zero_add, Matrix.mul_assoc]

example : moment (fun _ : Fin 2 => (1 / 2 : ℝ)) (fun ω => ![![2, 0], ![-2, 0]] ω) (fun ω => ![![(2 : ℝ), 0], ![-2, 0]] ω)
    = !![4, 0; 0, 0] := by
  ext i j; fin_cases i <;> fin_cases j <;> norm_num [moment, Fin.sum_univ_two]

/-! ## C75, C76, C77 -/

/-- C75. For every dimension, a covariance `P`, a positive definite `R`, any `H`, `z`: `filterUpdate` succeeds and the new covariance is again a
covariance matrix and is no larger than `P` in any direction. -/
theorem C75_update_covariance {n m : ℕ} {L : LinSolver ℝ} (hL : L.Correct) (x : Fin n → ℝ) (P : Matrix (Fin n) (Fin n) ℝ) (z : Fin m → ℝ)
    (H : Matrix (Fin m) (Fin n) ℝ) (R : Matrix (Fin m) (Fin m) ℝ) (xo : Fin n → ℝ) (Po : Matrix (Fin n) (Fin n) ℝ)
    (hP : IsCov P) (hR : IsPosCov R) :
    ∃ x' P', filterUpdate L ⟨n, x⟩ ⟨n, n, P⟩ ⟨m, z⟩ ⟨m, n, H⟩ ⟨m, m, R⟩ ⟨n, xo⟩ ⟨n, n, Po⟩ = .ok (true, ⟨n, x'⟩, ⟨n, n, P'⟩)
      ∧ IsCov P' ∧ CovLe P' P := by
  rw [isCov_iff] at hP
  rw [isPosCov_iff] at hR
  refine ⟨_, _, update_R hL x hP z H hR xo Po, ?_, ?_⟩
  · exact isCov_iff.2 (joseph_psd hP H hR.posSemidef _)
  · have hS := innov_pd hP H hR
    rw [covLe_iff, joseph_opt (psd_tr hP) (psd_tr hS.posSemidef) (pd_det hS), sub_sub_cancel]
    exact psd_conj hS.posSemidef _

example : IsCov (diagonal ![(4 : ℝ), 9]) ∧ IsPosCov (diagonal ![(2 : ℝ)]) ∧ LinSolver.exact.Correct :=
  ⟨diag_isCov _ (by intro i; fin_cases i <;> norm_num), diag_isPosCov _ (by intro i; fin_cases i; norm_num), LinSolver.exact_correct⟩

/-- C76. The covariance computed in Joseph form equals both short forms `(I - K H) P` and `P - K S Kᵀ`, where `S = H P Hᵀ + R` and the gain `K`
is characterised by `K S = P Hᵀ`, and the state moves by `K (z - H x)`. -/
theorem C76_joseph_short_forms {n m : ℕ} {L : LinSolver ℝ} (hL : L.Correct) (x : Fin n → ℝ) (P : Matrix (Fin n) (Fin n) ℝ) (z : Fin m → ℝ)
    (H : Matrix (Fin m) (Fin n) ℝ) (R : Matrix (Fin m) (Fin m) ℝ) (xo : Fin n → ℝ) (Po : Matrix (Fin n) (Fin n) ℝ)
    (hP : IsCov P) (hR : IsPosCov R) :
    ∃ x' P' K, filterUpdate L ⟨n, x⟩ ⟨n, n, P⟩ ⟨m, z⟩ ⟨m, n, H⟩ ⟨m, m, R⟩ ⟨n, xo⟩ ⟨n, n, Po⟩ = .ok (true, ⟨n, x'⟩, ⟨n, n, P'⟩)
      ∧ K * (H * P * Hᵀ + R) = P * Hᵀ
      ∧ x' = x + K *ᵥ (z - H *ᵥ x)
      ∧ P' = (1 - K * H) * P
      ∧ P' = P - K * (H * P * Hᵀ + R) * Kᵀ := by
  rw [isCov_iff] at hP
  rw [isPosCov_iff] at hR
  have hS := innov_pd hP H hR
  exact ⟨_, _, gain P H R, update_R hL x hP z H hR xo Po, gain_mul_innov (pd_det hS), rfl,
    joseph_short (psd_tr hP) (psd_tr hS.posSemidef) (pd_det hS), joseph_opt (psd_tr hP) (psd_tr hS.posSemidef) (pd_det hS)⟩

example : IsCov (diagonal ![(0 : ℝ), 9]) ∧ IsPosCov (diagonal ![(2 : ℝ), 1 / 3]) :=
  ⟨diag_isCov _ (by intro i; fin_cases i <;> norm_num), diag_isPosCov _ (by intro i; fin_cases i <;> norm_num)⟩

/-- (helper) error of the linear update with gain `G`, as an ensemble moment -/
theorem moment_update {n m : ℕ} {Ω : Type} [Fintype Ω] (p : Ω → ℝ) (truth est : Ω → Fin n → ℝ) (v : Ω → Fin m → ℝ)
    (P : Matrix (Fin n) (Fin n) ℝ) (H : Matrix (Fin m) (Fin n) ℝ) (R : Matrix (Fin m) (Fin m) ℝ)
    (hP : moment p (fun ω => truth ω - est ω) (fun ω => truth ω - est ω) = P) (hR : moment p v v = R)
    (hev : moment p (fun ω => truth ω - est ω) v = 0) (G : Matrix (Fin n) (Fin m) ℝ) :
    moment p (fun ω => truth ω - (est ω + G *ᵥ (H *ᵥ truth ω + v ω - H *ᵥ est ω)))
      (fun ω => truth ω - (est ω + G *ᵥ (H *ᵥ truth ω + v ω - H *ᵥ est ω))) = joseph P H R G := by
  have he : (fun ω => truth ω - (est ω + G *ᵥ (H *ᵥ truth ω + v ω - H *ᵥ est ω)))
      = fun ω => (1 - G * H) *ᵥ (truth ω - est ω) + (-G) *ᵥ v ω := by
    funext ω
    rw [show H *ᵥ truth ω + v ω - H *ᵥ est ω = H *ᵥ (truth ω - est ω) + v ω by rw [mulVec_sub]; abel,
      mulVec_add, mulVec_mulVec, sub_mulVec, one_mulVec, neg_mulVec]
    abel
  have hve : moment p v (fun ω => truth ω - est ω) = 0 := by rw [← moment_tr, hev, transpose_zero]
  rw [he, moment_add_left, moment_add_right, moment_add_right, moment_mulVec_left, moment_mulVec_left, moment_mulVec_left, moment_mulVec_left,
    moment_mulVec_right, moment_mulVec_right, moment_mulVec_right, moment_mulVec_right, hP, hR, hev, hve, joseph]
  simp [Matrix.mul_assoc]

/-- C77. The gain is optimal and the reported covariance is honest.  Take any ensemble of runs (weights `p`) in which the prior estimates have
error second moment `P`, the measurement noise has second moment `R` and is uncorrelated with the prior error.  Then the covariance returned by
`filterUpdate` (the same for every run) is exactly the error second moment of the returned states, and any other linear update
`est + G (z - H est)` has an error second moment at least as large. -/
theorem C77_update_consistent_and_optimal {n m : ℕ} {Ω : Type} [Fintype Ω] {L : LinSolver ℝ} (hL : L.Correct) (p : Ω → ℝ)
    (truth est : Ω → Fin n → ℝ) (v : Ω → Fin m → ℝ)
    (P : Matrix (Fin n) (Fin n) ℝ) (H : Matrix (Fin m) (Fin n) ℝ) (R : Matrix (Fin m) (Fin m) ℝ) (xo : Fin n → ℝ)
    (Po : Matrix (Fin n) (Fin n) ℝ) (hPc : IsCov P) (hRc : IsPosCov R)
    (hP : moment p (fun ω => truth ω - est ω) (fun ω => truth ω - est ω) = P) (hR : moment p v v = R)
    (hev : moment p (fun ω => truth ω - est ω) v = 0) :
    ∃ (x' : Ω → Fin n → ℝ) (P' : Matrix (Fin n) (Fin n) ℝ),
      (∀ ω, filterUpdate L ⟨n, est ω⟩ ⟨n, n, P⟩ ⟨m, H *ᵥ truth ω + v ω⟩ ⟨m, n, H⟩ ⟨m, m, R⟩ ⟨n, xo⟩ ⟨n, n, Po⟩
        = .ok (true, ⟨n, x' ω⟩, ⟨n, n, P'⟩))
      ∧ moment p (fun ω => truth ω - x' ω) (fun ω => truth ω - x' ω) = P'
      ∧ ∀ G : Matrix (Fin n) (Fin m) ℝ,
          CovLe P' (moment p (fun ω => truth ω - (est ω + G *ᵥ (H *ᵥ truth ω + v ω - H *ᵥ est ω)))
            (fun ω => truth ω - (est ω + G *ᵥ (H *ᵥ truth ω + v ω - H *ᵥ est ω)))) := by
  rw [isCov_iff] at hPc
  rw [isPosCov_iff] at hRc
  have hS := innov_pd hPc H hRc
  refine ⟨_, _, fun ω => update_R hL (est ω) hPc (H *ᵥ truth ω + v ω) H hRc xo Po, ?_, fun G => ?_⟩
  · exact moment_update p truth est v P H R hP hR hev _
  · rw [moment_update p truth est v P H R hP hR hev G, covLe_iff, joseph_opt (psd_tr hPc) (psd_tr hS.posSemidef) (pd_det hS),
      joseph_gap (psd_tr hPc) (psd_tr hS.posSemidef) (pd_det hS) G, add_sub_cancel_left]
    exact psd_conj hS.posSemidef _

/-- the hypotheses of C77 are met by a four-run ensemble with independent error and noise -/
example :
    let p : Fin 4 → ℝ := fun _ => 1 / 4
    let truth : Fin 4 → Fin 1 → ℝ := fun ω _ => ![2, 2, -2, -2] ω
    let v : Fin 4 → Fin 1 → ℝ := fun ω _ => ![1, -1, 1, -1] ω
    moment p (fun ω => truth ω - 0) (fun ω => truth ω - 0) = !![4] ∧ moment p v v = !![1] ∧ moment p (fun ω => truth ω - 0) v = 0 := by
  refine ⟨?_, ?_, ?_⟩ <;> ext i j <;> fin_cases i <;> fin_cases j <;> simp [moment, Fin.sum_univ_four] <;> norm_num

/-! ## C78 -/

theorem quad_add {n : ℕ} {A : Matrix (Fin n) (Fin n) ℝ} (hA : Aᵀ = A) (u v : Fin n → ℝ) :
    quad A (u + v) = quad A u + 2 * (u ⬝ᵥ (A *ᵥ v)) + quad A v := by
  have : v ⬝ᵥ (A *ᵥ u) = u ⬝ᵥ (A *ᵥ v) := by
    rw [dotProduct_mulVec, ← mulVec_transpose, hA, dotProduct_comm]
  simp only [quad, mulVec_add, add_dotProduct, dotProduct_add, this]; ring

/-- C78. With regular `P` and `R` the updated state is the unique minimiser of the prior-plus-measurement cost (the maximum a posteriori estimate),
and the information matrices add: `P'⁻¹ = P⁻¹ + Hᵀ R⁻¹ H`. -/
theorem C78_update_is_map_estimate {n m : ℕ} {L : LinSolver ℝ} (hL : L.Correct) (x : Fin n → ℝ) (P : Matrix (Fin n) (Fin n) ℝ) (z : Fin m → ℝ)
    (H : Matrix (Fin m) (Fin n) ℝ) (R : Matrix (Fin m) (Fin m) ℝ) (xo : Fin n → ℝ) (Po : Matrix (Fin n) (Fin n) ℝ)
    (hP : IsPosCov P) (hR : IsPosCov R) :
    ∃ x' P', filterUpdate L ⟨n, x⟩ ⟨n, n, P⟩ ⟨m, z⟩ ⟨m, n, H⟩ ⟨m, m, R⟩ ⟨n, xo⟩ ⟨n, n, Po⟩ = .ok (true, ⟨n, x'⟩, ⟨n, n, P'⟩)
      ∧ UniqueMin (fun ξ => quad P⁻¹ (ξ - x) + quad R⁻¹ (z - H *ᵥ ξ)) x'
      ∧ P' * (P⁻¹ + Hᵀ * R⁻¹ * H) = 1 ∧ (P⁻¹ + Hᵀ * R⁻¹ * H) * P' = 1 := by
  rw [isPosCov_iff] at hP hR
  have hP0 := hP.posSemidef
  refine ⟨_, _, update_R hL x hP0 z H hR xo Po, ?_, ?_⟩
  · set x' := x + gain P H R *ᵥ (z - H *ᵥ x) with hx'
    have hm := post_mean hP0 H hR x z
    rw [← hx'] at hm
    have hm2 : P⁻¹ *ᵥ (x' - x) = Hᵀ *ᵥ (R⁻¹ *ᵥ (z - H *ᵥ x')) := by
      have h2 := congrArg (fun w => P⁻¹ *ᵥ w) hm
      simp only [add_mulVec, mulVec_add, one_mulVec, mulVec_mulVec, ← Matrix.mul_assoc, nonsing_inv_mul _ (pd_det hP), Matrix.one_mul] at h2
      rw [mulVec_sub, mulVec_sub, mulVec_sub, sub_eq_sub_iff_add_eq_add, add_comm, add_comm _ (P⁻¹ *ᵥ x)]
      simp only [mulVec_mulVec, ← Matrix.mul_assoc]
      rw [add_comm]; exact h2
    intro ξ hξ
    have hd : ξ - x' ≠ 0 := sub_ne_zero.2 hξ
    have e1 : ξ - x = (ξ - x') + (x' - x) := by abel
    have e2 : z - H *ᵥ ξ = -(H *ᵥ (ξ - x')) + (z - H *ᵥ x') := by rw [mulVec_sub]; abel
    have hPi : (P⁻¹)ᵀ = P⁻¹ := psd_tr hP.inv.posSemidef
    have hRi : (R⁻¹)ᵀ = R⁻¹ := psd_tr hR.inv.posSemidef
    have c1 : (H *ᵥ (ξ - x')) ⬝ᵥ (R⁻¹ *ᵥ (z - H *ᵥ x')) = (ξ - x') ⬝ᵥ (P⁻¹ *ᵥ (x' - x)) := by
      rw [hm2, dotProduct_mulVec (ξ - x') Hᵀ, vecMul_transpose]
    have pos : 0 < quad P⁻¹ (ξ - x') := by
      have := hP.inv.dotProduct_mulVec_pos hd; simpa [quad] using this
    have nn : 0 ≤ quad R⁻¹ (-(H *ᵥ (ξ - x'))) := by
      have := hR.inv.posSemidef.dotProduct_mulVec_nonneg (-(H *ᵥ (ξ - x'))); simpa [quad] using this
    show quad P⁻¹ (x' - x) + quad R⁻¹ (z - H *ᵥ x') < quad P⁻¹ (ξ - x) + quad R⁻¹ (z - H *ᵥ ξ)
    rw [e1, e2, quad_add hPi, quad_add hRi, neg_dotProduct, c1]
    linarith
  · have hc := post_cov hP0 H hR
    have h2 := congrArg (fun w => P⁻¹ * w) hc
    simp only [nonsing_inv_mul _ (pd_det hP), ← Matrix.mul_assoc, Matrix.mul_add, Matrix.mul_one, Matrix.one_mul] at h2
    have h3 : (P⁻¹ + Hᵀ * R⁻¹ * H) * joseph P H R (gain P H R) = 1 := by simpa [info] using h2
    exact ⟨mul_eq_one_comm.1 h3, h3⟩

example : IsPosCov (diagonal ![(4 : ℝ), 9]) ∧ IsPosCov (diagonal ![(2 : ℝ)]) :=
  ⟨diag_isPosCov _ (by intro i; fin_cases i <;> norm_num), diag_isPosCov _ (by intro i; fin_cases i; norm_num)⟩

/-! ## C79 -/

section stack
variable {n m p : ℕ}

theorem blockDiag_mul (A C : Matrix (Fin m) (Fin m) ℝ) (B D : Matrix (Fin p) (Fin p) ℝ) :
    blockDiag2 A B * blockDiag2 C D = blockDiag2 (A * C) (B * D) := by
  ext i j
  refine Fin.addCases (fun i => ?_) (fun i => ?_) i <;> refine Fin.addCases (fun j => ?_) (fun j => ?_) j <;>
    simp [blockDiag2, mul_apply, Fin.sum_univ_add]

theorem blockDiag_one : blockDiag2 (1 : Matrix (Fin m) (Fin m) ℝ) (1 : Matrix (Fin p) (Fin p) ℝ) = 1 := by
  ext i j
  refine Fin.addCases (fun i => ?_) (fun i => ?_) i <;> refine Fin.addCases (fun j => ?_) (fun j => ?_) j <;>
    simp [blockDiag2, one_apply, Fin.ext_iff] <;> omega

theorem blockDiag_tr (A : Matrix (Fin m) (Fin m) ℝ) (B : Matrix (Fin p) (Fin p) ℝ) : (blockDiag2 A B)ᵀ = blockDiag2 Aᵀ Bᵀ := by
  ext i j
  refine Fin.addCases (fun i => ?_) (fun i => ?_) i <;> refine Fin.addCases (fun j => ?_) (fun j => ?_) j <;>
    simp [blockDiag2]

theorem blockDiag_mulVec (A : Matrix (Fin m) (Fin m) ℝ) (B : Matrix (Fin p) (Fin p) ℝ) (a : Fin m → ℝ) (b : Fin p → ℝ) :
    blockDiag2 A B *ᵥ stackV a b = stackV (A *ᵥ a) (B *ᵥ b) := by
  ext i
  refine Fin.addCases (fun i => ?_) (fun i => ?_) i <;> simp [blockDiag2, mulVec, dotProduct, Fin.sum_univ_add, stackV]

theorem stack_dot (a c : Fin m → ℝ) (b d : Fin p → ℝ) : stackV a b ⬝ᵥ stackV c d = a ⬝ᵥ c + b ⬝ᵥ d := by
  simp [stackV, dotProduct, Fin.sum_univ_add]

theorem blockDiag_pd {A : Matrix (Fin m) (Fin m) ℝ} {B : Matrix (Fin p) (Fin p) ℝ} (hA : A.PosDef) (hB : B.PosDef) :
    (blockDiag2 A B).PosDef := by
  rw [← isPosCov_iff] at *
  refine ⟨by rw [IsSymm, blockDiag_tr, hA.1, hB.1], fun v hv => ?_⟩
  have hsv : v = stackV (fun i => v (Fin.castAdd p i)) (fun i => v (Fin.natAdd m i)) := by
    ext i; refine Fin.addCases (fun i => ?_) (fun i => ?_) i <;> simp [stackV]
  set a : Fin m → ℝ := fun i => v (Fin.castAdd p i)
  set b : Fin p → ℝ := fun i => v (Fin.natAdd m i)
  rw [hsv, blockDiag_mulVec, stack_dot]
  by_cases ha : a = 0
  · have hb : b ≠ 0 := by
      rintro hb; apply hv; rw [hsv, ha, hb]; ext i; refine Fin.addCases (fun i => ?_) (fun i => ?_) i <;> simp [stackV]
    have := hB.2 b hb
    simpa [ha] using this
  · have h1 := hA.2 a ha
    by_cases hb : b = 0
    · simpa [hb] using h1
    · have := hB.2 b hb; linarith

theorem blockDiag_inv {A : Matrix (Fin m) (Fin m) ℝ} {B : Matrix (Fin p) (Fin p) ℝ} (hA : A.PosDef) (hB : B.PosDef) :
    (blockDiag2 A B)⁻¹ = blockDiag2 A⁻¹ B⁻¹ := by
  apply inv_eq_right_inv
  rw [blockDiag_mul, mul_nonsing_inv _ (pd_det hA), mul_nonsing_inv _ (pd_det hB), blockDiag_one]

theorem stackM_l (A : Matrix (Fin m) (Fin n) ℝ) (B : Matrix (Fin p) (Fin n) ℝ) (i : Fin m) (j : Fin n) :
    stackM A B (Fin.castAdd p i) j = A i j := by rw [stackM, of_apply, Fin.append_left]
theorem stackM_r (A : Matrix (Fin m) (Fin n) ℝ) (B : Matrix (Fin p) (Fin n) ℝ) (i : Fin p) (j : Fin n) :
    stackM A B (Fin.natAdd m i) j = B i j := by rw [stackM, of_apply, Fin.append_right]

theorem stackM_tr_mulVec (A : Matrix (Fin m) (Fin n) ℝ) (B : Matrix (Fin p) (Fin n) ℝ) (a : Fin m → ℝ) (b : Fin p → ℝ) :
    (stackM A B)ᵀ *ᵥ stackV a b = Aᵀ *ᵥ a + Bᵀ *ᵥ b := by
  ext i; simp [stackM_l, stackM_r, stackV, mulVec, dotProduct, Fin.sum_univ_add]

theorem info_stack {H1 : Matrix (Fin m) (Fin n) ℝ} {H2 : Matrix (Fin p) (Fin n) ℝ} {R1 : Matrix (Fin m) (Fin m) ℝ}
    {R2 : Matrix (Fin p) (Fin p) ℝ} (h1 : R1.PosDef) (h2 : R2.PosDef) :
    info (stackM H1 H2) (blockDiag2 R1 R2) = info H1 R1 + info H2 R2 := by
  rw [info, blockDiag_inv h1 h2]
  ext i j
  simp [info, mul_apply, Fin.sum_univ_add, stackM_l, stackM_r, blockDiag2, Finset.sum_mul]
end stack

/-- C79. Two uncorrelated measurements processed one after the other (feeding the first result into the second call) give the same state and
covariance as one call with the stacked measurement; by symmetry the order does not matter (next theorem). -/
theorem C79_sequential_eq_batch {n m p : ℕ} {L : LinSolver ℝ} (hL : L.Correct) (x : Fin n → ℝ) (P : Matrix (Fin n) (Fin n) ℝ)
    (z1 : Fin m → ℝ) (H1 : Matrix (Fin m) (Fin n) ℝ) (R1 : Matrix (Fin m) (Fin m) ℝ)
    (z2 : Fin p → ℝ) (H2 : Matrix (Fin p) (Fin n) ℝ) (R2 : Matrix (Fin p) (Fin p) ℝ) (xo : Fin n → ℝ) (Po : Matrix (Fin n) (Fin n) ℝ)
    (hP : IsCov P) (hR1 : IsPosCov R1) (hR2 : IsPosCov R2) :
    (filterUpdate L ⟨n, x⟩ ⟨n, n, P⟩ ⟨m, z1⟩ ⟨m, n, H1⟩ ⟨m, m, R1⟩ ⟨n, xo⟩ ⟨n, n, Po⟩ >>=
        fun r => filterUpdate L r.2.1 r.2.2 ⟨p, z2⟩ ⟨p, n, H2⟩ ⟨p, p, R2⟩ ⟨n, xo⟩ ⟨n, n, Po⟩)
      = filterUpdate L ⟨n, x⟩ ⟨n, n, P⟩ ⟨m + p, stackV z1 z2⟩ ⟨m + p, n, stackM H1 H2⟩ ⟨m + p, m + p, blockDiag2 R1 R2⟩ ⟨n, xo⟩ ⟨n, n, Po⟩ := by
  rw [isCov_iff] at hP
  rw [isPosCov_iff] at hR1 hR2
  have hB := blockDiag_pd hR1 hR2
  have hP1 := joseph_psd hP H1 hR1.posSemidef (gain P H1 R1)
  rw [update_R hL x hP z1 H1 hR1, Out.ok_bind]
  simp only
  rw [update_R hL _ hP1 z2 H2 hR2, update_R hL x hP _ (stackM H1 H2) hB]
  set P1 := joseph P H1 R1 (gain P H1 R1) with hP1d
  set x1 := x + gain P H1 R1 *ᵥ (z1 - H1 *ᵥ x) with hx1
  have u := one_add_mul_unit hP (info_psd (stackM H1 H2) hB)
  have c1 := post_cov hP H1 hR1
  have m1 := post_mean hP H1 hR1 x z1
  rw [← hP1d] at c1
  rw [← hx1] at m1
  have hfac : (1 + P * info H1 R1) * (1 + P1 * info H2 R2) = 1 + P * info (stackM H1 H2) (blockDiag2 R1 R2) := by
    rw [info_stack hR1 hR2, Matrix.mul_add, ← Matrix.mul_assoc, c1]; mat_ring
  have inj : Function.Injective (fun w : Fin n → ℝ => (1 + P * info (stackM H1 H2) (blockDiag2 R1 R2)) *ᵥ w) :=
    mulVec_injective_iff_isUnit.2 ((isUnit_iff_isUnit_det _).2 u)
  have ec : joseph P1 H2 R2 (gain P1 H2 R2)
      = joseph P (stackM H1 H2) (blockDiag2 R1 R2) (gain P (stackM H1 H2) (blockDiag2 R1 R2)) := by
    have l1 : (1 + P * info (stackM H1 H2) (blockDiag2 R1 R2)) * joseph P1 H2 R2 (gain P1 H2 R2) = P := by
      rw [← hfac, Matrix.mul_assoc, post_cov hP1 H2 hR2, c1]
    have l2 := post_cov hP (stackM H1 H2) hB
    have := congrArg (fun w => (1 + P * info (stackM H1 H2) (blockDiag2 R1 R2))⁻¹ * w) (l1.trans l2.symm)
    simpa only [← Matrix.mul_assoc, nonsing_inv_mul _ u, Matrix.one_mul] using this
  have em : x1 + gain P1 H2 R2 *ᵥ (z2 - H2 *ᵥ x1)
      = x + gain P (stackM H1 H2) (blockDiag2 R1 R2) *ᵥ (stackV z1 z2 - stackM H1 H2 *ᵥ x) := by
    apply inj
    show _ *ᵥ _ = _ *ᵥ _
    rw [post_mean hP (stackM H1 H2) hB x (stackV z1 z2), ← hfac, ← mulVec_mulVec, post_mean hP1 H2 hR2 x1 z2, mulVec_add, m1,
      mulVec_mulVec _ _ P1, c1, blockDiag_inv hR1 hR2, blockDiag_mulVec, stackM_tr_mulVec, mulVec_add, add_assoc]
  rw [ec, em]

/-- C79 (order independence). Swapping two uncorrelated measurements changes nothing. -/
theorem C79_order_independent {n m p : ℕ} {L : LinSolver ℝ} (hL : L.Correct) (x : Fin n → ℝ) (P : Matrix (Fin n) (Fin n) ℝ)
    (z1 : Fin m → ℝ) (H1 : Matrix (Fin m) (Fin n) ℝ) (R1 : Matrix (Fin m) (Fin m) ℝ)
    (z2 : Fin p → ℝ) (H2 : Matrix (Fin p) (Fin n) ℝ) (R2 : Matrix (Fin p) (Fin p) ℝ) (xo : Fin n → ℝ) (Po : Matrix (Fin n) (Fin n) ℝ)
    (hP : IsCov P) (hR1 : IsPosCov R1) (hR2 : IsPosCov R2) :
    (filterUpdate L ⟨n, x⟩ ⟨n, n, P⟩ ⟨m, z1⟩ ⟨m, n, H1⟩ ⟨m, m, R1⟩ ⟨n, xo⟩ ⟨n, n, Po⟩ >>=
        fun r => filterUpdate L r.2.1 r.2.2 ⟨p, z2⟩ ⟨p, n, H2⟩ ⟨p, p, R2⟩ ⟨n, xo⟩ ⟨n, n, Po⟩)
      = (filterUpdate L ⟨n, x⟩ ⟨n, n, P⟩ ⟨p, z2⟩ ⟨p, n, H2⟩ ⟨p, p, R2⟩ ⟨n, xo⟩ ⟨n, n, Po⟩ >>=
        fun r => filterUpdate L r.2.1 r.2.2 ⟨m, z1⟩ ⟨m, n, H1⟩ ⟨m, m, R1⟩ ⟨n, xo⟩ ⟨n, n, Po⟩) := by
  rw [C79_sequential_eq_batch hL x P z1 H1 R1 z2 H2 R2 xo Po hP hR1 hR2, C79_sequential_eq_batch hL x P z2 H2 R2 z1 H1 R1 xo Po hP hR2 hR1]
  rw [isCov_iff] at hP
  rw [isPosCov_iff] at hR1 hR2
  have hB := blockDiag_pd hR1 hR2
  have hB' := blockDiag_pd hR2 hR1
  rw [update_R hL x hP _ _ hB, update_R hL x hP _ _ hB']
  have hi : info (stackM H2 H1) (blockDiag2 R2 R1) = info (stackM H1 H2) (blockDiag2 R1 R2) := by
    rw [info_stack hR1 hR2, info_stack hR2 hR1, add_comm]
  have u := one_add_mul_unit hP (info_psd (stackM H1 H2) hB)
  have l1 := post_cov hP (stackM H1 H2) hB
  have l2 := post_cov hP (stackM H2 H1) hB'
  have k1 := post_mean hP (stackM H1 H2) hB x (stackV z1 z2)
  have k2 := post_mean hP (stackM H2 H1) hB' x (stackV z2 z1)
  rw [hi] at l2 k2
  rw [blockDiag_inv hR1 hR2, blockDiag_mulVec, stackM_tr_mulVec] at k1
  rw [blockDiag_inv hR2 hR1, blockDiag_mulVec, stackM_tr_mulVec, add_comm (H2ᵀ *ᵥ _)] at k2
  have ec := congrArg (fun w => (1 + P * info (stackM H1 H2) (blockDiag2 R1 R2))⁻¹ * w) (l1.trans l2.symm)
  simp only [← Matrix.mul_assoc, nonsing_inv_mul _ u, Matrix.one_mul] at ec
  have em := mulVec_injective_iff_isUnit.2 ((isUnit_iff_isUnit_det _).2 u) (k1.trans k2.symm)
  rw [ec, em]

example : IsCov (diagonal ![(4 : ℝ), 0]) ∧ IsPosCov (diagonal ![(2 : ℝ)]) ∧ IsPosCov (diagonal ![(3 : ℝ), 5]) :=
  ⟨diag_isCov _ (by intro i; fin_cases i <;> norm_num), diag_isPosCov _ (by intro i; fin_cases i; norm_num),
    diag_isPosCov _ (by intro i; fin_cases i <;> norm_num)⟩

/-! ## C80 -/

/-- One filter call of a run with `n` states. -/
inductive FilterOp (n : ℕ) : Type
  | predict (F Q : Matrix (Fin n) (Fin n) ℝ)
  | update (m : ℕ) (z : Fin m → ℝ) (H : Matrix (Fin m) (Fin n) ℝ) (R : Matrix (Fin m) (Fin m) ℝ)

/-- sensible noise matrices -/
def FilterOp.Sound {n : ℕ} : FilterOp n → Prop
  | .predict _ Q => IsCov Q
  | .update _ _ _ R => IsPosCov R

/-- perform one call, writing the result over the current state; stop when a call reports failure -/
noncomputable def FilterOp.exec {n : ℕ} (L : LinSolver ℝ) (s : DVec ℝ × DMat ℝ) : FilterOp n → Out (DVec ℝ × DMat ℝ)
  | .predict F Q => do
    let r ← filterPredict s.1 s.2 ⟨n, n, F⟩ ⟨n, n, Q⟩ s.1 s.2
    if r.1 then .ok r.2 else .error .throws
  | .update m z H R => do
    let r ← filterUpdate L s.1 s.2 ⟨m, z⟩ ⟨m, n, H⟩ ⟨m, m, R⟩ s.1 s.2
    if r.1 then .ok r.2 else .error .throws

/-- a whole run -/
noncomputable def runFilter {n : ℕ} (L : LinSolver ℝ) : List (FilterOp n) → DVec ℝ × DMat ℝ → Out (DVec ℝ × DMat ℝ)
  | [], s => .ok s
  | o :: os, s => do let s' ← o.exec L s; runFilter L os s'

/-- C80. Every finite run of predictions and updates with sound noise matrices, from any covariance, completes with every call reporting success,
and ends (hence, taking prefixes, always is) in a symmetric positive semidefinite covariance. -/
theorem C80_covariance_health {n : ℕ} {L : LinSolver ℝ} (hL : L.Correct) (ops : List (FilterOp n)) (hops : ∀ o ∈ ops, o.Sound)
    (x : Fin n → ℝ) (P : Matrix (Fin n) (Fin n) ℝ) (hP : IsCov P) :
    ∃ x' P', runFilter L ops (⟨n, x⟩, ⟨n, n, P⟩) = .ok (⟨n, x'⟩, ⟨n, n, P'⟩) ∧ IsCov P' := by
  induction ops generalizing x P with
  | nil => exact ⟨x, P, rfl, hP⟩
  | cons o os ih =>
    have ho := hops o (by simp)
    have hos : ∀ o ∈ os, o.Sound := fun o' h => hops o' (by simp [h])
    cases o with
    | predict F Q =>
      obtain ⟨x1, P1, h, -, -, hc⟩ := C74_predict_covariance x P F Q x P hP ho
      obtain ⟨x', P', h', hc'⟩ := ih hos x1 P1 hc
      exact ⟨x', P', by simp [runFilter, FilterOp.exec, h, osimp, h'], hc'⟩
    | update m z H R =>
      obtain ⟨x1, P1, h, hc, -⟩ := C75_update_covariance hL x P z H R x P hP ho
      obtain ⟨x', P', h', hc'⟩ := ih hos x1 P1 hc
      exact ⟨x', P', by simp [runFilter, FilterOp.exec, h, osimp, h'], hc'⟩

example : ∀ o ∈ [FilterOp.predict (n := 2) !![1, 1; 0, 1] (diagonal ![0, 1]), .update 1 ![3] !![1, 0] (diagonal ![2]),
    .predict !![1, 1; 0, 1] (diagonal ![0, 1])], o.Sound := by
  intro o ho
  simp only [List.mem_cons, List.not_mem_nil, or_false] at ho
  rcases ho with rfl | rfl | rfl
  · exact diag_isCov _ (by intro i; fin_cases i <;> norm_num)
  · exact diag_isPosCov _ (by intro i; fin_cases i; norm_num)
  · exact diag_isCov _ (by intro i; fin_cases i <;> norm_num)

/-! ## C81 -/

section dims
variable {α : Type} [Add α] [Sub α] [Mul α] [Div α] [Neg α] [Flt α]

/-- an `n × n` matrix -/
def Square (n : ℕ) (A : DMat α) : Prop := A.r = n ∧ A.c = n

/-- C81 (prediction), for every scalar arithmetic. The call never has undefined behaviour; it returns true exactly for consistent sizes, then
with outputs of the same sizes; otherwise it returns false and leaves both outputs as they were. -/
theorem C81_predict_sizes (xk : DVec α) (Pk Phik Qk : DMat α) (xkp1 : DVec α) (Pkp1 : DMat α) :
    (Square xk.n Pk ∧ Square xk.n Phik ∧ Square xk.n Qk ∧ xkp1.n = xk.n ∧ Square xk.n Pkp1
      ∧ ∃ x' P', filterPredict xk Pk Phik Qk xkp1 Pkp1 = .ok (true, x', P') ∧ x'.n = xk.n ∧ Square xk.n P')
    ∨ (¬(Square xk.n Pk ∧ Square xk.n Phik ∧ Square xk.n Qk ∧ xkp1.n = xk.n ∧ Square xk.n Pkp1)
      ∧ filterPredict xk Pk Phik Qk xkp1 Pkp1 = .ok (false, xkp1, Pkp1)) := by
  by_cases h : Square xk.n Pk ∧ Square xk.n Phik ∧ Square xk.n Qk ∧ xkp1.n = xk.n ∧ Square xk.n Pkp1
  · left
    refine ⟨h.1, h.2.1, h.2.2.1, h.2.2.2.1, h.2.2.2.2, ?_⟩
    obtain ⟨n, x⟩ := xk
    obtain ⟨r1, c1, P⟩ := Pk
    obtain ⟨r2, c2, F⟩ := Phik
    obtain ⟨r3, c3, Q⟩ := Qk
    obtain ⟨n', xo⟩ := xkp1
    obtain ⟨r4, c4, Po⟩ := Pkp1
    simp only [Square] at h
    obtain ⟨⟨rfl, rfl⟩, ⟨rfl, rfl⟩, ⟨rfl, rfl⟩, rfl, rfl, rfl⟩ := h
    exact ⟨_, _, predict_fit x P F Q xo Po, rfl, rfl, rfl⟩
  · right
    refine ⟨h, ?_⟩
    simp only [Square] at h
    unfold filterPredict
    simp only [ne_eq]
    split_ifs <;> first | rfl | (exfalso; apply h; tauto)

/-- C81 (update), for every scalar arithmetic. -/
theorem C81_update_sizes (L : LinSolver α) (xk : DVec α) (Pk : DMat α) (zk : DVec α) (H Rk : DMat α) (xkp1 : DVec α) (Pkp1 : DMat α) :
    (Square xk.n Pk ∧ (H.r = zk.n ∧ H.c = xk.n) ∧ Square zk.n Rk ∧ xkp1.n = xk.n ∧ Square xk.n Pkp1
      ∧ ∃ x' P', filterUpdate L xk Pk zk H Rk xkp1 Pkp1 = .ok (true, x', P') ∧ x'.n = xk.n ∧ Square xk.n P')
    ∨ (¬(Square xk.n Pk ∧ (H.r = zk.n ∧ H.c = xk.n) ∧ Square zk.n Rk ∧ xkp1.n = xk.n ∧ Square xk.n Pkp1)
      ∧ filterUpdate L xk Pk zk H Rk xkp1 Pkp1 = .ok (false, xkp1, Pkp1)) := by
  by_cases h : Square xk.n Pk ∧ (H.r = zk.n ∧ H.c = xk.n) ∧ Square zk.n Rk ∧ xkp1.n = xk.n ∧ Square xk.n Pkp1
  · left
    refine ⟨h.1, h.2.1, h.2.2.1, h.2.2.2.1, h.2.2.2.2, ?_⟩
    obtain ⟨n, x⟩ := xk
    obtain ⟨r1, c1, P⟩ := Pk
    obtain ⟨m, z⟩ := zk
    obtain ⟨r2, c2, F⟩ := H
    obtain ⟨r3, c3, Q⟩ := Rk
    obtain ⟨n', xo⟩ := xkp1
    obtain ⟨r4, c4, Po⟩ := Pkp1
    simp only [Square] at h
    obtain ⟨⟨rfl, rfl⟩, ⟨rfl, rfl⟩, ⟨rfl, rfl⟩, rfl, rfl, rfl⟩ := h
    exact ⟨_, _, update_fit L x P z F Q xo Po, rfl, rfl, rfl⟩
  · right
    refine ⟨h, ?_⟩
    simp only [Square] at h
    unfold filterUpdate
    simp only [ne_eq]
    split_ifs <;> first | rfl | (exfalso; apply h; tauto)

/-- C81 (UKF prediction), for every scalar arithmetic. -/
theorem C81_ukfPredict_sizes (Wi : DVec α) (yi Qk : DMat α) (xkp1 : DVec α) (Pkp1 : DMat α) :
    (Square xkp1.n Pkp1 ∧ Wi.n = 2 * xkp1.n + 1 ∧ (yi.r = xkp1.n ∧ yi.c = 2 * xkp1.n + 1) ∧ Square xkp1.n Qk
      ∧ ∃ x' P', filterUkfPredict Wi yi Qk xkp1 Pkp1 = .ok (true, x', P') ∧ x'.n = xkp1.n ∧ Square xkp1.n P')
    ∨ (¬(Square xkp1.n Pkp1 ∧ Wi.n = 2 * xkp1.n + 1 ∧ (yi.r = xkp1.n ∧ yi.c = 2 * xkp1.n + 1) ∧ Square xkp1.n Qk)
      ∧ filterUkfPredict Wi yi Qk xkp1 Pkp1 = .ok (false, xkp1, Pkp1)) := by
  by_cases h : Square xkp1.n Pkp1 ∧ Wi.n = 2 * xkp1.n + 1 ∧ (yi.r = xkp1.n ∧ yi.c = 2 * xkp1.n + 1) ∧ Square xkp1.n Qk
  · left
    refine ⟨h.1, h.2.1, h.2.2.1, h.2.2.2, ?_⟩
    obtain ⟨k, W⟩ := Wi
    obtain ⟨r1, c1, Y⟩ := yi
    obtain ⟨r3, c3, Q⟩ := Qk
    obtain ⟨n, xo⟩ := xkp1
    obtain ⟨r4, c4, Po⟩ := Pkp1
    simp only [Square] at h
    obtain ⟨⟨rfl, rfl⟩, rfl, ⟨rfl, rfl⟩, rfl, rfl⟩ := h
    exact ⟨_, _, ukfPredict_fit W Y Q xo Po, rfl, rfl, rfl⟩
  · right
    refine ⟨h, ?_⟩
    simp only [Square] at h
    unfold filterUkfPredict
    simp only [ne_eq]
    split_ifs <;> first | rfl | (exfalso; apply h; tauto)

/-- C81 (UKF update), for every scalar arithmetic. -/
theorem C81_ukfUpdate_sizes (L : LinSolver α) (xk : DVec α) (Pk yi : DMat α) (Wi : DVec α) (zi : DMat α) (zk : DVec α) (Rk : DMat α)
    (xkp1 : DVec α) (Pkp1 : DMat α) :
    (Square xk.n Pk ∧ (yi.r = xk.n ∧ yi.c = 2 * xk.n + 1) ∧ Wi.n = 2 * xk.n + 1 ∧ (zi.r = zk.n ∧ zi.c = 2 * xk.n + 1) ∧ Square zk.n Rk
        ∧ xkp1.n = xk.n ∧ Square xk.n Pkp1
      ∧ ∃ x' P', filterUkfUpdate L xk Pk yi Wi zi zk Rk xkp1 Pkp1 = .ok (true, x', P') ∧ x'.n = xk.n ∧ Square xk.n P')
    ∨ (¬(Square xk.n Pk ∧ (yi.r = xk.n ∧ yi.c = 2 * xk.n + 1) ∧ Wi.n = 2 * xk.n + 1 ∧ (zi.r = zk.n ∧ zi.c = 2 * xk.n + 1)
        ∧ Square zk.n Rk ∧ xkp1.n = xk.n ∧ Square xk.n Pkp1)
      ∧ filterUkfUpdate L xk Pk yi Wi zi zk Rk xkp1 Pkp1 = .ok (false, xkp1, Pkp1)) := by
  by_cases h : Square xk.n Pk ∧ (yi.r = xk.n ∧ yi.c = 2 * xk.n + 1) ∧ Wi.n = 2 * xk.n + 1 ∧ (zi.r = zk.n ∧ zi.c = 2 * xk.n + 1)
      ∧ Square zk.n Rk ∧ xkp1.n = xk.n ∧ Square xk.n Pkp1
  · left
    refine ⟨h.1, h.2.1, h.2.2.1, h.2.2.2.1, h.2.2.2.2.1, h.2.2.2.2.2.1, h.2.2.2.2.2.2, ?_⟩
    obtain ⟨n, x⟩ := xk
    obtain ⟨r1, c1, P⟩ := Pk
    obtain ⟨r2, c2, Y⟩ := yi
    obtain ⟨k, W⟩ := Wi
    obtain ⟨r3, c3, Z⟩ := zi
    obtain ⟨m, z⟩ := zk
    obtain ⟨r4, c4, R⟩ := Rk
    obtain ⟨n', xo⟩ := xkp1
    obtain ⟨r5, c5, Po⟩ := Pkp1
    simp only [Square] at h
    obtain ⟨⟨rfl, rfl⟩, ⟨rfl, rfl⟩, rfl, ⟨rfl, rfl⟩, ⟨rfl, rfl⟩, rfl, rfl, rfl⟩ := h
    exact ⟨_, _, ukfUpdate_fit L x P Y W Z z R xo Po, rfl, rfl, rfl⟩
  · right
    refine ⟨h, ?_⟩
    simp only [Square] at h
    unfold filterUkfUpdate
    simp only [ne_eq]
    split_ifs <;> first | rfl | (exfalso; apply h; tauto)

end dims

/-- both alternatives of C81 occur -/
example : (Square 2 (DMat.zero (α := ℝ) 2 2)) ∧ ¬ Square 2 (DMat.zero (α := ℝ) 2 3) := by simp [Square, DMat.zero]

end NavFuse.Props
