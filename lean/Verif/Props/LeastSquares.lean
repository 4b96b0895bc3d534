import Verif.Model.LeastSquares
import Verif.Lemmas.KalmanAlgebra
import Verif.Spec.Estimation
import Mathlib.LinearAlgebra.Matrix.ToLin

/-! # Properties C66-C73: batch least squares -/

set_option linter.unusedSectionVars false
set_option linter.unusedSimpArgs false

namespace NavFuse.Props
open Matrix Spec KA Lsq

section helpers
variable {n m : ℕ}

/-- full column rank: different states give different noise-free measurements -/
def FullColumnRank (H : Matrix (Fin m) (Fin n) ℝ) : Prop := ∀ x y : Fin n → ℝ, H *ᵥ x = H *ᵥ y → x = y

theorem FullColumnRank.le {H : Matrix (Fin m) (Fin n) ℝ} (h : FullColumnRank H) : n ≤ m := by
  have := LinearMap.finrank_le_finrank_of_injective (f := H.mulVecLin) (fun x y hxy => h x y (by simpa using hxy))
  simpa using this

theorem normal_pd {H : Matrix (Fin m) (Fin n) ℝ} (h : FullColumnRank H) {W : Matrix (Fin m) (Fin m) ℝ} (hW : W.PosDef) :
    (Hᵀ * W * H).PosDef := by
  rw [← isPosCov_iff] at *
  have hs : Wᵀ = W := hW.1
  refine ⟨by rw [IsSymm, transpose_mul, transpose_mul, transpose_transpose, hs, Matrix.mul_assoc], fun v hv => ?_⟩
  have : v ⬝ᵥ ((Hᵀ * W * H) *ᵥ v) = (H *ᵥ v) ⬝ᵥ (W *ᵥ (H *ᵥ v)) := by
    rw [← mulVec_mulVec, ← mulVec_mulVec, dotProduct_mulVec, vecMul_transpose]
  rw [this]
  refine hW.2 _ fun h0 => hv (h v 0 (by rw [h0, mulVec_zero]))

/-- completing the square -/
theorem quad_residual {H : Matrix (Fin m) (Fin n) ℝ} {W : Matrix (Fin m) (Fin m) ℝ} (hW : Wᵀ = W) (y : Fin m → ℝ) (x x' : Fin n → ℝ)
    (hx : (Hᵀ * W * H) *ᵥ x = (Hᵀ * W) *ᵥ y) :
    quad W (y - H *ᵥ x') = quad W (y - H *ᵥ x) + quad W (H *ᵥ (x' - x)) := by
  have hort : (H *ᵥ (x' - x)) ⬝ᵥ (W *ᵥ (y - H *ᵥ x)) = 0 := by
    rw [← vecMul_transpose, ← dotProduct_mulVec, mulVec_sub, mulVec_sub, mulVec_mulVec, mulVec_mulVec, mulVec_mulVec, hx, sub_self, dotProduct_zero]
  have hort' : (y - H *ᵥ x) ⬝ᵥ (W *ᵥ (H *ᵥ (x' - x))) = 0 := by
    rw [dotProduct_mulVec, ← mulVec_transpose, hW, dotProduct_comm]; exact hort
  have e : y - H *ᵥ x' = (y - H *ᵥ x) - H *ᵥ (x' - x) := by rw [mulVec_sub]; abel
  rw [e]
  generalize y - H *ᵥ x = u at *
  generalize H *ᵥ (x' - x) = d at *
  simp only [quad, mulVec_sub W, sub_dotProduct, dotProduct_sub, hort, hort']
  ring

theorem normal_unique_min {H : Matrix (Fin m) (Fin n) ℝ} (hH : FullColumnRank H) {W : Matrix (Fin m) (Fin m) ℝ} (hW : W.PosDef) (y : Fin m → ℝ)
    (x : Fin n → ℝ) (hx : (Hᵀ * W * H) *ᵥ x = (Hᵀ * W) *ᵥ y) : UniqueMin (fun x => quad W (y - H *ᵥ x)) x := by
  intro x' hne
  rw [← isPosCov_iff] at hW
  simp only
  rw [quad_residual hW.1 y x x' hx]
  have : 0 < quad W (H *ᵥ (x' - x)) := hW.2 _ fun h0 => hne (sub_eq_zero.1 (hH _ 0 (by rw [h0, mulVec_zero])))
  linarith

theorem UniqueMin.unique {X : Type} {f : X → ℝ} {x y : X} (hx : UniqueMin f x) (hy : UniqueMin f y) : x = y := by
  by_contra h
  have h1 := hx y (fun e => h e.symm)
  have h2 := hy x h
  linarith

theorem cost_R (y : Fin m → ℝ) (H : Matrix (Fin m) (Fin n) ℝ) (x : Fin n → ℝ) (J : ℝ) :
    computeCostFunction ⟨m, y⟩ ⟨m, n, H⟩ ⟨n, x⟩ J = .ok (true, (1 / 2) * ((y - H *ᵥ x) ⬝ᵥ (y - H *ᵥ x))) := by
  simp [computeCostFunction, osimp, rsimp]

theorem ulls_R (L : LinSolver ℝ) (y : Fin m → ℝ) (H : Matrix (Fin m) (Fin n) ℝ) (x0 : Fin n → ℝ) (J : ℝ) (h : n ≤ m) :
    unweightedLinear L ⟨m, y⟩ ⟨m, n, H⟩ ⟨n, x0⟩ J
      = .ok (true, ⟨n, L.ldltSolve (Hᵀ * H) (Hᵀ *ᵥ y)⟩,
          (1 / 2) * ((y - H *ᵥ L.ldltSolve (Hᵀ * H) (Hᵀ *ᵥ y)) ⬝ᵥ (y - H *ᵥ L.ldltSolve (Hᵀ * H) (Hᵀ *ᵥ y)))) := by
  have : ¬ (n > m) := by omega
  simp only [unweightedLinear, ne_eq, not_true_eq_false, or_self, if_false, this, osimp, cost_R]
  simp [rsimp]

theorem wlls_R (L : LinSolver ℝ) (y : Fin m → ℝ) (H : Matrix (Fin m) (Fin n) ℝ) (W : Matrix (Fin m) (Fin m) ℝ) (x0 : Fin n → ℝ) (J : ℝ) (h : n ≤ m) :
    weightedLinear L ⟨m, y⟩ ⟨m, n, H⟩ ⟨m, m, W⟩ ⟨n, x0⟩ J
      = .ok (true, ⟨n, L.ldltSolve (Hᵀ * W * H) ((Hᵀ * W) *ᵥ y)⟩,
          (1 / 2) * ((y - H *ᵥ L.ldltSolve (Hᵀ * W * H) ((Hᵀ * W) *ᵥ y)) ⬝ᵥ (y - H *ᵥ L.ldltSolve (Hᵀ * W * H) ((Hᵀ * W) *ᵥ y)))) := by
  have : ¬ (n > m) := by omega
  simp only [weightedLinear, ne_eq, not_true_eq_false, or_self, if_false, this, osimp, cost_R]
  simp [rsimp]
end helpers

/-! ## C66 -/

/-- C66. For every size and every full-column-rank `H`, the unweighted solver succeeds, returns the unique minimiser of `|y - H x|²`, and `J` is
half that minimum. -/
theorem C66_unweighted_is_minimiser {n m : ℕ} {L : LinSolver ℝ} (hL : L.Correct) (y : Fin m → ℝ) (H : Matrix (Fin m) (Fin n) ℝ)
    (hH : FullColumnRank H) (x0 : Fin n → ℝ) (J0 : ℝ) :
    ∃ x J, unweightedLinear L ⟨m, y⟩ ⟨m, n, H⟩ ⟨n, x0⟩ J0 = .ok (true, ⟨n, x⟩, J)
      ∧ UniqueMin (fun x => ∑ i, (y i - (H *ᵥ x) i) ^ 2) x ∧ J = (∑ i, (y i - (H *ᵥ x) i) ^ 2) / 2 := by
  have hq : ∀ x, ∑ i, (y i - (H *ᵥ x) i) ^ 2 = quad 1 (y - H *ᵥ x) := by
    intro x; simp [quad, dotProduct, sq]
  refine ⟨_, _, ulls_R L y H x0 J0 hH.le, ?_, ?_⟩
  · simp only [hq]
    apply normal_unique_min hH PosDef.one
    rw [Matrix.mul_one]
    apply hL.solve
    simpa using normal_pd hH (PosDef.one (n := Fin m) (R := ℝ))
  · rw [hq]; simp [quad]; ring

theorem fullColumnRank_example : FullColumnRank (!![1, 0; 1, 1; 1, 2] : Matrix (Fin 3) (Fin 2) ℝ) := by
  intro x y h
  have h0 := congrFun h 0
  have h1 := congrFun h 1
  simp [mulVec, dotProduct, Fin.sum_univ_two] at h0 h1
  ext i; fin_cases i
  · exact h0
  · simp only [Fin.mk_one]; linarith

/-- a straight-line fit through three points is a case of C66 -/
example : FullColumnRank (!![1, 0; 1, 1; 1, 2] : Matrix (Fin 3) (Fin 2) ℝ) := fullColumnRank_example

/-! ## C67 -/

/-- C67. For every size, full-column-rank `H` and symmetric positive definite `W`, the weighted solver succeeds and returns the unique minimiser of
`(y - H x)ᵀ W (y - H x)`. -/
theorem C67_weighted_is_minimiser {n m : ℕ} {L : LinSolver ℝ} (hL : L.Correct) (y : Fin m → ℝ) (H : Matrix (Fin m) (Fin n) ℝ)
    (hH : FullColumnRank H) (W : Matrix (Fin m) (Fin m) ℝ) (hW : IsPosCov W) (x0 : Fin n → ℝ) (J0 : ℝ) :
    ∃ x J, weightedLinear L ⟨m, y⟩ ⟨m, n, H⟩ ⟨m, m, W⟩ ⟨n, x0⟩ J0 = .ok (true, ⟨n, x⟩, J)
      ∧ UniqueMin (fun x => ∑ i, ∑ j, (y i - (H *ᵥ x) i) * W i j * (y j - (H *ᵥ x) j)) x := by
  rw [isPosCov_iff] at hW
  have hq : ∀ x, ∑ i, ∑ j, (y i - (H *ᵥ x) i) * W i j * (y j - (H *ᵥ x) j) = quad W (y - H *ᵥ x) := by
    intro x; simp [quad, dotProduct, mulVec, Finset.mul_sum, mul_assoc]
  refine ⟨_, _, wlls_R L y H W x0 J0 hH.le, ?_⟩
  simp only [hq]
  exact normal_unique_min hH hW y _ (hL.solve _ _ (normal_pd hH hW))

/-- C67 (scaling). Multiplying the weights by a positive constant changes neither estimate nor reported cost. -/
theorem C67_weight_scaling {n m : ℕ} {L : LinSolver ℝ} (hL : L.Correct) (y : Fin m → ℝ) (H : Matrix (Fin m) (Fin n) ℝ)
    (hH : FullColumnRank H) (W : Matrix (Fin m) (Fin m) ℝ) (hW : IsPosCov W) (c : ℝ) (hc : 0 < c) (x0 : Fin n → ℝ) (J0 : ℝ) :
    weightedLinear L ⟨m, y⟩ ⟨m, n, H⟩ ⟨m, m, c • W⟩ ⟨n, x0⟩ J0 = weightedLinear L ⟨m, y⟩ ⟨m, n, H⟩ ⟨m, m, W⟩ ⟨n, x0⟩ J0 := by
  rw [isPosCov_iff] at hW
  have hcW : (c • W).PosDef := hW.smul hc
  have e : L.ldltSolve (Hᵀ * (c • W) * H) ((Hᵀ * (c • W)) *ᵥ y) = L.ldltSolve (Hᵀ * W * H) ((Hᵀ * W) *ᵥ y) := by
    have h1 := hL.solve _ ((Hᵀ * (c • W)) *ᵥ y) (normal_pd hH hcW)
    have h2 := hL.solve _ ((Hᵀ * W) *ᵥ y) (normal_pd hH hW)
    have inj : Function.Injective (fun w : Fin n → ℝ => (Hᵀ * W * H) *ᵥ w) := mulVec_injective_iff_isUnit.2 (normal_pd hH hW).isUnit
    apply inj
    show _ *ᵥ _ = _ *ᵥ _
    rw [h2]
    simp only [Matrix.mul_smul, Matrix.smul_mul, smul_mulVec] at h1 ⊢
    exact smul_right_injective _ hc.ne' h1
  rw [wlls_R L y H _ x0 J0 hH.le, wlls_R L y H _ x0 J0 hH.le, e]

/-- C67 (unit weights). `W = I` gives the unweighted result, whatever the solver does. -/
theorem C67_unit_weights {n m : ℕ} (L : LinSolver ℝ) (y : Fin m → ℝ) (H : Matrix (Fin m) (Fin n) ℝ) (x0 : Fin n → ℝ) (J0 : ℝ) :
    weightedLinear L ⟨m, y⟩ ⟨m, n, H⟩ ⟨m, m, 1⟩ ⟨n, x0⟩ J0 = unweightedLinear L ⟨m, y⟩ ⟨m, n, H⟩ ⟨n, x0⟩ J0 := by
  by_cases h : n ≤ m
  · rw [wlls_R L y H 1 x0 J0 h, ulls_R L y H x0 J0 h, Matrix.mul_one]
  · have : n > m := by omega
    simp [weightedLinear, unweightedLinear, this]

example : IsPosCov (diagonal ![(1 : ℝ), 4, 9]) := isPosCov_iff.2 (PosDef.diagonal (by intro i; fin_cases i <;> norm_num))

/-! ## C68 -/

/-- C68, what the reported cost is: half the *unweighted* squared residual, for every weight matrix. -/
theorem C68_reported_cost_unweighted_partial {n m : ℕ} (L : LinSolver ℝ) (y : Fin m → ℝ) (H : Matrix (Fin m) (Fin n) ℝ) (hn : n ≤ m)
    (W : Matrix (Fin m) (Fin m) ℝ) (x0 : Fin n → ℝ) (J0 : ℝ) :
    ∃ x J, weightedLinear L ⟨m, y⟩ ⟨m, n, H⟩ ⟨m, m, W⟩ ⟨n, x0⟩ J0 = .ok (true, ⟨n, x⟩, J) ∧ J = (∑ i, (y i - (H *ᵥ x) i) ^ 2) / 2 := by
  refine ⟨_, _, wlls_R L y H W x0 J0 hn, ?_⟩
  simp [dotProduct, sq]; ring

/-- C68 is false of the code: the full claim is `J = (y - H x)ᵀ W (y - H x) / 2` at the returned `x`. Witness: mean of 0 and 1 with weight 2:
the minimised cost is 1/2, the reported one 1/4. -/
theorem C68_weighted_cost_fails : ∃ (y : Fin 2 → ℝ) (H : Matrix (Fin 2) (Fin 1) ℝ) (W : Matrix (Fin 2) (Fin 2) ℝ), FullColumnRank H ∧ IsPosCov W ∧
    ∀ (L : LinSolver ℝ), L.Correct → ∀ x0 J0, ∃ x J, weightedLinear L ⟨2, y⟩ ⟨2, 1, H⟩ ⟨2, 2, W⟩ ⟨1, x0⟩ J0 = .ok (true, ⟨1, x⟩, J)
      ∧ quad W (y - H *ᵥ x) / 2 = 1 / 2 ∧ J = 1 / 4 := by
  have hH : FullColumnRank (!![1; 1] : Matrix (Fin 2) (Fin 1) ℝ) := by
    intro x y h
    have h0 := congrFun h 0
    simp [mulVec, dotProduct] at h0
    ext i; fin_cases i; exact h0
  have hW : IsPosCov (diagonal ![(2 : ℝ), 2]) := isPosCov_iff.2 (PosDef.diagonal (by intro i; fin_cases i <;> norm_num))
  refine ⟨![0, 1], !![1; 1], diagonal ![2, 2], hH, hW, fun L hL x0 J0 => ?_⟩
  have key : ∀ x : Fin 1 → ℝ, ((!![1; 1] : Matrix (Fin 2) (Fin 1) ℝ)ᵀ * diagonal ![(2 : ℝ), 2] * (!![1; 1] : Matrix (Fin 2) (Fin 1) ℝ)) *ᵥ x
      = ((!![1; 1] : Matrix (Fin 2) (Fin 1) ℝ)ᵀ * diagonal ![(2 : ℝ), 2]) *ᵥ ![0, 1] → x = ![1 / 2] := by
    intro x hs
    have h0 := congrFun hs 0
    simp [mulVec, dotProduct, mul_apply, Fin.sum_univ_two] at h0
    ext i; fin_cases i; simp; linarith
  have hs := key _ (hL.solve _ (((!![1; 1] : Matrix (Fin 2) (Fin 1) ℝ)ᵀ * diagonal ![(2 : ℝ), 2]) *ᵥ ![0, 1]) (normal_pd hH (isPosCov_iff.1 hW)))
  refine ⟨_, _, wlls_R L _ _ _ x0 J0 (by norm_num), ?_⟩
  rw [hs]
  constructor
  · simp [quad, mulVec, dotProduct, Fin.sum_univ_two, diagonal]; norm_num
  · simp [mulVec, dotProduct, Fin.sum_univ_two]; norm_num

/-! ## C69 -/

/-- C69. Consistent data `y = H x₀` are recovered exactly by both linear solvers, with zero cost. -/
theorem C69_consistent_data {n m : ℕ} {L : LinSolver ℝ} (hL : L.Correct) (H : Matrix (Fin m) (Fin n) ℝ) (hH : FullColumnRank H)
    (W : Matrix (Fin m) (Fin m) ℝ) (hW : IsPosCov W) (truth x0 : Fin n → ℝ) (J0 : ℝ) :
    unweightedLinear L ⟨m, H *ᵥ truth⟩ ⟨m, n, H⟩ ⟨n, x0⟩ J0 = .ok (true, ⟨n, truth⟩, 0)
      ∧ weightedLinear L ⟨m, H *ᵥ truth⟩ ⟨m, n, H⟩ ⟨m, m, W⟩ ⟨n, x0⟩ J0 = .ok (true, ⟨n, truth⟩, 0) := by
  rw [isPosCov_iff] at hW
  have key : ∀ (V : Matrix (Fin m) (Fin m) ℝ), V.PosDef → L.ldltSolve (Hᵀ * V * H) ((Hᵀ * V) *ᵥ (H *ᵥ truth)) = truth := by
    intro V hV
    have h1 := hL.solve _ ((Hᵀ * V) *ᵥ (H *ᵥ truth)) (normal_pd hH hV)
    have inj : Function.Injective (fun w : Fin n → ℝ => (Hᵀ * V * H) *ᵥ w) := mulVec_injective_iff_isUnit.2 (normal_pd hH hV).isUnit
    apply inj
    show _ *ᵥ _ = _ *ᵥ _
    rw [h1, mulVec_mulVec]
  constructor
  · have := key 1 PosDef.one
    rw [Matrix.mul_one] at this
    rw [ulls_R L _ H x0 J0 hH.le, this]; simp
  · rw [wlls_R L _ H W x0 J0 hH.le, key W hW]; simp

/-! ## C70 -/

section sizes
variable {α : Type} [Add α] [Sub α] [Mul α] [Div α] [Neg α] [Flt α]

theorem unweighted_fit {n m : ℕ} (L : LinSolver α) (y : Fin m → α) (H : Matrix (Fin m) (Fin n) α) (x : Fin n → α) (J : α) (h : n ≤ m) :
    unweightedLinear L ⟨m, y⟩ ⟨m, n, H⟩ ⟨n, x⟩ J
      = .ok (true, ⟨n, L.ldltSolve (mmul (mtr H) H) (mvec (mtr H) y)⟩,
          Flt.lit (1 / 2) * vdot (vsub y (mvec H (L.ldltSolve (mmul (mtr H) H) (mvec (mtr H) y))))
            (vsub y (mvec H (L.ldltSolve (mmul (mtr H) H) (mvec (mtr H) y))))) := by
  have : ¬ (n > m) := by omega
  simp [unweightedLinear, computeCostFunction, this, osimp]

theorem weighted_fit {n m : ℕ} (L : LinSolver α) (y : Fin m → α) (H : Matrix (Fin m) (Fin n) α) (W : Matrix (Fin m) (Fin m) α) (x : Fin n → α)
    (J : α) (h : n ≤ m) :
    weightedLinear L ⟨m, y⟩ ⟨m, n, H⟩ ⟨m, m, W⟩ ⟨n, x⟩ J
      = .ok (true, ⟨n, L.ldltSolve (mmul (mmul (mtr H) W) H) (mvec (mmul (mtr H) W) y)⟩,
          Flt.lit (1 / 2) * vdot (vsub y (mvec H (L.ldltSolve (mmul (mmul (mtr H) W) H) (mvec (mmul (mtr H) W) y))))
            (vsub y (mvec H (L.ldltSolve (mmul (mmul (mtr H) W) H) (mvec (mmul (mtr H) W) y))))) := by
  have : ¬ (n > m) := by omega
  simp [weightedLinear, computeCostFunction, this, osimp]

/-- C70 (unweighted), for every scalar arithmetic and solver: no undefined behaviour; true exactly for consistent, not underdetermined sizes; else
outputs unchanged. -/
theorem C70_unweighted_sizes (L : LinSolver α) (yk : DVec α) (Hk : DMat α) (xk : DVec α) (J : α) :
    (Hk.r = yk.n ∧ Hk.c = xk.n ∧ Hk.c ≤ Hk.r ∧ ∃ x' J', unweightedLinear L yk Hk xk J = .ok (true, x', J') ∧ x'.n = xk.n)
    ∨ (¬(Hk.r = yk.n ∧ Hk.c = xk.n ∧ Hk.c ≤ Hk.r) ∧ unweightedLinear L yk Hk xk J = .ok (false, xk, J)) := by
  by_cases h : Hk.r = yk.n ∧ Hk.c = xk.n ∧ Hk.c ≤ Hk.r
  · left
    refine ⟨h.1, h.2.1, h.2.2, ?_⟩
    obtain ⟨m, y⟩ := yk
    obtain ⟨r, c, H⟩ := Hk
    obtain ⟨n, x⟩ := xk
    obtain ⟨h1, h2, h3⟩ := h
    dsimp only at h1 h2 h3
    subst h1; subst h2
    exact ⟨_, _, unweighted_fit L _ _ _ J h3, rfl⟩
  · right
    refine ⟨h, ?_⟩
    unfold unweightedLinear
    simp only [ne_eq]
    split_ifs <;> first | rfl | (exfalso; apply h; omega)

/-- C70 (weighted), for every scalar arithmetic and solver. -/
theorem C70_weighted_sizes (L : LinSolver α) (yk : DVec α) (Hk Wk : DMat α) (xk : DVec α) (J : α) :
    (Hk.r = yk.n ∧ Hk.c = xk.n ∧ Hk.c ≤ Hk.r ∧ Wk.r = yk.n ∧ Wk.c = yk.n
      ∧ ∃ x' J', weightedLinear L yk Hk Wk xk J = .ok (true, x', J') ∧ x'.n = xk.n)
    ∨ (¬(Hk.r = yk.n ∧ Hk.c = xk.n ∧ Hk.c ≤ Hk.r ∧ Wk.r = yk.n ∧ Wk.c = yk.n) ∧ weightedLinear L yk Hk Wk xk J = .ok (false, xk, J)) := by
  by_cases h : Hk.r = yk.n ∧ Hk.c = xk.n ∧ Hk.c ≤ Hk.r ∧ Wk.r = yk.n ∧ Wk.c = yk.n
  · left
    refine ⟨h.1, h.2.1, h.2.2.1, h.2.2.2.1, h.2.2.2.2, ?_⟩
    obtain ⟨m, y⟩ := yk
    obtain ⟨r, c, H⟩ := Hk
    obtain ⟨r', c', W⟩ := Wk
    obtain ⟨n, x⟩ := xk
    obtain ⟨h1, h2, h3, h4, h5⟩ := h
    dsimp only at h1 h2 h3 h4 h5
    subst h1; subst h2; subst h4; subst h5
    exact ⟨_, _, weighted_fit L _ _ _ _ J h3, rfl⟩
  · right
    refine ⟨h, ?_⟩
    unfold weightedLinear
    simp only [ne_eq]
    split_ifs <;> first | rfl | (exfalso; apply h; omega)

/-- C70 (nonlinear solvers, rejection), for every scalar arithmetic, solver, measurement model and fuel: inconsistent sizes are refused with all
outputs unchanged. -/
theorem C70_nonlinear_rejects (L : LinSolver α) (M : MeasModel α) (fuel : ℕ) (yk : DVec α) (Hk : DMat α) (xk : DVec α) (Wk : DMat α) (eps : α)
    (xkp1 : DVec α) (J : α) :
    (¬(Hk.r = yk.n ∧ Hk.c = xk.n ∧ Hk.c ≤ Hk.r ∧ xkp1.n = xk.n) →
      unweightedNonlinear L M fuel yk Hk xk eps xkp1 J = some (.ok (false, ⟨Hk, xk, xkp1, J⟩)))
    ∧ (¬(Hk.r = yk.n ∧ Hk.c = xk.n ∧ Hk.c ≤ Hk.r ∧ xkp1.n = xk.n ∧ Wk.r = yk.n ∧ Wk.c = yk.n) →
      weightedNonlinear L M fuel yk Hk xk Wk eps xkp1 J = some (.ok (false, ⟨Hk, xk, xkp1, J⟩))) := by
  constructor
  · intro h
    unfold unweightedNonlinear
    simp only [ne_eq]
    split_ifs <;> first | rfl | (exfalso; apply h; omega)
  · intro h
    unfold weightedNonlinear
    simp only [ne_eq]
    split_ifs <;> first | rfl | (exfalso; apply h; omega)
end sizes

/-- C70's two cases both occur -/
example : (DMat.zero (α := ℝ) 3 2).c ≤ (DMat.zero (α := ℝ) 3 2).r ∧ ¬ (DMat.zero (α := ℝ) 2 3).c ≤ (DMat.zero (α := ℝ) 2 3).r := by decide

/-! ## C71 -/

section generic
variable {α : Type} [Add α] [Sub α] [Mul α] [Div α] [Neg α] [Flt α]

/-- C71, what does hold, for every scalar arithmetic: if the initial gap `|xkp1 - xk|` does not exceed `eps` (the loop is skipped), the shipped solvers
complete without undefined behaviour. (Full claim: for all arguments of consistent size; missing: every call that enters the loop.) -/
theorem C71_shipped_solver_partial {n m : ℕ} (L : LinSolver α) (fuel : ℕ) (y : Fin m → α) (H : Matrix (Fin m) (Fin n) α) (hn : n ≤ m)
    (W : Matrix (Fin m) (Fin m) α) (x x1 : Fin n → α) (eps J : α) (hgap : Flt.lt eps (vnorm (vsub x1 x)) = false) :
    (∃ J', unweightedNonlinear L placeholder fuel ⟨m, y⟩ ⟨m, n, H⟩ ⟨n, x⟩ eps ⟨n, x1⟩ J
        = some (.ok (true, ⟨⟨m, n, H⟩, ⟨n, x⟩, ⟨n, x1⟩, J'⟩)))
    ∧ ∃ J', weightedNonlinear L placeholder fuel ⟨m, y⟩ ⟨m, n, H⟩ ⟨n, x⟩ ⟨m, m, W⟩ eps ⟨n, x1⟩ J
        = some (.ok (true, ⟨⟨m, n, H⟩, ⟨n, x⟩, ⟨n, x1⟩, J'⟩)) := by
  have : ¬ (n > m) := by omega
  constructor <;> cases fuel <;>
    simp [unweightedNonlinear, weightedNonlinear, this, osimp, whileLoop, DVec.norm, hgap, finish, computeCostFunction]

/-- C71 is false of the code as shipped, for every scalar arithmetic: as soon as the loop is entered with a non-empty measurement vector, the
placeholder leaves `yx` empty and `yk - yx` mixes vectors of different size. -/
theorem C71_placeholder_fails {n m : ℕ} (L : LinSolver α) (fuel : ℕ) (y : Fin m → α) (H : Matrix (Fin m) (Fin n) α) (hn : n ≤ m) (hm : 0 < m)
    (W : Matrix (Fin m) (Fin m) α) (x x1 : Fin n → α) (eps J : α) (hgap : Flt.lt eps (vnorm (vsub x1 x)) = true) :
    unweightedNonlinear L placeholder (fuel + 1) ⟨m, y⟩ ⟨m, n, H⟩ ⟨n, x⟩ eps ⟨n, x1⟩ J = some (.ub .dims)
    ∧ weightedNonlinear L placeholder (fuel + 1) ⟨m, y⟩ ⟨m, n, H⟩ ⟨n, x⟩ ⟨m, m, W⟩ eps ⟨n, x1⟩ J = some (.ub .dims) := by
  have h1 : ¬ (n > m) := by omega
  have h2 : ¬ (m = 0) := by omega
  constructor <;>
    simp [unweightedNonlinear, weightedNonlinear, h1, osimp, whileLoop, DVec.norm, hgap, finish, bodyU, bodyW, placeholder, DVec.sub, h2]
end generic

example : Flt.lt (1 / 1000 : ℝ) (vnorm (vsub ![3] ![(1 : ℝ)])) = true := by
  simp only [rsimp]
  rw [show ((![3] : Fin 1 → ℝ) - ![1]) ⬝ᵥ (![3] - ![1]) = 2 ^ 2 by simp [dotProduct]; norm_num, Real.sqrt_sq (by norm_num)]
  norm_num

/-! ## C72 -/

section loop
variable {σ : Type} (cond : σ → Bool) (body : σ → Out (Bool × σ))

/-- A finished `while` loop: some chain of successful rounds, after which the condition is false (or a round reported failure). -/
inductive Rounds : σ → σ → Prop
  | refl (s : σ) : Rounds s s
  | step {s t u : σ} : cond s = true → body s = .ok (true, t) → Rounds t u → Rounds s u

theorem while_true {fuel : ℕ} {s t : σ} (h : whileLoop cond body fuel s = some (.ok (true, t))) : Rounds cond body s t ∧ cond t = false := by
  induction fuel generalizing s with
  | zero =>
    simp only [whileLoop] at h
    split_ifs at h with hc
    simp only [Option.some.injEq, Except.ok.injEq, Prod.mk.injEq, true_and] at h
    subst h
    exact ⟨.refl _, by simpa using hc⟩
  | succ f ih =>
    simp only [whileLoop] at h
    split_ifs at h with hc
    · cases hb : body s with
      | error e => simp [hb] at h
      | ok r =>
        obtain ⟨b, s'⟩ := r
        cases b
        · simp [hb] at h
        · simp only [hb] at h
          obtain ⟨h1, h2⟩ := ih h
          exact ⟨.step hc hb h1, h2⟩
    · simp only [Option.some.injEq, Except.ok.injEq, Prod.mk.injEq, true_and] at h
      subst h
      exact ⟨.refl _, by simpa using hc⟩

theorem Rounds.last {s t : σ} (h : Rounds cond body s t) : s = t ∨ ∃ u, cond u = true ∧ body u = .ok (true, t) := by
  induction h with
  | refl s => exact Or.inl rfl
  | @step s t u hc hb hr ih =>
    rcases ih with rfl | ih
    · exact Or.inr ⟨s, hc, hb⟩
    · exact Or.inr ih

/-- More fuel never changes a finished run. -/
theorem while_mono {fuel : ℕ} {s : σ} {o : Out (Bool × σ)} (h : whileLoop cond body fuel s = some o) : whileLoop cond body (fuel + 1) s = some o := by
  induction fuel generalizing s with
  | zero =>
    simp only [whileLoop] at h ⊢
    split_ifs at h ⊢ with hc
    exact h
  | succ f ih =>
    rw [whileLoop] at h ⊢
    split_ifs at h ⊢ with hc
    · cases hb : body s with
      | error e => simpa [hb] using h
      | ok r =>
        obtain ⟨b, s'⟩ := r
        cases b
        · simpa [hb] using h
        · simp only [hb] at h ⊢; exact ih h
    · exact h
end loop

section generic
variable {α : Type} [Add α] [Sub α] [Mul α] [Div α] [Neg α] [Flt α]

theorem finish_true {yk : DVec α} {J : α} {o : Option (Out (Bool × NlState α))} {r : NlOut α} (h : finish yk J o = some (.ok (true, r))) :
    ∃ s, o = some (.ok (true, s)) ∧ r.Hk = s.Hk ∧ r.xk = s.xk ∧ r.xkp1 = s.xkp1 := by
  unfold finish at h
  split at h
  · simp at h
  · simp at h
  · simp at h
  · rename_i s
    refine ⟨s, rfl, ?_⟩
    simp only [Option.some.injEq] at h
    cases hc : computeCostFunction yk s.Hk s.xkp1 J with
    | error e => simp [hc, osimp] at h
    | ok q => simp only [hc, osimp, Except.ok.injEq, Prod.mk.injEq] at h; obtain ⟨-, rfl⟩ := h; simp

/-- One Gauss-Newton step of the unweighted solver from `x`: the user's model is evaluated at `x`, and `x'` is `x` plus the solved correction. -/
def StepU (L : LinSolver α) (M : MeasModel α) (yk x x' : DVec α) : Prop :=
  ∃ yx0 yx H0 H N d b dx, M.predicted x yx0 = .ok (true, yx) ∧ M.relinearize x H0 = .ok (true, H) ∧ H.tr.mul H = .ok N ∧ yk.sub yx = .ok d
    ∧ H.tr.mulVec d = .ok b ∧ N.ldltSolve L b = .ok dx ∧ x.add dx = .ok x'

/-- One Gauss-Newton step of the weighted solver. -/
def StepW (L : LinSolver α) (M : MeasModel α) (yk : DVec α) (Wk : DMat α) (x x' : DVec α) : Prop :=
  ∃ yx0 yx H0 H HW N d b dx, M.predicted x yx0 = .ok (true, yx) ∧ M.relinearize x H0 = .ok (true, H) ∧ H.tr.mul Wk = .ok HW ∧ HW.mul H = .ok N
    ∧ yk.sub yx = .ok d ∧ HW.mulVec d = .ok b ∧ N.ldltSolve L b = .ok dx ∧ x.add dx = .ok x'

theorem bind_ok {β γ : Type} {o : Out β} {f : β → Out γ} {c : γ} (h : (o >>= f) = .ok c) : ∃ b, o = .ok b ∧ f b = .ok c := by
  cases o with
  | error e => simp [osimp] at h
  | ok b => exact ⟨b, rfl, h⟩

theorem bodyU_true {L : LinSolver α} {M : MeasModel α} {yk : DVec α} {s t : NlState α} (h : bodyU L M yk s = .ok (true, t)) :
    StepU L M yk s.xk t.xkp1 ∧ t.xk = t.xkp1 ∧ t.xkp1.sub s.xk = .ok t.res := by
  obtain ⟨⟨pb, yx⟩, hp, h⟩ := bind_ok h
  cases pb
  · simp at h
  simp only [Bool.not_true, Bool.false_eq_true, if_false] at h
  obtain ⟨⟨qb, H⟩, hq, h⟩ := bind_ok h
  cases qb
  · simp at h
  simp only [Bool.not_true, Bool.false_eq_true, if_false] at h
  obtain ⟨N, hN, h⟩ := bind_ok h
  obtain ⟨d, hd, h⟩ := bind_ok h
  obtain ⟨b, hb, h⟩ := bind_ok h
  obtain ⟨dx, hdx, h⟩ := bind_ok h
  obtain ⟨x, hx, h⟩ := bind_ok h
  obtain ⟨r, hr, h⟩ := bind_ok h
  simp only [osimp, Except.ok.injEq, Prod.mk.injEq, true_and] at h
  subst h
  exact ⟨⟨s.yx, yx, s.Hk, H, N, d, b, dx, hp, hq, hN, hd, hb, hdx, hx⟩, rfl, hr⟩

theorem bodyW_true {L : LinSolver α} {M : MeasModel α} {yk : DVec α} {Wk : DMat α} {s t : NlState α} (h : bodyW L M yk Wk s = .ok (true, t)) :
    StepW L M yk Wk s.xk t.xkp1 ∧ t.xk = t.xkp1 ∧ t.xkp1.sub s.xk = .ok t.res := by
  obtain ⟨⟨pb, yx⟩, hp, h⟩ := bind_ok h
  cases pb
  · simp at h
  simp only [Bool.not_true, Bool.false_eq_true, if_false] at h
  obtain ⟨⟨qb, H⟩, hq, h⟩ := bind_ok h
  cases qb
  · simp at h
  simp only [Bool.not_true, Bool.false_eq_true, if_false] at h
  obtain ⟨HW, hHW, h⟩ := bind_ok h
  obtain ⟨N, hN, h⟩ := bind_ok h
  obtain ⟨HW', hHW', h⟩ := bind_ok h
  rw [hHW] at hHW'
  simp only [Except.ok.injEq] at hHW'
  subst hHW'
  obtain ⟨d, hd, h⟩ := bind_ok h
  obtain ⟨b, hb, h⟩ := bind_ok h
  obtain ⟨dx, hdx, h⟩ := bind_ok h
  obtain ⟨x, hx, h⟩ := bind_ok h
  obtain ⟨r, hr, h⟩ := bind_ok h
  simp only [osimp, Except.ok.injEq, Prod.mk.injEq, true_and] at h
  subst h
  exact ⟨⟨s.yx, yx, s.Hk, H, HW, N, d, b, dx, hp, hq, hHW, hN, hd, hb, hdx, hx⟩, rfl, hr⟩

/-- C72, for every scalar arithmetic, solver, measurement model, start and tolerance: if the unweighted nonlinear solver returns true, then either
it did nothing because the initial gap does not exceed `eps`, or the returned `xkp1` (also stored in `xk`) is one Gauss-Newton step away from a
point at distance not exceeding `eps`. -/
theorem C72_unweighted_last_step (L : LinSolver α) (M : MeasModel α) (fuel : ℕ) (yk : DVec α) (Hk : DMat α) (xk : DVec α) (eps : α)
    (xkp1 : DVec α) (J : α) (r : NlOut α) (h : unweightedNonlinear L M fuel yk Hk xk eps xkp1 J = some (.ok (true, r))) :
    (r.xkp1 = xkp1 ∧ r.xk = xk ∧ r.Hk = Hk ∧ ∃ g, xkp1.sub xk = .ok g ∧ Flt.lt eps g.norm = false)
    ∨ (r.xk = r.xkp1 ∧ ∃ x g, StepU L M yk x r.xkp1 ∧ r.xkp1.sub x = .ok g ∧ Flt.lt eps g.norm = false) := by
  unfold unweightedNonlinear at h
  simp only at h
  split_ifs at h
  · simp at h
  · simp at h
  · simp at h
  · cases hres : xkp1.sub xk with
    | error e => simp [hres] at h
    | ok g =>
      simp only [hres] at h
      obtain ⟨s, hs, h1, h2, h3⟩ := finish_true h
      obtain ⟨hr, hc⟩ := while_true _ _ hs
      rcases hr.last with rfl | ⟨u, -, hb⟩
      · exact Or.inl ⟨h3, h2, h1, g, rfl, hc⟩
      · obtain ⟨hst, hx, hsub⟩ := bodyU_true hb
        exact Or.inr ⟨by rw [h2, h3, hx], u.xk, s.res, by rw [h3]; exact hst, by rw [h3]; exact hsub, hc⟩

/-- C72 (weighted). -/
theorem C72_weighted_last_step (L : LinSolver α) (M : MeasModel α) (fuel : ℕ) (yk : DVec α) (Hk : DMat α) (xk : DVec α) (Wk : DMat α) (eps : α)
    (xkp1 : DVec α) (J : α) (r : NlOut α) (h : weightedNonlinear L M fuel yk Hk xk Wk eps xkp1 J = some (.ok (true, r))) :
    (r.xkp1 = xkp1 ∧ r.xk = xk ∧ r.Hk = Hk ∧ ∃ g, xkp1.sub xk = .ok g ∧ Flt.lt eps g.norm = false)
    ∨ (r.xk = r.xkp1 ∧ ∃ x g, StepW L M yk Wk x r.xkp1 ∧ r.xkp1.sub x = .ok g ∧ Flt.lt eps g.norm = false) := by
  unfold weightedNonlinear at h
  simp only at h
  split_ifs at h
  · simp at h
  · simp at h
  · simp at h
  · simp at h
  · cases hres : xkp1.sub xk with
    | error e => simp [hres] at h
    | ok g =>
      simp only [hres] at h
      obtain ⟨s, hs, h1, h2, h3⟩ := finish_true h
      obtain ⟨hr, hc⟩ := while_true _ _ hs
      rcases hr.last with rfl | ⟨u, -, hb⟩
      · exact Or.inl ⟨h3, h2, h1, g, rfl, hc⟩
      · obtain ⟨hst, hx, hsub⟩ := bodyW_true hb
        exact Or.inr ⟨by rw [h2, h3, hx], u.xk, s.res, by rw [h3]; exact hst, by rw [h3]; exact hsub, hc⟩
end generic

/-- at ℝ the exit condition is the usual one -/
theorem C72_exit_condition_real {n : ℕ} (eps : ℝ) (g : Fin n → ℝ) : Flt.lt eps (DVec.norm ⟨n, g⟩) = false ↔ Real.sqrt (∑ i, g i ^ 2) ≤ eps := by
  rw [← Bool.not_eq_true, R_lt, not_lt, DVec.norm, R_vnorm]; simp [dotProduct, sq]

/-- a measurement model that is linear: `h x = H x` with Jacobian `H` -/
noncomputable def linearModel {n m : ℕ} (H : Matrix (Fin m) (Fin n) ℝ) : MeasModel ℝ where
  predicted x _ := do return (true, ← (⟨m, n, H⟩ : DMat ℝ).mulVec x)
  relinearize _ _ := .ok (true, ⟨m, n, H⟩)

theorem lt_false_R {a b : ℝ} (h : b ≤ a) : Flt.lt a b = false := by
  rw [← Bool.not_eq_true, R_lt, not_lt]; exact h

/-- C72 (linear measurement model). When the initial gap exceeds `eps ≥ 0`, both nonlinear solvers finish within two rounds and return the linear
least-squares estimate and its cost, from every start. -/
theorem C72_linear_model_two_rounds {n m : ℕ} {L : LinSolver ℝ} (hL : L.Correct) (y : Fin m → ℝ) (H H0 : Matrix (Fin m) (Fin n) ℝ)
    (hH : FullColumnRank H) (W : Matrix (Fin m) (Fin m) ℝ) (hW : IsPosCov W) (x x1 : Fin n → ℝ) (eps J : ℝ) (heps : 0 ≤ eps)
    (hgap : eps < Real.sqrt ((x1 - x) ⬝ᵥ (x1 - x))) (fuel : ℕ) (hf : 2 ≤ fuel) :
    (∃ xs Js, unweightedLinear L ⟨m, y⟩ ⟨m, n, H⟩ ⟨n, x⟩ J = .ok (true, ⟨n, xs⟩, Js)
      ∧ unweightedNonlinear L (linearModel H) fuel ⟨m, y⟩ ⟨m, n, H0⟩ ⟨n, x⟩ eps ⟨n, x1⟩ J
        = some (.ok (true, ⟨⟨m, n, H⟩, ⟨n, xs⟩, ⟨n, xs⟩, Js⟩)))
    ∧ (∃ xs Js, weightedLinear L ⟨m, y⟩ ⟨m, n, H⟩ ⟨m, m, W⟩ ⟨n, x⟩ J = .ok (true, ⟨n, xs⟩, Js)
      ∧ weightedNonlinear L (linearModel H) fuel ⟨m, y⟩ ⟨m, n, H0⟩ ⟨n, x⟩ ⟨m, m, W⟩ eps ⟨n, x1⟩ J
        = some (.ok (true, ⟨⟨m, n, H⟩, ⟨n, xs⟩, ⟨n, xs⟩, Js⟩))) := by
  have hnm : ¬ (n > m) := by have := hH.le; omega
  have hgap' : Flt.lt eps (vnorm (vsub x1 x)) = true := by simp only [rsimp]; exact hgap
  obtain ⟨f, rfl⟩ : ∃ f, fuel = f + 2 := ⟨fuel - 2, by omega⟩
  rw [isPosCov_iff] at hW
  -- one correction from any point lands on the estimate
  have corr : ∀ (V : Matrix (Fin m) (Fin m) ℝ), V.PosDef → ∀ u : Fin n → ℝ,
      u + L.ldltSolve (Hᵀ * V * H) ((Hᵀ * V) *ᵥ (y - H *ᵥ u)) = L.ldltSolve (Hᵀ * V * H) ((Hᵀ * V) *ᵥ y) := by
    intro V hV u
    have pd := normal_pd hH hV
    have inj : Function.Injective (fun w : Fin n → ℝ => (Hᵀ * V * H) *ᵥ w) := mulVec_injective_iff_isUnit.2 pd.isUnit
    apply inj
    show _ *ᵥ _ = _ *ᵥ _
    rw [mulVec_add, hL.solve _ _ pd, hL.solve _ _ pd, mulVec_sub, mulVec_mulVec]
    abel
  have corr1 : ∀ u : Fin n → ℝ, u + L.ldltSolve (Hᵀ * H) (Hᵀ *ᵥ (y - H *ᵥ u)) = L.ldltSolve (Hᵀ * H) (Hᵀ *ᵥ y) := by
    intro u; simpa using corr 1 PosDef.one u
  constructor
  · refine ⟨_, _, ulls_R L y H x J hH.le, ?_⟩
    set xs := L.ldltSolve (Hᵀ * H) (Hᵀ *ᵥ y) with hxs
    have hbody : ∀ (s : NlState ℝ) (u : Fin n → ℝ), s.xk = ⟨n, u⟩ →
        bodyU L (linearModel H) ⟨m, y⟩ s = .ok (true, ⟨⟨m, H *ᵥ u⟩, ⟨m, n, H⟩, ⟨n, xs⟩, ⟨n, xs⟩, ⟨n, xs - u⟩⟩) := by
      intro s u hs
      simp only [bodyU, linearModel, hs, osimp, rsimp, Bool.not_true, Bool.false_eq_true, if_false, corr1, ← hxs]
    have hstop : ∀ s : NlState ℝ, s.res = ⟨n, xs - xs⟩ → Flt.lt eps s.res.norm = false := by
      intro s hs; rw [hs]; apply lt_false_R; simp [DVec.norm, rsimp, heps]
    simp only [unweightedNonlinear, ne_eq, not_true_eq_false, or_self, if_false, hnm, osimp]
    rw [whileLoop]
    simp only [DVec.norm, hgap', if_true]
    rw [hbody _ x rfl]
    simp only
    rw [whileLoop]
    split_ifs
    · rw [hbody _ xs rfl]
      simp only
      cases f <;> simp only [whileLoop, show vnorm (xs - xs) = (⟨n, xs - xs⟩ : DVec ℝ).norm from rfl, lt_false_R (show
        (⟨n, xs - xs⟩ : DVec ℝ).norm ≤ eps by simp [DVec.norm, rsimp, heps]), Bool.false_eq_true, if_false, finish, cost_R, osimp]
    · simp only [finish, cost_R, osimp]
  · refine ⟨_, _, wlls_R L y H W x J hH.le, ?_⟩
    set xs := L.ldltSolve (Hᵀ * W * H) ((Hᵀ * W) *ᵥ y) with hxs
    have hbody : ∀ (s : NlState ℝ) (u : Fin n → ℝ), s.xk = ⟨n, u⟩ →
        bodyW L (linearModel H) ⟨m, y⟩ ⟨m, m, W⟩ s = .ok (true, ⟨⟨m, H *ᵥ u⟩, ⟨m, n, H⟩, ⟨n, xs⟩, ⟨n, xs⟩, ⟨n, xs - u⟩⟩) := by
      intro s u hs
      simp only [bodyW, linearModel, hs, osimp, rsimp, Bool.not_true, Bool.false_eq_true, if_false, corr W hW, ← hxs]
    simp only [weightedNonlinear, ne_eq, not_true_eq_false, or_self, if_false, hnm, osimp]
    rw [whileLoop]
    simp only [DVec.norm, hgap', if_true]
    rw [hbody _ x rfl]
    simp only
    rw [whileLoop]
    split_ifs
    · rw [hbody _ xs rfl]
      simp only
      cases f <;> simp only [whileLoop, show vnorm (xs - xs) = (⟨n, xs - xs⟩ : DVec ℝ).norm from rfl, lt_false_R (show
        (⟨n, xs - xs⟩ : DVec ℝ).norm ≤ eps by simp [DVec.norm, rsimp, heps]), Bool.false_eq_true, if_false, finish, cost_R, osimp]
    · simp only [finish, cost_R, osimp]

/-- the gap hypothesis of C72 is met, e.g. by starting values 0 and 1 with tolerance 1/2 -/
example : (1 / 2 : ℝ) < Real.sqrt ((![1] - ![(0 : ℝ)]) ⬝ᵥ (![1] - ![0])) := by
  rw [show ((![1] : Fin 1 → ℝ) - ![0]) ⬝ᵥ (![1] - ![0]) = 1 by simp [dotProduct]]; norm_num

/-- C72, the other half of "the result is the least-squares estimate" is false of the code: started with `xkp1 = xk` both solvers do nothing and report
success, for every measurement model, even for a linear one far from its minimum. -/
theorem C72_equal_starts_fails {n m : ℕ} (L : LinSolver ℝ) (M : MeasModel ℝ) (fuel : ℕ) (y : Fin m → ℝ) (H : Matrix (Fin m) (Fin n) ℝ) (hn : n ≤ m)
    (x : Fin n → ℝ) (eps J : ℝ) (heps : 0 ≤ eps) :
    ∃ J', unweightedNonlinear L M fuel ⟨m, y⟩ ⟨m, n, H⟩ ⟨n, x⟩ eps ⟨n, x⟩ J = some (.ok (true, ⟨⟨m, n, H⟩, ⟨n, x⟩, ⟨n, x⟩, J'⟩)) := by
  have : ¬ (n > m) := by omega
  have hgap : Flt.lt eps (vnorm (vsub x x)) = false := lt_false_R (by simp [rsimp, heps])
  cases fuel <;> simp [unweightedNonlinear, this, osimp, whileLoop, DVec.norm, hgap, finish, computeCostFunction]

/-! ## C73 -/

theorem while_forever {σ : Type} (cond : σ → Bool) (body : σ → Out (Bool × σ)) (I : σ → Prop) (h : ∀ s, I s → cond s = true ∧ ∃ t, body s = .ok (true, t) ∧ I t)
    (fuel : ℕ) (s : σ) (hs : I s) : whileLoop cond body fuel s = none := by
  induction fuel generalizing s with
  | zero => simp [whileLoop, (h s hs).1]
  | succ f ih =>
    obtain ⟨hc, t, hb, ht⟩ := h s hs
    simp [whileLoop, hc, hb, ih t ht]

/-- `h(x) = x² + 1` with its exact derivative, one state and one measurement -/
noncomputable def parabola : MeasModel ℝ where
  predicted x _ := do let v ← x.get 0; return (true, ⟨1, ![v ^ 2 + 1]⟩)
  relinearize x _ := do let v ← x.get 0; return (true, ⟨1, 1, !![2 * v]⟩)

/-- C73 is false of the code (full claim: the solvers terminate for every model and tolerance). Fitting `x² + 1` to the measurement 0, with the
exact Jacobian and a correct linear solver, started at `1/√3`: the iteration alternates between `±1/√3` and never ends. -/
theorem C73_gauss_newton_cycle_fails {L : LinSolver ℝ} (hL : L.Correct) (fuel : ℕ) (H0 : Matrix (Fin 1) (Fin 1) ℝ) (J : ℝ) :
    unweightedNonlinear L parabola fuel ⟨1, ![0]⟩ ⟨1, 1, H0⟩ ⟨1, ![1 / Real.sqrt 3]⟩ 1 ⟨1, ![3]⟩ J = none := by
  have h3 : Real.sqrt 3 * Real.sqrt 3 = 3 := Real.mul_self_sqrt (by norm_num)
  have hpos : 0 < Real.sqrt 3 := Real.sqrt_pos.2 (by norm_num)
  have hsolve : ∀ v : ℝ, v * v = 1 / 3 → L.ldltSolve (!![2 * v]ᵀ * !![2 * v]) (!![2 * v]ᵀ *ᵥ (![0] - ![v ^ 2 + 1])) = ![-2 * v] := by
    intro v hv
    have pd : (!![2 * v]ᵀ * !![2 * v] : Matrix (Fin 1) (Fin 1) ℝ).PosDef := by
      have : (!![2 * v]ᵀ * !![2 * v] : Matrix (Fin 1) (Fin 1) ℝ) = diagonal ![4 / 3] := by
        ext i j; fin_cases i; fin_cases j; simp [mul_apply]; linarith
      rw [this]; exact PosDef.diagonal (by intro i; fin_cases i; norm_num)
    have hs := congrFun (hL.solve _ (!![2 * v]ᵀ *ᵥ (![0] - ![v ^ 2 + 1])) pd) 0
    set d := L.ldltSolve (!![2 * v]ᵀ * !![2 * v]) (!![2 * v]ᵀ *ᵥ (![0] - ![v ^ 2 + 1]))
    clear_value d
    simp [mulVec, dotProduct, mul_apply] at hs
    ext i; fin_cases i; simp
    linear_combination (3 / 4) * hs - (3 * d 0 + 3 / 2 * v) * hv
  have hnorm : ∀ v w : ℝ, v * v = 1 / 3 → w = -2 * v → (1 : ℝ) < Real.sqrt (![w] ⬝ᵥ ![w]) := by
    intro v w hv hw
    rw [Real.lt_sqrt (by norm_num)]
    simp [dotProduct, hw]; nlinarith
  have hfor : ∀ s : NlState ℝ, (∃ v, v * v = 1 / 3 ∧ s.xk = ⟨1, ![v]⟩ ∧ Flt.lt (1 : ℝ) s.res.norm = true) →
      Flt.lt (1 : ℝ) s.res.norm = true ∧ ∃ t, bodyU L parabola ⟨1, ![0]⟩ s = .ok (true, t)
        ∧ ∃ v, v * v = 1 / 3 ∧ t.xk = ⟨1, ![v]⟩ ∧ Flt.lt (1 : ℝ) t.res.norm = true := by
    rintro s ⟨v, hv, hs, hc⟩
    refine ⟨hc, ?_⟩
    have hx : (![v] : Fin 1 → ℝ) + ![-2 * v] = ![-v] := by ext i; fin_cases i; simp; ring
    have hd : (![-v] : Fin 1 → ℝ) - ![v] = ![-2 * v] := by ext i; fin_cases i; simp; ring
    have hb : bodyU L parabola ⟨1, ![0]⟩ s
        = .ok (true, ⟨⟨1, ![v ^ 2 + 1]⟩, ⟨1, 1, !![2 * v]⟩, ⟨1, ![-v]⟩, ⟨1, ![-v]⟩, ⟨1, ![-2 * v]⟩⟩) := by
      simp only [bodyU, parabola, hs, DVec.get, osimp, rsimp, Bool.not_true, Bool.false_eq_true, if_false, Nat.lt_one_iff, dite_true]
      simp only [Fin.zero_eta, cons_val_zero, hsolve v hv, hx, hd, osimp, rsimp, Bool.not_true, Bool.false_eq_true, if_false]
    refine ⟨_, hb, -v, by linarith, rfl, ?_⟩
    simp only [DVec.norm, rsimp]
    exact hnorm v _ hv rfl
  simp only [unweightedNonlinear, ne_eq, not_true_eq_false, or_self, if_false, gt_iff_lt, lt_irrefl, osimp]
  rw [while_forever _ _ _ hfor]
  · rfl
  · refine ⟨1 / Real.sqrt 3, ?_, rfl, ?_⟩
    · field_simp; linarith
    · simp only [DVec.norm, rsimp]
      rw [Real.lt_sqrt (by norm_num)]
      have hle : 1 / Real.sqrt 3 ≤ 1 := by
        rw [div_le_one hpos]; nlinarith
      have : 0 < 1 / Real.sqrt 3 := by positivity
      simp [dotProduct] at hle this ⊢
      nlinarith

/-- C73 (negative tolerance). With `eps < 0` even the linear model never finishes. -/
theorem C73_negative_tolerance_fails {n m : ℕ} (L : LinSolver ℝ) (fuel : ℕ) (y : Fin m → ℝ) (H H0 : Matrix (Fin m) (Fin n) ℝ) (hn : n ≤ m)
    (x x1 : Fin n → ℝ) (eps J : ℝ) (heps : eps < 0) :
    unweightedNonlinear L (linearModel H) fuel ⟨m, y⟩ ⟨m, n, H0⟩ ⟨n, x⟩ eps ⟨n, x1⟩ J = none := by
  have hnm : ¬ (n > m) := by omega
  have hc : ∀ v : DVec ℝ, Flt.lt eps v.norm = true := by
    intro v; rw [R_lt, DVec.norm, R_vnorm]; exact lt_of_lt_of_le heps (Real.sqrt_nonneg _)
  simp only [unweightedNonlinear, ne_eq, not_true_eq_false, or_self, if_false, hnm, osimp]
  rw [while_forever _ _ (fun s => ∃ u : Fin n → ℝ, s.xk = ⟨n, u⟩)]
  · rfl
  · rintro s ⟨u, hs⟩
    refine ⟨hc _, ?_⟩
    simp only [bodyU, linearModel, hs, osimp, Bool.not_true, Bool.false_eq_true, if_false]
    exact ⟨_, rfl, _, rfl⟩
  · exact ⟨x, rfl⟩

/-- the loop ends when every round succeeds and shrinks the step by a factor `q < 1` -/
theorem while_contracting {σ : Type} (step : σ → ℝ) (eps q : ℝ) (heps : 0 < eps) (hq0 : 0 ≤ q) (hq : q < 1)
    (body : σ → Out (Bool × σ)) (I : σ → Prop)
    (h : ∀ s, I s → ∃ t, body s = .ok (true, t) ∧ I t ∧ step t ≤ q * step s) (s : σ) (hs : I s) :
    ∃ fuel t, whileLoop (fun s => Flt.lt eps (step s)) body fuel s = some (.ok (true, t)) ∧ I t := by
  obtain ⟨k, hk⟩ : ∃ k : ℕ, q ^ k * step s ≤ eps := by
    rcases le_or_gt (step s) 0 with h0 | h0
    · exact ⟨0, by simp; linarith⟩
    · obtain ⟨k, hk⟩ := exists_pow_lt_of_lt_one (div_pos heps h0) hq
      exact ⟨k, ((lt_div_iff₀ h0).1 hk).le⟩
  induction k generalizing s with
  | zero => exact ⟨0, s, by simp [whileLoop, lt_false_R (show step s ≤ eps by simpa using hk)], hs⟩
  | succ k ih =>
    obtain ⟨t, hb, ht, hst⟩ := h s hs
    by_cases hc : Flt.lt eps (step s) = true
    · obtain ⟨f, u, hu, hI⟩ := ih t ht (le_trans (mul_le_mul_of_nonneg_left hst (pow_nonneg hq0 k)) (by rw [← mul_assoc, ← pow_succ]; exact hk))
      exact ⟨f + 1, u, by simp [whileLoop, hc, hb, hu], hI⟩
    · exact ⟨0, s, by simp [whileLoop, hc], hs⟩

/-- a user model given by functions on vectors of the right size: `h` and its Jacobian `D` -/
noncomputable def fnModel {n m : ℕ} (h : (Fin n → ℝ) → Fin m → ℝ) (D : (Fin n → ℝ) → Matrix (Fin m) (Fin n) ℝ) : MeasModel ℝ where
  predicted x y := if hx : n = x.n then .ok (true, ⟨m, h fun i => x.v (i.cast hx)⟩) else .ok (false, y)
  relinearize x H := if hx : n = x.n then .ok (true, ⟨m, n, D fun i => x.v (i.cast hx)⟩) else .ok (false, H)

/-- one exact Gauss-Newton step for `fnModel h D` with weights `W`, through the given solver -/
noncomputable def gnStep {n m : ℕ} (L : LinSolver ℝ) (h : (Fin n → ℝ) → Fin m → ℝ) (D : (Fin n → ℝ) → Matrix (Fin m) (Fin n) ℝ)
    (W : Matrix (Fin m) (Fin m) ℝ) (y : Fin m → ℝ) (x : Fin n → ℝ) : Fin n → ℝ :=
  x + L.ldltSolve ((D x)ᵀ * W * D x) (((D x)ᵀ * W) *ᵥ (y - h x))

/-- Euclidean length -/
noncomputable def len {n : ℕ} (v : Fin n → ℝ) : ℝ := Real.sqrt (∑ i, v i ^ 2)

theorem norm_len {n : ℕ} (v : Fin n → ℝ) : DVec.norm ⟨n, v⟩ = len v := by
  rw [DVec.norm, R_vnorm]; simp [len, dotProduct, sq]

theorem bodyU_fn {n m : ℕ} (L : LinSolver ℝ) (h : (Fin n → ℝ) → Fin m → ℝ) (D : (Fin n → ℝ) → Matrix (Fin m) (Fin n) ℝ) (y : Fin m → ℝ)
    (s : NlState ℝ) (u : Fin n → ℝ) (hs : s.xk = ⟨n, u⟩) :
    bodyU L (fnModel h D) ⟨m, y⟩ s = .ok (true, ⟨⟨m, h u⟩, ⟨m, n, D u⟩, ⟨n, gnStep L h D 1 y u⟩, ⟨n, gnStep L h D 1 y u⟩, ⟨n, gnStep L h D 1 y u - u⟩⟩) := by
  simp only [bodyU, fnModel, hs, dite_true, Fin.cast_refl, id, osimp, rsimp, Bool.not_true, Bool.false_eq_true, if_false, gnStep, Matrix.mul_one]

theorem bodyW_fn {n m : ℕ} (L : LinSolver ℝ) (h : (Fin n → ℝ) → Fin m → ℝ) (D : (Fin n → ℝ) → Matrix (Fin m) (Fin n) ℝ) (y : Fin m → ℝ)
    (W : Matrix (Fin m) (Fin m) ℝ) (s : NlState ℝ) (u : Fin n → ℝ) (hs : s.xk = ⟨n, u⟩) :
    bodyW L (fnModel h D) ⟨m, y⟩ ⟨m, m, W⟩ s
      = .ok (true, ⟨⟨m, h u⟩, ⟨m, n, D u⟩, ⟨n, gnStep L h D W y u⟩, ⟨n, gnStep L h D W y u⟩, ⟨n, gnStep L h D W y u - u⟩⟩) := by
  simp only [bodyW, fnModel, hs, dite_true, Fin.cast_refl, id, osimp, rsimp, Bool.not_true, Bool.false_eq_true, if_false, gnStep]

/-- C73, what does hold. (Full claim: termination for every model and tolerance; missing: models whose steps do not shrink, and `eps ≤ 0`.)
If consecutive Gauss-Newton steps shrink by a factor `q < 1`, both solvers end, successfully, for every start and every positive tolerance. -/
theorem C73_contracting_terminates_partial {n m : ℕ} (L : LinSolver ℝ) (h : (Fin n → ℝ) → Fin m → ℝ) (D : (Fin n → ℝ) → Matrix (Fin m) (Fin n) ℝ)
    (W : Matrix (Fin m) (Fin m) ℝ) (y : Fin m → ℝ) (H0 : Matrix (Fin m) (Fin n) ℝ) (hnm : n ≤ m) (x x1 : Fin n → ℝ) (eps J q : ℝ) (heps : 0 < eps)
    (hq0 : 0 ≤ q) (hq : q < 1)
    (hU : ∀ u, len (gnStep L h D 1 y (gnStep L h D 1 y u) - gnStep L h D 1 y u) ≤ q * len (gnStep L h D 1 y u - u))
    (hW : ∀ u, len (gnStep L h D W y (gnStep L h D W y u) - gnStep L h D W y u) ≤ q * len (gnStep L h D W y u - u)) :
    (∃ fuel r, unweightedNonlinear L (fnModel h D) fuel ⟨m, y⟩ ⟨m, n, H0⟩ ⟨n, x⟩ eps ⟨n, x1⟩ J = some (.ok (true, r)))
    ∧ ∃ fuel r, weightedNonlinear L (fnModel h D) fuel ⟨m, y⟩ ⟨m, n, H0⟩ ⟨n, x⟩ ⟨m, m, W⟩ eps ⟨n, x1⟩ J = some (.ok (true, r)) := by
  have hnm' : ¬ (n > m) := by omega
  -- the shape of the state after at least one round
  have main : ∀ (T : (Fin n → ℝ) → Fin n → ℝ) (body : NlState ℝ → Out (Bool × NlState ℝ)),
      (∀ s u, s.xk = ⟨n, u⟩ → body s = .ok (true, ⟨⟨m, h u⟩, ⟨m, n, D u⟩, ⟨n, T u⟩, ⟨n, T u⟩, ⟨n, T u - u⟩⟩)) →
      (∀ u, len (T (T u) - T u) ≤ q * len (T u - u)) →
      ∃ fuel s, whileLoop (fun s => Flt.lt eps s.res.norm) body fuel ⟨⟨0, Fin.elim0⟩, ⟨m, n, H0⟩, ⟨n, x⟩, ⟨n, x1⟩, ⟨n, x1 - x⟩⟩ = some (.ok (true, s))
        ∧ ∃ H u, s.Hk = ⟨m, n, H⟩ ∧ s.xkp1 = ⟨n, u⟩ := by
    intro T body hb hT
    by_cases hc : Flt.lt eps (DVec.norm ⟨n, x1 - x⟩) = true
    · obtain ⟨f, t, ht, u, -, h2, h3⟩ := while_contracting (fun s : NlState ℝ => s.res.norm) eps q heps hq0 hq body
        (fun s => ∃ u, s.xk = ⟨n, T u⟩ ∧ (s.xkp1 = ⟨n, T u⟩ ∧ ∃ H, s.Hk = ⟨m, n, H⟩) ∧ s.res = ⟨n, T u - u⟩)
        (by
          rintro s ⟨u, h1, -, h3⟩
          refine ⟨_, hb s _ h1, ⟨T u, rfl, ⟨rfl, _, rfl⟩, rfl⟩, ?_⟩
          simp only [h3, norm_len]
          exact hT u)
        ⟨⟨m, h x⟩, ⟨m, n, D x⟩, ⟨n, T x⟩, ⟨n, T x⟩, ⟨n, T x - x⟩⟩ ⟨x, rfl, ⟨rfl, _, rfl⟩, rfl⟩
      obtain ⟨h2, H, h4⟩ := h2
      refine ⟨f + 1, t, ?_, H, _, h4, h2⟩
      rw [whileLoop]
      simp only [hc, if_true]
      rw [hb _ x rfl]
      exact ht
    · exact ⟨0, ⟨⟨0, Fin.elim0⟩, ⟨m, n, H0⟩, ⟨n, x⟩, ⟨n, x1⟩, ⟨n, x1 - x⟩⟩, by simp [whileLoop, hc], H0, x1, rfl, rfl⟩
  constructor
  · obtain ⟨f, s, hs, H, u, h1, h2⟩ := main _ _ (bodyU_fn L h D y) hU
    refine ⟨f, ⟨s.Hk, s.xk, s.xkp1, (1 / 2) * ((y - H *ᵥ u) ⬝ᵥ (y - H *ᵥ u))⟩, ?_⟩
    simp only [unweightedNonlinear, ne_eq, not_true_eq_false, or_self, if_false, hnm', osimp, rsimp, hs, finish, h1, h2, cost_R]
  · obtain ⟨f, s, hs, H, u, h1, h2⟩ := main _ _ (bodyW_fn L h D y W) hW
    refine ⟨f, ⟨s.Hk, s.xk, s.xkp1, (1 / 2) * ((y - H *ᵥ u) ⬝ᵥ (y - H *ᵥ u))⟩, ?_⟩
    simp only [weightedNonlinear, ne_eq, not_true_eq_false, or_self, if_false, hnm', osimp, rsimp, hs, finish, h1, h2, cost_R]

/-- non-vacuity of C73: fitting `2x` (Jacobian over-estimated as 4) contracts with `q = 1/2`, because each step covers half of the error -/
example (u : Fin 1 → ℝ) :
    let T := gnStep LinSolver.exact (fun x => ![2 * x 0]) (fun _ => !![4]) 1 ![6]
    len (T (T u) - T u) ≤ (1 / 2) * len (T u - u) := by
  intro T
  have hT : ∀ v : Fin 1 → ℝ, T v 0 = v 0 / 2 + 3 / 2 := by
    intro v
    simp [T, gnStep, LinSolver.exact, mulVec, dotProduct, mul_apply, inv_def]
    ring
  have : (T (T u) - T u) 0 = (1 / 2) * (T u - u) 0 := by simp only [Pi.sub_apply, hT]; ring
  simp only [len, Fin.sum_univ_one, this, Real.sqrt_sq_eq_abs, Fin.isValue, abs_mul]
  norm_num

end NavFuse.Props
