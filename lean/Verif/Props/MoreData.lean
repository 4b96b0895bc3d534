import Verif.Props.LeastSquares
import Verif.Props.Kalman

/-! # C194: least squares with additional data -/

namespace NavFuse.Props
open Matrix Spec KA Lsq

variable {n m p : ℕ}

theorem stackM_mulVec (A : Matrix (Fin m) (Fin n) ℝ) (B : Matrix (Fin p) (Fin n) ℝ) (x : Fin n → ℝ) : stackM A B *ᵥ x = stackV (A *ᵥ x) (B *ᵥ x) := by
  ext i
  refine Fin.addCases (fun i => ?_) (fun i => ?_) i <;> simp [stackM_l, stackM_r, stackV, mulVec, dotProduct]

theorem stack_rank {H1 : Matrix (Fin m) (Fin n) ℝ} (h : FullColumnRank H1) (H2 : Matrix (Fin p) (Fin n) ℝ) : FullColumnRank (stackM H1 H2) := fun x y e => h x y (by
  rw [stackM_mulVec, stackM_mulVec] at e
  funext i
  simpa [stackV] using congrFun e (Fin.castAdd p i))

theorem sq_sum_stack (y1 : Fin m → ℝ) (y2 : Fin p → ℝ) (H1 : Matrix (Fin m) (Fin n) ℝ) (H2 : Matrix (Fin p) (Fin n) ℝ) (x : Fin n → ℝ) :
    ∑ i, (stackV y1 y2 i - (stackM H1 H2 *ᵥ x) i) ^ 2 = ∑ i, (y1 i - (H1 *ᵥ x) i) ^ 2 + ∑ i, (y2 i - (H2 *ᵥ x) i) ^ 2 := by
  rw [stackM_mulVec, Fin.sum_univ_add]; simp [stackV]

theorem quad_stack (W1 : Matrix (Fin m) (Fin m) ℝ) (W2 : Matrix (Fin p) (Fin p) ℝ) (a : Fin m → ℝ) (b : Fin p → ℝ) :
    quad (blockDiag2 W1 W2) (stackV a b) = quad W1 a + quad W2 b := by
  rw [quad, blockDiag_mulVec, quad, quad, dotProduct, Fin.sum_univ_add]; simp [stackV, dotProduct]

theorem stack_sub (a a' : Fin m → ℝ) (b b' : Fin p → ℝ) : stackV a b - stackV a' b' = stackV (a - a') (b - b') := by
  ext i
  refine Fin.addCases (fun i => ?_) (fun i => ?_) i <;> simp [stackV]

theorem sq_sum_zero {y z : Fin p → ℝ} (h : ∑ i, (y i - z i) ^ 2 ≤ 0) : y = z := by
  funext i
  have := (Finset.sum_eq_zero_iff_of_nonneg fun j _ => sq_nonneg (y j - z j)).1 (le_antisymm h (Finset.sum_nonneg fun j _ => sq_nonneg _)) i (Finset.mem_univ i)
  exact sub_eq_zero.1 (pow_eq_zero_iff two_ne_zero |>.1 this)

/-- C194, unweighted: additional measurements never lower the reported cost, and leave it as it was exactly if they agree with the estimate from the first ones; then the estimate
stays what it was. -/
theorem C194_more_data {L : LinSolver ℝ} (hL : L.Correct) (y1 : Fin m → ℝ) (H1 : Matrix (Fin m) (Fin n) ℝ) (y2 : Fin p → ℝ) (H2 : Matrix (Fin p) (Fin n) ℝ)
    (hH : FullColumnRank H1) (x0 : Fin n → ℝ) (J0 : ℝ) :
    ∃ x1 J1 x2 J2, unweightedLinear L ⟨m, y1⟩ ⟨m, n, H1⟩ ⟨n, x0⟩ J0 = .ok (true, ⟨n, x1⟩, J1)
      ∧ unweightedLinear L ⟨m + p, stackV y1 y2⟩ ⟨m + p, n, stackM H1 H2⟩ ⟨n, x0⟩ J0 = .ok (true, ⟨n, x2⟩, J2)
      ∧ J1 ≤ J2 ∧ (J2 = J1 ↔ y2 = H2 *ᵥ x1) ∧ (J2 = J1 → x2 = x1) := by
  obtain ⟨x1, J1, e1, u1, c1⟩ := C66_unweighted_is_minimiser hL y1 H1 hH x0 J0
  obtain ⟨x2, J2, e2, u2, c2⟩ := C66_unweighted_is_minimiser hL (stackV y1 y2) (stackM H1 H2) (stack_rank hH H2) x0 J0
  rw [sq_sum_stack] at c2
  have n2 : ∀ x, 0 ≤ ∑ i, (y2 i - (H2 *ᵥ x) i) ^ 2 := fun x => Finset.sum_nonneg fun i _ => sq_nonneg _
  have l1 : ∑ i, (y1 i - (H1 *ᵥ x1) i) ^ 2 ≤ ∑ i, (y1 i - (H1 *ᵥ x2) i) ^ 2 := by
    by_cases h : x2 = x1
    · rw [h]
    · exact (u1 x2 h).le
  have a := n2 x2
  have same : J2 = J1 → x2 = x1 := fun h => by
    by_contra hne
    have := u1 x2 hne
    simp only at this
    rw [c1, c2] at h
    linarith
  refine ⟨x1, J1, x2, J2, e1, e2, by rw [c1, c2]; linarith, ⟨fun h => ?_, fun h => ?_⟩, same⟩
  · have hx := same h
    rw [c1, c2, hx] at h
    exact sq_sum_zero (by linarith)
  · by_cases hx : x2 = x1
    · rw [c1, c2, hx, h]; simp
    · have := u2 x1 (Ne.symm hx)
      simp only [sq_sum_stack] at this
      have z : ∑ i, (y2 i - (H2 *ᵥ x1) i) ^ 2 = 0 := by rw [h]; simp
      linarith

/-- C194, weighted, what holds: additional measurements with independent weights never lower the weighted cost of the estimate; if they agree with the estimate from the first ones
then estimate, weighted cost and reported cost stay what they were. -/
theorem C194_weighted_more_data_partial {L : LinSolver ℝ} (hL : L.Correct) (y1 : Fin m → ℝ) (H1 : Matrix (Fin m) (Fin n) ℝ) (W1 : Matrix (Fin m) (Fin m) ℝ)
    (y2 : Fin p → ℝ) (H2 : Matrix (Fin p) (Fin n) ℝ) (W2 : Matrix (Fin p) (Fin p) ℝ) (hH : FullColumnRank H1) (hW1 : IsPosCov W1) (hW2 : IsPosCov W2)
    (x0 : Fin n → ℝ) (J0 : ℝ) :
    ∃ x1 J1 x2 J2, weightedLinear L ⟨m, y1⟩ ⟨m, n, H1⟩ ⟨m, m, W1⟩ ⟨n, x0⟩ J0 = .ok (true, ⟨n, x1⟩, J1)
      ∧ weightedLinear L ⟨m + p, stackV y1 y2⟩ ⟨m + p, n, stackM H1 H2⟩ ⟨m + p, m + p, blockDiag2 W1 W2⟩ ⟨n, x0⟩ J0 = .ok (true, ⟨n, x2⟩, J2)
      ∧ quad W1 (y1 - H1 *ᵥ x1) ≤ quad (blockDiag2 W1 W2) (stackV y1 y2 - stackM H1 H2 *ᵥ x2)
      ∧ (y2 = H2 *ᵥ x1 → x2 = x1 ∧ J2 = J1 ∧ quad (blockDiag2 W1 W2) (stackV y1 y2 - stackM H1 H2 *ᵥ x2) = quad W1 (y1 - H1 *ᵥ x1)) := by
  rw [isPosCov_iff] at hW1 hW2
  have hB := blockDiag_pd hW1 hW2
  have hS := stack_rank hH H2
  have u1 := normal_unique_min hH hW1 y1 _ (hL.solve _ _ (normal_pd hH hW1))
  have u2 := normal_unique_min hS hB (stackV y1 y2) _ (hL.solve _ _ (normal_pd hS hB))
  have q : ∀ x, quad (blockDiag2 W1 W2) (stackV y1 y2 - stackM H1 H2 *ᵥ x) = quad W1 (y1 - H1 *ᵥ x) + quad W2 (y2 - H2 *ᵥ x) := fun x => by
    rw [stackM_mulVec, stack_sub, quad_stack]
  have n2 : ∀ v, 0 ≤ quad W2 v := fun v => by simpa [quad] using hW2.posSemidef.dotProduct_mulVec_nonneg v
  refine ⟨_, _, _, _, wlls_R L y1 H1 W1 x0 J0 hH.le, wlls_R L _ _ _ x0 J0 hS.le, ?_, ?_⟩
  · generalize L.ldltSolve (H1ᵀ * W1 * H1) ((H1ᵀ * W1) *ᵥ y1) = x1 at *
    generalize L.ldltSolve _ _ = x2 at *
    rw [q]
    have := n2 (y2 - H2 *ᵥ x2)
    by_cases h : x2 = x1
    · rw [h] at this ⊢; linarith
    · have := u1 x2 h; simp only at this; linarith
  · generalize L.ldltSolve (H1ᵀ * W1 * H1) ((H1ᵀ * W1) *ᵥ y1) = x1 at *
    generalize L.ldltSolve _ _ = x2 at *
    intro h
    have z : quad W2 (y2 - H2 *ᵥ x1) = 0 := by rw [h]; simp [quad]
    have hx : x2 = x1 := by
      by_contra hne
      have a := u2 x1 (Ne.symm hne)
      have b := u1 x2 hne
      have := n2 (y2 - H2 *ᵥ x2)
      simp only [q] at a b
      linarith
    rw [hx] at *
    refine ⟨rfl, ?_, by rw [q, z, add_zero]⟩
    rw [stackM_mulVec, stack_sub, h, sub_self]
    congr 1
    rw [dotProduct, Fin.sum_univ_add]; simp [stackV, dotProduct]

/-- C194 fails for the cost that the weighted solver reports: it can fall when a measurement is added. Witness: 0 with weight 3 and 2 with weight 1, then also 1 with weight 4. -/
theorem C194_weighted_cost_falls_fails : ∃ (y1 : Fin 2 → ℝ) (W1 : Matrix (Fin 2) (Fin 2) ℝ) (y2 : Fin 1 → ℝ) (W2 : Matrix (Fin 1) (Fin 1) ℝ)
    (H1 : Matrix (Fin 2) (Fin 1) ℝ) (H2 : Matrix (Fin 1) (Fin 1) ℝ), FullColumnRank H1 ∧ IsPosCov W1 ∧ IsPosCov W2
    ∧ ∀ (L : LinSolver ℝ), L.Correct → ∀ x0 J0, ∃ x1 J1 x2 J2, weightedLinear L ⟨2, y1⟩ ⟨2, 1, H1⟩ ⟨2, 2, W1⟩ ⟨1, x0⟩ J0 = .ok (true, ⟨1, x1⟩, J1)
      ∧ weightedLinear L ⟨2 + 1, stackV y1 y2⟩ ⟨2 + 1, 1, stackM H1 H2⟩ ⟨2 + 1, 2 + 1, blockDiag2 W1 W2⟩ ⟨1, x0⟩ J0 = .ok (true, ⟨1, x2⟩, J2)
      ∧ J2 < J1 := by
  have hH : FullColumnRank (!![1; 1] : Matrix (Fin 2) (Fin 1) ℝ) := by
    intro x y h
    have h0 := congrFun h 0
    simp [mulVec, dotProduct] at h0
    ext i; fin_cases i; exact h0
  have hW1 : IsPosCov (diagonal ![(3 : ℝ), 1]) := isPosCov_iff.2 (PosDef.diagonal (by intro i; fin_cases i <;> norm_num))
  have hW2 : IsPosCov (diagonal ![(4 : ℝ)]) := isPosCov_iff.2 (PosDef.diagonal (by intro i; fin_cases i; norm_num))
  refine ⟨![0, 2], diagonal ![3, 1], ![1], diagonal ![4], !![1; 1], !![1], hH, hW1, hW2, fun L hL x0 J0 => ?_⟩
  have hS := stack_rank hH (!![1] : Matrix (Fin 1) (Fin 1) ℝ)
  rw [isPosCov_iff] at hW1 hW2
  have s1 := hL.solve _ (((!![1; 1] : Matrix (Fin 2) (Fin 1) ℝ)ᵀ * diagonal ![(3 : ℝ), 1]) *ᵥ ![0, 2]) (normal_pd hH hW1)
  have s2 := hL.solve _ (((stackM !![1; 1] !![1] : Matrix (Fin (2 + 1)) (Fin 1) ℝ)ᵀ * blockDiag2 (diagonal ![(3 : ℝ), 1]) (diagonal ![4])) *ᵥ stackV ![0, 2] ![1])
    (normal_pd hS (blockDiag_pd hW1 hW2))
  refine ⟨_, _, _, _, wlls_R L _ _ _ x0 J0 hH.le, wlls_R L _ _ _ x0 J0 hS.le, ?_⟩
  generalize L.ldltSolve ((!![1; 1] : Matrix (Fin 2) (Fin 1) ℝ)ᵀ * diagonal ![(3 : ℝ), 1] * (!![1; 1] : Matrix (Fin 2) (Fin 1) ℝ)) _ = x1 at *
  generalize L.ldltSolve _ _ = x2 at *
  simp only [← mulVec_mulVec, stackM_mulVec, blockDiag_mulVec, stackM_tr_mulVec] at s1 s2
  have s1 := congrFun s1 0
  have s2 := congrFun s2 0
  simp [mulVec, dotProduct, Fin.sum_univ_two] at s1 s2
  have e1 : x1 0 = 1 / 2 := by linarith
  have e2 : x2 0 = 3 / 4 := by linarith
  rw [stackM_mulVec, stack_sub, dotProduct, dotProduct, Fin.sum_univ_add]
  simp [stackV, dotProduct, Fin.sum_univ_two, e1, e2]
  norm_num

/-- the mean of two numbers and a third one -/
example : FullColumnRank (!![1; 1] : Matrix (Fin 2) (Fin 1) ℝ) ∧ IsPosCov (diagonal ![(3 : ℝ), 1]) := ⟨fun x y h => by
  have h0 := congrFun h 0
  simp [mulVec, dotProduct] at h0
  ext i; fin_cases i; exact h0, isPosCov_iff.2 (PosDef.diagonal (by intro i; fin_cases i <;> norm_num))⟩

end NavFuse.Props
