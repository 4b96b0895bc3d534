import Verif.Props.MoreData
import Verif.XR

/-! # C195: weights of zero -/

namespace NavFuse.Props
open Matrix Spec KA Lsq

variable {n m p : ℕ}

/-- C195, what holds: measurements with weight zero do not influence the estimate, whatever their values and whatever the solver does. The reported cost is that of the others
plus half the squares of the residuals of those with weight zero. -/
theorem C195_zero_weight_partial (L : LinSolver ℝ) (y1 : Fin m → ℝ) (H1 : Matrix (Fin m) (Fin n) ℝ) (W1 : Matrix (Fin m) (Fin m) ℝ) (y2 : Fin p → ℝ)
    (H2 : Matrix (Fin p) (Fin n) ℝ) (hn : n ≤ m) (x0 : Fin n → ℝ) (J0 : ℝ) :
    ∃ x J, weightedLinear L ⟨m, y1⟩ ⟨m, n, H1⟩ ⟨m, m, W1⟩ ⟨n, x0⟩ J0 = .ok (true, ⟨n, x⟩, J)
      ∧ weightedLinear L ⟨m + p, stackV y1 y2⟩ ⟨m + p, n, stackM H1 H2⟩ ⟨m + p, m + p, blockDiag2 W1 0⟩ ⟨n, x0⟩ J0
        = .ok (true, ⟨n, x⟩, J + (∑ i, (y2 i - (H2 *ᵥ x) i) ^ 2) / 2) := by
  have hv : ∀ v w, ((stackM H1 H2)ᵀ * blockDiag2 W1 0) *ᵥ stackV v w = (H1ᵀ * W1) *ᵥ v := fun v w => by
    rw [← mulVec_mulVec, blockDiag_mulVec, stackM_tr_mulVec, zero_mulVec, mulVec_zero, add_zero, mulVec_mulVec]
  have hN : (stackM H1 H2)ᵀ * blockDiag2 W1 0 * stackM H1 H2 = H1ᵀ * W1 * H1 := by
    refine ext_of_mulVec_single fun j => ?_
    rw [← mulVec_mulVec, stackM_mulVec, hv, mulVec_mulVec]
  refine ⟨_, _, wlls_R L y1 H1 W1 x0 J0 hn, ?_⟩
  rw [wlls_R L _ _ _ x0 J0 (by omega), hN, hv]
  congr 3
  rw [stackM_mulVec, stack_sub, dotProduct, Fin.sum_univ_add]
  simp only [stackV, Fin.append_left, Fin.append_right, dotProduct, Pi.sub_apply, sq]
  ring

/-- C195 fails for the reported cost: it changes unless the measurements with weight zero agree with the estimate. -/
theorem C195_cost_fails (L : LinSolver ℝ) (y1 : Fin m → ℝ) (H1 : Matrix (Fin m) (Fin n) ℝ) (W1 : Matrix (Fin m) (Fin m) ℝ) (y2 : Fin p → ℝ)
    (H2 : Matrix (Fin p) (Fin n) ℝ) (hn : n ≤ m) (x0 : Fin n → ℝ) (J0 : ℝ) :
    ∃ x J J', weightedLinear L ⟨m, y1⟩ ⟨m, n, H1⟩ ⟨m, m, W1⟩ ⟨n, x0⟩ J0 = .ok (true, ⟨n, x⟩, J)
      ∧ weightedLinear L ⟨m + p, stackV y1 y2⟩ ⟨m + p, n, stackM H1 H2⟩ ⟨m + p, m + p, blockDiag2 W1 0⟩ ⟨n, x0⟩ J0 = .ok (true, ⟨n, x⟩, J')
      ∧ (y2 ≠ H2 *ᵥ x → J < J') := by
  obtain ⟨x, J, e1, e2⟩ := C195_zero_weight_partial L y1 H1 W1 y2 H2 hn x0 J0
  refine ⟨x, J, _, e1, e2, fun h => ?_⟩
  by_contra hle
  exact h (sq_sum_zero (by linarith))

/-- C195 fails for readings that are not numbers: a single NaN among the measurements makes the reported cost NaN, also if its weight is zero, whatever the solver does. -/
theorem C195_nan_fails (L : LinSolver XR) (y : Fin m → XR) (H : Matrix (Fin m) (Fin n) XR) (W : Matrix (Fin m) (Fin m) XR) (hn : n ≤ m) (x0 : Fin n → XR) (J0 : XR)
    (i : Fin m) (hi : y i = .nan) : ∃ x, weightedLinear L ⟨m, y⟩ ⟨m, n, H⟩ ⟨m, m, W⟩ ⟨n, x0⟩ J0 = .ok (true, ⟨n, x⟩, .nan) := by
  have : ¬ (n > m) := by omega
  have e : ∀ v : Fin m → XR, vdot (vsub y v) (vsub y v) = .nan := fun v => by
    cases m with
    | zero => exact i.elim0
    | succ m => exact XR.eval_nan _ _ i (((Flt.order XR).perm m).mem_iff.2 (List.mem_finRange i)) (by simp [vsub, hi, XR.nan_sub, XR.nan_mul])
  simp only [weightedLinear, computeCostFunction, ne_eq, not_true_eq_false, or_self, if_false, this, osimp]
  simp [osimp, e, XR.mul_nan]

/-- ten with weight one and a thousand with weight zero -/
example : (1 : ℕ) ≤ 1 ∧ (![1000] : Fin 1 → ℝ) ≠ (!![1] : Matrix (Fin 1) (Fin 1) ℝ) *ᵥ ![10] := ⟨le_rfl, fun h => by
  have := congrFun h 0
  norm_num [mulVec, dotProduct] at this⟩

end NavFuse.Props
