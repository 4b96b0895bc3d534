import Verif.Props.Exact
import Verif.Props.ZeroWeight
import Verif.Props.Solvers

/-! # C202: a cost that is a number certifies the data and the estimate -/

namespace NavFuse.Props
open Matrix Spec KA Lsq XR Align

variable {n m : ℕ}

theorem nf_sub_right {b : XR} (h : ¬ b.Finite) (a : XR) : ¬ (a - b).Finite := by
  rintro ⟨z, hz⟩
  cases a <;> cases b <;> first | exact h ⟨_, rfl⟩ | cases hz

/-- the cost is not a number unless measurements, model and estimate are finite -/
theorem cost_finite (y : Fin m → XR) (H : Matrix (Fin m) (Fin n) XR) (x : Fin n → XR) {c : XR} (h : (c * vdot (vsub y (mvec H x)) (vsub y (mvec H x))).Finite) :
    (∀ i, (y i).Finite) ∧ (∀ i j, (H i j).Finite) ∧ (0 < m → ∀ j, (x j).Finite) := by
  have hd : ∀ i, (vsub y (mvec H x) i).Finite := fun i => by
    by_contra hi
    exact nf_mul_right (fsum_notfin _ i (nf_mul_left hi _)) _ h
  refine ⟨fun i => ?_, fun i j => ?_, fun hm j => ?_⟩
  · by_contra hi
    exact notfin_sub hi _ (hd i)
  · by_contra hi
    exact nf_sub_right (fsum_notfin _ j (nf_mul_left hi _)) _ (hd i)
  · by_contra hi
    exact nf_sub_right (fsum_notfin _ j (nf_mul_right hi _)) _ (hd ⟨0, hm⟩)

/-- C202: if `UnweightedLinearLeastSquares` returns true with a cost that is a number, then all measurements, all entries of the model and all entries of the estimate are finite, whatever
the solver does. -/
theorem C202_unweighted (L : LinSolver XR) (y : Fin m → XR) (H : Matrix (Fin m) (Fin n) XR) (x0 x : Fin n → XR) (J0 J : XR)
    (h : unweightedLinear L ⟨m, y⟩ ⟨m, n, H⟩ ⟨n, x0⟩ J0 = .ok (true, ⟨n, x⟩, J)) (hJ : J.Finite) :
    (∀ i, (y i).Finite) ∧ (∀ i j, (H i j).Finite) ∧ ∀ j, (x j).Finite := by
  by_cases hn : n > m
  · simp [unweightedLinear, hn] at h
  · simp only [unweightedLinear, computeCostFunction, ne_eq, not_true_eq_false, or_self, if_false, hn, osimp] at h
    simp [osimp] at h
    obtain ⟨hx, e⟩ := h
    rw [← e, hx] at hJ
    obtain ⟨a, b, c⟩ := cost_finite y H x hJ
    exact ⟨a, b, fun j => c (lt_of_lt_of_le j.pos (not_lt.1 hn)) j⟩

/-- C202 for `WeightedLinearLeastSquares`. -/
theorem C202_weighted (L : LinSolver XR) (y : Fin m → XR) (H : Matrix (Fin m) (Fin n) XR) (W : Matrix (Fin m) (Fin m) XR) (x0 x : Fin n → XR) (J0 J : XR)
    (h : weightedLinear L ⟨m, y⟩ ⟨m, n, H⟩ ⟨m, m, W⟩ ⟨n, x0⟩ J0 = .ok (true, ⟨n, x⟩, J)) (hJ : J.Finite) :
    (∀ i, (y i).Finite) ∧ (∀ i j, (H i j).Finite) ∧ ∀ j, (x j).Finite := by
  by_cases hn : n > m
  · simp [weightedLinear, hn] at h
  · simp only [weightedLinear, computeCostFunction, ne_eq, not_true_eq_false, or_self, if_false, hn, osimp] at h
    simp [osimp] at h
    obtain ⟨hx, e⟩ := h
    rw [← e, hx] at hJ
    obtain ⟨a, b, c⟩ := cost_finite y H x hJ
    exact ⟨a, b, fun j => c (lt_of_lt_of_le j.pos (not_lt.1 hn)) j⟩

/-- C202, exactly: with Eigen's LDLT and at least as many measurements as states the cost is a number if and only if all measurements and all entries of the model are finite. -/
theorem C202_characterised (y : Fin m → XR) (H : Matrix (Fin m) (Fin n) XR) (hn : n ≤ m) (x0 : Fin n → XR) (J0 : XR) :
    (∃ x J, unweightedLinear LinSolver.eigen ⟨m, y⟩ ⟨m, n, H⟩ ⟨n, x0⟩ J0 = .ok (true, ⟨n, x⟩, J) ∧ J.Finite) ↔ (∀ i, (y i).Finite) ∧ ∀ i j, (H i j).Finite := by
  refine ⟨fun ⟨x, J, h, hJ⟩ => ?_, fun ⟨a, b⟩ => ?_⟩
  · obtain ⟨a, b, -⟩ := C202_unweighted _ y H x0 x J0 J h hJ
    exact ⟨a, b⟩
  · choose y' hy using a
    choose H' hH using b
    have ey : y = finV y' := funext hy
    have eH : H = finM (H' : Matrix (Fin m) (Fin n) ℝ) := by ext i j; exact hH i j
    obtain ⟨⟨x, J, h⟩, -⟩ := C113_always_finite y' H' 0 hn x0 J0
    exact ⟨finV x, fin J, by rw [ey, eH]; exact h, ⟨J, rfl⟩⟩

/-- two measurements of one state -/
example : ∃ x J, unweightedLinear LinSolver.eigen ⟨2, finV ![3, 5]⟩ ⟨2, 1, finM (!![1; 1] : Matrix (Fin 2) (Fin 1) ℝ)⟩ ⟨1, finV ![0]⟩ (fin 0) = .ok (true, ⟨1, x⟩, J) ∧ J.Finite :=
  (C202_characterised _ _ (by norm_num) _ _).2 ⟨fun i => ⟨_, rfl⟩, fun i j => ⟨_, rfl⟩⟩

end NavFuse.Props
