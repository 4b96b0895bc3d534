import Verif.Props.Ukf

/-! # C201: what the unscented update depends on -/

namespace NavFuse.Props
open Matrix Kalman Spec KA

variable {α : Type} [Add α] [Sub α] [Mul α] [Div α] [Neg α] [Flt α] {n m : ℕ}

/-- C201: the covariance that the unscented update returns does not depend on the measured value, to the last bit, in every arithmetic and whatever the solver does. -/
theorem C201_covariance (L : LinSolver α) (x : Fin n → α) (P : Matrix (Fin n) (Fin n) α) (Y : Matrix (Fin n) (Fin (2 * n + 1)) α) (W : Fin (2 * n + 1) → α)
    (Z : Matrix (Fin m) (Fin (2 * n + 1)) α) (z w : Fin m → α) (R : Matrix (Fin m) (Fin m) α) (xo xo' : Fin n → α) (Po Po' : Matrix (Fin n) (Fin n) α) :
    ∃ y y' P', filterUkfUpdate L ⟨n, x⟩ ⟨n, n, P⟩ ⟨n, 2 * n + 1, Y⟩ ⟨2 * n + 1, W⟩ ⟨m, 2 * n + 1, Z⟩ ⟨m, z⟩ ⟨m, m, R⟩ ⟨n, xo⟩ ⟨n, n, Po⟩ = .ok (true, ⟨n, y⟩, ⟨n, n, P'⟩)
      ∧ filterUkfUpdate L ⟨n, x⟩ ⟨n, n, P⟩ ⟨n, 2 * n + 1, Y⟩ ⟨2 * n + 1, W⟩ ⟨m, 2 * n + 1, Z⟩ ⟨m, w⟩ ⟨m, m, R⟩ ⟨n, xo'⟩ ⟨n, n, Po'⟩ = .ok (true, ⟨n, y'⟩, ⟨n, n, P'⟩) :=
  ⟨_, _, _, ukfUpdate_fit .., ukfUpdate_fit ..⟩

/-- the update, whatever the solver does -/
theorem ukfUpdate_solver (L : LinSolver ℝ) (x : Fin n → ℝ) (P : Matrix (Fin n) (Fin n) ℝ) (Y : Matrix (Fin n) (Fin (2 * n + 1)) ℝ)
    (W : Fin (2 * n + 1) → ℝ) (Z : Matrix (Fin m) (Fin (2 * n + 1)) ℝ) (z : Fin m → ℝ) (R : Matrix (Fin m) (Fin m) ℝ) (xo : Fin n → ℝ) (Po : Matrix (Fin n) (Fin n) ℝ) :
    filterUkfUpdate L ⟨n, x⟩ ⟨n, n, P⟩ ⟨n, 2 * n + 1, Y⟩ ⟨2 * n + 1, W⟩ ⟨m, 2 * n + 1, Z⟩ ⟨m, z⟩ ⟨m, m, R⟩ ⟨n, xo⟩ ⟨n, n, Po⟩
      = .ok (true, ⟨n, x + (wscat W Y x Z (wmean W Z) * L.inv (ukfS W Z R)) *ᵥ (z - wmean W Z)⟩,
          ⟨n, n, P - wscat W Y x Z (wmean W Z) * L.inv (ukfS W Z R) * ukfS W Z R * (wscat W Y x Z (wmean W Z) * L.inv (ukfS W Z R))ᵀ⟩) := by
  have h0 : (mzero : Matrix (Fin n) (Fin m) ℝ) = 0 := by ext; simp [mzero, rsimp]
  rw [ukfUpdate_fit, meanC_R, scatterC_R, scatterC_R, wscat_eq, wscat_eq, wmean_eq, h0, zero_add]
  simp only [rsimp, ukfS]

/-- the cross scatter does not depend on the centre of the first set if the second is centred at its mean -/
theorem wscat_centre {N : ℕ} (W : Fin N → ℝ) (h1 : ∑ i, W i = 1) (Y : Matrix (Fin n) (Fin N) ℝ) (a b : Fin n → ℝ) (Z : Matrix (Fin m) (Fin N) ℝ) :
    wscat W Y a Z (wmean W Z) = wscat W Y b Z (wmean W Z) := by
  ext p q
  have h : ∑ i, W i * (Z q i - wmean W Z q) = 0 := by
    simp only [mul_sub, Finset.sum_sub_distrib, ← Finset.sum_mul, h1, one_mul, wmean, sub_self]
  have e : ∀ i, W i * (Y p i - a p) * (Z q i - wmean W Z q) = W i * (Y p i - b p) * (Z q i - wmean W Z q) + (b p - a p) * (W i * (Z q i - wmean W Z q)) := fun i => by ring
  have := Finset.sum_congr (rfl : (Finset.univ : Finset (Fin N)) = Finset.univ) fun i _ => e i
  rw [Finset.sum_add_distrib, ← Finset.mul_sum, h, mul_zero, add_zero] at this
  simpa [wscat, moment, dev, mul_assoc] using this

/-- C201: the unscented update uses the given estimate only as an offset. If the weights sum to one, another estimate, with the same sigma points, gives a result that differs by the same
amount, and the same covariance: what matters are the sigma points, and whether the estimate is their mean is not noticed. -/
theorem C201_offset (L : LinSolver ℝ) (x d : Fin n → ℝ) (P : Matrix (Fin n) (Fin n) ℝ) (Y : Matrix (Fin n) (Fin (2 * n + 1)) ℝ)
    (W : Fin (2 * n + 1) → ℝ) (h1 : ∑ i, W i = 1) (Z : Matrix (Fin m) (Fin (2 * n + 1)) ℝ) (z : Fin m → ℝ) (R : Matrix (Fin m) (Fin m) ℝ) (xo xo' : Fin n → ℝ)
    (Po Po' : Matrix (Fin n) (Fin n) ℝ) :
    ∃ y P', filterUkfUpdate L ⟨n, x⟩ ⟨n, n, P⟩ ⟨n, 2 * n + 1, Y⟩ ⟨2 * n + 1, W⟩ ⟨m, 2 * n + 1, Z⟩ ⟨m, z⟩ ⟨m, m, R⟩ ⟨n, xo⟩ ⟨n, n, Po⟩ = .ok (true, ⟨n, y⟩, ⟨n, n, P'⟩)
      ∧ filterUkfUpdate L ⟨n, x + d⟩ ⟨n, n, P⟩ ⟨n, 2 * n + 1, Y⟩ ⟨2 * n + 1, W⟩ ⟨m, 2 * n + 1, Z⟩ ⟨m, z⟩ ⟨m, m, R⟩ ⟨n, xo'⟩ ⟨n, n, Po'⟩
        = .ok (true, ⟨n, y + d⟩, ⟨n, n, P'⟩) := by
  refine ⟨_, _, ukfUpdate_solver .., ?_⟩
  rw [ukfUpdate_solver, wscat_centre W h1 Y (x + d) x, add_right_comm]

/-- C201: the sum of the weights matters and is not checked. With weights whose sum is two, another estimate changes the covariance, here from 1 to -1/3, and the call reports success. -/
theorem C201_weights_needed {L : LinSolver ℝ} (hL : L.Correct) (xo : Fin 1 → ℝ) (Po : Matrix (Fin 1) (Fin 1) ℝ) :
    (∃ y, filterUkfUpdate L ⟨1, ![0]⟩ ⟨1, 1, !![1]⟩ ⟨1, 2 * 1 + 1, (!![0, 1, -1] : Matrix (Fin 1) (Fin 3) ℝ)⟩ ⟨2 * 1 + 1, (![0, 1, 1] : Fin 3 → ℝ)⟩
        ⟨1, 2 * 1 + 1, (!![0, 1, 1] : Matrix (Fin 1) (Fin 3) ℝ)⟩ ⟨1, ![0]⟩ ⟨1, 1, !![1]⟩ ⟨1, xo⟩ ⟨1, 1, Po⟩ = .ok (true, ⟨1, y⟩, ⟨1, 1, !![1]⟩))
      ∧ ∃ y, filterUkfUpdate L ⟨1, ![1]⟩ ⟨1, 1, !![1]⟩ ⟨1, 2 * 1 + 1, (!![0, 1, -1] : Matrix (Fin 1) (Fin 3) ℝ)⟩ ⟨2 * 1 + 1, (![0, 1, 1] : Fin 3 → ℝ)⟩
        ⟨1, 2 * 1 + 1, (!![0, 1, 1] : Matrix (Fin 1) (Fin 3) ℝ)⟩ ⟨1, ![0]⟩ ⟨1, 1, !![1]⟩ ⟨1, xo⟩ ⟨1, 1, Po⟩ = .ok (true, ⟨1, y⟩, ⟨1, 1, !![-1 / 3]⟩) := by
  have hm : wmean (![0, 1, 1] : Fin 3 → ℝ) (!![0, 1, 1] : Matrix (Fin 1) (Fin 3) ℝ) = ![2] := by
    ext i; fin_cases i; simp [wmean, Fin.sum_univ_three]; norm_num
  have hS : ukfS (![0, 1, 1] : Fin 3 → ℝ) (!![0, 1, 1] : Matrix (Fin 1) (Fin 3) ℝ) !![1] = !![3] := by
    rw [ukfS, hm]
    ext i j; fin_cases i; fin_cases j; simp [wscat, moment, dev, Fin.sum_univ_three]; norm_num
  have hw : ∀ t : ℝ, wscat (![0, 1, 1] : Fin 3 → ℝ) (!![0, 1, -1] : Matrix (Fin 1) (Fin 3) ℝ) ![t] (!![0, 1, 1] : Matrix (Fin 1) (Fin 3) ℝ) ![2] = !![2 * t] := fun t => by
    ext i j; fin_cases i; fin_cases j; simp [wscat, moment, dev, Fin.sum_univ_three]; ring
  have hi : L.inv (!![3] : Matrix (Fin 1) (Fin 1) ℝ) = !![1 / 3] := by
    rw [hL.inv_eq _ (by simp)]
    refine inv_eq_left_inv ?_
    ext i j; fin_cases i; fin_cases j; norm_num [mul_apply]
  have hm' : wmean (N := 2 * 1 + 1) (![0, 1, 1] : Fin 3 → ℝ) (!![0, 1, 1] : Matrix (Fin 1) (Fin 3) ℝ) = ![2] := hm
  have hS' : ukfS (N := 2 * 1 + 1) (![0, 1, 1] : Fin 3 → ℝ) (!![0, 1, 1] : Matrix (Fin 1) (Fin 3) ℝ) !![1] = !![3] := hS
  have hw' : ∀ t : ℝ, wscat (N := 2 * 1 + 1) (![0, 1, 1] : Fin 3 → ℝ) (!![0, 1, -1] : Matrix (Fin 1) (Fin 3) ℝ) ![t] (!![0, 1, 1] : Matrix (Fin 1) (Fin 3) ℝ) ![2] = !![2 * t] := hw
  have hp : ∀ t : ℝ, (!![1] : Matrix (Fin 1) (Fin 1) ℝ) - !![2 * t] * !![1 / 3] * !![3] * (!![2 * t] * (!![1 / 3] : Matrix (Fin 1) (Fin 1) ℝ))ᵀ = !![1 - 4 / 3 * t ^ 2] := fun t => by
    ext i j; fin_cases i; fin_cases j; simp [vecMul, dotProduct]; ring
  have key : ∀ t : ℝ, ∃ y, filterUkfUpdate L ⟨1, ![t]⟩ ⟨1, 1, !![1]⟩ ⟨1, 2 * 1 + 1, (!![0, 1, -1] : Matrix (Fin 1) (Fin 3) ℝ)⟩ ⟨2 * 1 + 1, (![0, 1, 1] : Fin 3 → ℝ)⟩
      ⟨1, 2 * 1 + 1, (!![0, 1, 1] : Matrix (Fin 1) (Fin 3) ℝ)⟩ ⟨1, ![0]⟩ ⟨1, 1, !![1]⟩ ⟨1, xo⟩ ⟨1, 1, Po⟩ = .ok (true, ⟨1, y⟩, ⟨1, 1, !![1 - 4 / 3 * t ^ 2]⟩) := fun t => by
    have u := ukfUpdate_solver (n := 1) (m := 1) L ![t] !![1] (!![0, 1, -1] : Matrix (Fin 1) (Fin 3) ℝ) (![0, 1, 1] : Fin 3 → ℝ) (!![0, 1, 1] : Matrix (Fin 1) (Fin 3) ℝ) ![0] !![1] xo Po
    rw [hm', hS', hw', hi, hp] at u
    exact ⟨_, u⟩
  have k0 := key 0
  have k1 := key 1
  rw [show (1 : ℝ) - 4 / 3 * 0 ^ 2 = 1 by norm_num] at k0
  rw [show (1 : ℝ) - 4 / 3 * 1 ^ 2 = -1 / 3 by norm_num] at k1
  exact ⟨k0, k1⟩

/-- three sigma points with weights that sum to one, and an estimate that is not their mean -/
example : ∑ i, (![0, 1 / 2, 1 / 2] : Fin 3 → ℝ) i = 1 ∧ wmean (![0, 1 / 2, 1 / 2] : Fin 3 → ℝ) (!![0, 1, -1] : Matrix (Fin 1) (Fin 3) ℝ) ≠ ![5] := by
  refine ⟨by simp [Fin.sum_univ_three]; norm_num, fun h => ?_⟩
  have := congrFun h 0
  simp [wmean, Fin.sum_univ_three] at this

end NavFuse.Props
