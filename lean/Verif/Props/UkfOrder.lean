import Verif.Props.Ukf

/-! # The unscented prediction of curved models: C183

The mean that `filterUkfPredict` returns is compared with the mean of the propagated random state itself. -/

namespace NavFuse.Props
open Matrix Kalman

/-- a polynomial of degree three in the deviation `d` -/
noncomputable def cubic {n : ℕ} (c : ℝ) (L : Fin n → ℝ) (B : Fin n → Fin n → ℝ) (T : Fin n → Fin n → Fin n → ℝ) (d : Fin n → ℝ) : ℝ :=
  c + ∑ a, L a * d a + ∑ a, ∑ b, B a b * (d a * d b) + ∑ a, ∑ b, ∑ e, T a b e * (d a * d b * d e)

theorem swap1 {ι κ : Type} [Fintype ι] [Fintype κ] (w : ι → ℝ) (g : κ → ι → ℝ) : ∑ i, w i * ∑ a, g a i = ∑ a, ∑ i, w i * g a i := by
  simp_rw [Finset.mul_sum]; exact Finset.sum_comm

/-- the mean of a cubic polynomial depends on the first three moments only -/
theorem mean_cubic {n : ℕ} {ι : Type} [Fintype ι] (w : ι → ℝ) (d : ι → Fin n → ℝ) (c : ℝ) (L : Fin n → ℝ) (B : Fin n → Fin n → ℝ) (T : Fin n → Fin n → Fin n → ℝ)
    (P : Matrix (Fin n) (Fin n) ℝ) (h0 : ∑ i, w i = 1) (h1 : ∀ a, ∑ i, w i * d i a = 0) (h2 : ∀ a b, ∑ i, w i * (d i a * d i b) = P a b)
    (h3 : ∀ a b e, ∑ i, w i * (d i a * d i b * d i e) = 0) :
    ∑ i, w i * cubic c L B T (d i) = c + ∑ a, ∑ b, B a b * P a b := by
  have s1 : ∑ i, w i * ∑ a, L a * d i a = 0 := by
    rw [swap1]
    refine Finset.sum_eq_zero fun a _ => ?_
    simp_rw [mul_left_comm (w _) (L a)]
    rw [← Finset.mul_sum, h1, mul_zero]
  have s2 : ∑ i, w i * ∑ a, ∑ b, B a b * (d i a * d i b) = ∑ a, ∑ b, B a b * P a b := by
    rw [swap1]
    refine Finset.sum_congr rfl fun a _ => ?_
    rw [swap1]
    refine Finset.sum_congr rfl fun b _ => ?_
    simp_rw [mul_left_comm (w _) (B a b)]
    rw [← Finset.mul_sum, h2]
  have s3 : ∑ i, w i * ∑ a, ∑ b, ∑ e, T a b e * (d i a * d i b * d i e) = 0 := by
    rw [swap1]
    refine Finset.sum_eq_zero fun a _ => ?_
    rw [swap1]
    refine Finset.sum_eq_zero fun b _ => ?_
    rw [swap1]
    refine Finset.sum_eq_zero fun e _ => ?_
    simp_rw [mul_left_comm (w _) (T a b e)]
    rw [← Finset.mul_sum, h3, mul_zero]
  simp only [cubic, mul_add, Finset.sum_add_distrib, s1, s2, s3, ← Finset.sum_mul, h0]
  ring

/-- symmetric pairs of equal weight have no odd moments -/
theorem odd_moments {n : ℕ} {ι : Type} [Fintype ι] (w : ι → ℝ) (d : ι → Fin n → ℝ) (pair : ι ≃ ι) (hs : ∀ i, d (pair i) = -d i) (hw : ∀ i, w (pair i) = w i) :
    (∀ a, ∑ i, w i * d i a = 0) ∧ ∀ a b e, ∑ i, w i * (d i a * d i b * d i e) = 0 := by
  constructor
  · intro a
    have e1 := (Equiv.sum_comp pair fun i => w i * d i a).symm
    have e2 : ∑ i, w (pair i) * d (pair i) a = -∑ i, w i * d i a := by
      rw [← Finset.sum_neg_distrib]; exact Finset.sum_congr rfl fun i _ => by rw [hs, hw, Pi.neg_apply]; ring
    linarith
  · intro a b e
    have e1 := (Equiv.sum_comp pair fun i => w i * (d i a * d i b * d i e)).symm
    have e2 : ∑ i, w (pair i) * (d (pair i) a * d (pair i) b * d (pair i) e) = -∑ i, w i * (d i a * d i b * d i e) := by
      rw [← Finset.sum_neg_distrib]; exact Finset.sum_congr rfl fun i _ => by rw [hs, hw, Pi.neg_apply, Pi.neg_apply, Pi.neg_apply]; ring
    linarith

/-- C183: the state is random, with mean `m`, covariance `P` and no skewness (`X ω` with probability `p ω`); the sigma points lie in pairs about `m` and have
the covariance `P`.  The dynamics `f` are within `M |x - m|⁴` (`size`: any measure of the deviation) of a cubic polynomial.  Then the mean that the unscented
prediction returns is the mean of `f X`, up to `M` times the fourth moments of the sigma points and of the state.  For cubic dynamics (`M = 0`) it is exact. -/
theorem C183_unscented_mean {n : ℕ} {Ω : Type} [Fintype Ω] (p : Ω → ℝ) (X : Ω → Fin n → ℝ) (m : Fin n → ℝ) (P : Matrix (Fin n) (Fin n) ℝ)
    (p0 : ∀ o, 0 ≤ p o) (p1 : ∑ o, p o = 1) (pm : ∀ a, ∑ o, p o * (X o a - m a) = 0) (pP : ∀ a b, ∑ o, p o * ((X o a - m a) * (X o b - m b)) = P a b)
    (p3 : ∀ a b e, ∑ o, p o * ((X o a - m a) * (X o b - m b) * (X o e - m e)) = 0)
    (W : Fin (2 * n + 1) → ℝ) (χ : Fin (2 * n + 1) → Fin n → ℝ) (hW : ∑ i, W i = 1) (pair : Fin (2 * n + 1) ≃ Fin (2 * n + 1))
    (hs : ∀ i, χ (pair i) - m = -(χ i - m)) (hw : ∀ i, W (pair i) = W i) (hP : ∀ a b, ∑ i, W i * ((χ i a - m a) * (χ i b - m b)) = P a b)
    (f : (Fin n → ℝ) → Fin n → ℝ) (c : Fin n → ℝ) (L : Fin n → Fin n → ℝ) (B : Fin n → Fin n → Fin n → ℝ) (T : Fin n → Fin n → Fin n → Fin n → ℝ)
    (M : ℝ) (size : (Fin n → ℝ) → ℝ) (hf : ∀ x k, |f x k - cubic (c k) (L k) (B k) (T k) (x - m)| ≤ M * size (x - m) ^ 4)
    (Q : Matrix (Fin n) (Fin n) ℝ) (xo : Fin n → ℝ) (Po : Matrix (Fin n) (Fin n) ℝ) :
    ∃ x' P', filterUkfPredict ⟨2 * n + 1, W⟩ ⟨n, 2 * n + 1, fun k i => f (χ i) k⟩ ⟨n, n, Q⟩ ⟨n, xo⟩ ⟨n, n, Po⟩ = .ok (true, ⟨n, x'⟩, ⟨n, n, P'⟩) ∧
      ∀ k, |x' k - ∑ o, p o * f (X o) k| ≤ M * (∑ i, |W i| * size (χ i - m) ^ 4 + ∑ o, p o * size (X o - m) ^ 4) := by
  obtain ⟨x', P', e, hx, -⟩ := C83_ukf_predict_moments W (fun k i => f (χ i) k) Q xo Po
  refine ⟨x', P', e, fun k => ?_⟩
  obtain ⟨o1, o3⟩ := odd_moments W (fun i => χ i - m) pair hs hw
  have A := mean_cubic W (fun i => χ i - m) (c k) (L k) (B k) (T k) P hW o1 hP o3
  have A' := mean_cubic p (fun o => X o - m) (c k) (L k) (B k) (T k) P p1 pm pP p3
  have key : ∀ {ι : Type} [Fintype ι] (w : ι → ℝ) (y : ι → Fin n → ℝ),
      |∑ i, w i * f (y i) k - ∑ i, w i * cubic (c k) (L k) (B k) (T k) (y i - m)| ≤ M * ∑ i, |w i| * size (y i - m) ^ 4 := by
    intro ι _ w y
    rw [← Finset.sum_sub_distrib, Finset.mul_sum]
    refine (Finset.abs_sum_le_sum_abs _ _).trans (Finset.sum_le_sum fun i _ => ?_)
    rw [← mul_sub, abs_mul, mul_left_comm]
    exact mul_le_mul_of_nonneg_left (hf _ _) (abs_nonneg _)
  have K1 := key W χ
  have K2 := key p X
  have pe : ∑ o, |p o| * size (X o - m) ^ 4 = ∑ o, p o * size (X o - m) ^ 4 := Finset.sum_congr rfl fun o _ => by rw [abs_of_nonneg (p0 o)]
  rw [pe] at K2
  rw [A] at K1
  rw [A'] at K2
  rw [hx k, mul_add]
  have := abs_sub_le (∑ i, W i * f (χ i) k) (c k + ∑ a, ∑ b, B k a b * P a b) (∑ o, p o * f (X o) k)
  rw [abs_sub_comm] at K2
  linarith

/-- the covariance is not that accurate: a state that is ±1 with equal chances, squared, is 1 for certain; with the usual three points of centre weight 2/3 the
unscented prediction reports the variance 2 -/
theorem C183_covariance_is_not_exact :
    ∃ (W : Fin (2 * 1 + 1) → ℝ) (χ : Fin (2 * 1 + 1) → ℝ), ∑ i, W i = 1 ∧ ∑ i, W i * χ i = 0 ∧ ∑ i, W i * χ i ^ 2 = 1 / 2 * (-1) ^ 2 + 1 / 2 * 1 ^ 2 ∧ (∀ i, 0 < W i) ∧
      ∀ xo Po, ∃ x' P', filterUkfPredict ⟨2 * 1 + 1, W⟩ ⟨1, 2 * 1 + 1, fun _ i => χ i ^ 2⟩ ⟨1, 1, 0⟩ ⟨1, xo⟩ ⟨1, 1, Po⟩ = .ok (true, ⟨1, x'⟩, ⟨1, 1, P'⟩) ∧
        x' 0 = 1 / 2 * (-1) ^ 2 + 1 / 2 * 1 ^ 2 ∧ P' 0 0 = 2 ∧ (1 / 2 * ((-1 : ℝ) ^ 2 - x' 0) ^ 2 + 1 / 2 * (1 ^ 2 - x' 0) ^ 2 : ℝ) = 0 := by
  have s3 : Real.sqrt 3 ^ 2 = 3 := Real.sq_sqrt (by norm_num)
  refine ⟨![2 / 3, 1 / 6, 1 / 6], ![0, Real.sqrt 3, -Real.sqrt 3], ?_, ?_, ?_, ?_, fun xo Po => ?_⟩
  · simp [Fin.sum_univ_three]; norm_num
  · simp [Fin.sum_univ_three]
  · simp [Fin.sum_univ_three]; norm_num
  · intro i; fin_cases i <;> norm_num
  · obtain ⟨x', P', e, hx, hP, -⟩ := C83_ukf_predict_moments (n := 1) ![2 / 3, 1 / 6, 1 / 6] (fun _ i => (![0, Real.sqrt 3, -Real.sqrt 3] : Fin 3 → ℝ) i ^ 2) 0 xo Po
    have x1 : x' 0 = 1 := by rw [hx]; simp [Fin.sum_univ_three]; norm_num
    refine ⟨x', P', e, by rw [x1]; norm_num, ?_, by rw [x1]; norm_num⟩
    rw [hP, x1]; simp [Fin.sum_univ_three]; norm_num

/-- hypotheses met: a state ±1 with equal chances, squared -/
example : ∃ (W : Fin (2 * 1 + 1) → ℝ) (χ : Fin (2 * 1 + 1) → Fin 1 → ℝ) (pair : Fin (2 * 1 + 1) ≃ Fin (2 * 1 + 1)) (X : Fin 2 → Fin 1 → ℝ) (P : Matrix (Fin 1) (Fin 1) ℝ),
    ∑ i, W i = 1 ∧ (∀ i, χ (pair i) - 0 = -(χ i - 0)) ∧ (∀ i, W (pair i) = W i) ∧ (∀ a b, ∑ i, W i * ((χ i a - 0) * (χ i b - 0)) = P a b) ∧
    (∀ a b, ∑ o, (1 / 2) * ((X o a - 0) * (X o b - 0)) = P a b) ∧ (∀ a b e, ∑ o, (1 / 2) * ((X o a - 0) * (X o b - 0) * (X o e - 0)) = 0) ∧
    ∀ (x : Fin 1 → ℝ) (k : Fin 1), |x k ^ 2 - cubic 0 0 (fun _ _ => 1) 0 (x - 0)| ≤ 0 * 1 ^ 4 := by
  have s3 : Real.sqrt 3 * Real.sqrt 3 = 3 := Real.mul_self_sqrt (by norm_num)
  refine ⟨![2 / 3, 1 / 6, 1 / 6], ![![0], ![Real.sqrt 3], ![-Real.sqrt 3]], Equiv.swap 1 2, ![![1], ![-1]], 1, ?_, ?_, ?_, ?_, ?_, ?_, ?_⟩
  · simp [Fin.sum_univ_three]; norm_num
  · intro i; fin_cases i <;> ext j <;> fin_cases j <;> simp [Equiv.swap_apply_def]
  · intro i; fin_cases i <;> simp [Equiv.swap_apply_def]
  · intro a b; fin_cases a; fin_cases b; simp [Fin.sum_univ_three, s3]; norm_num
  · intro a b; fin_cases a; fin_cases b; simp [Fin.sum_univ_two]; norm_num
  · intro a b e; fin_cases a; fin_cases b; fin_cases e; simp [Fin.sum_univ_two]
  · intro x k; fin_cases k; simp [cubic, sq]

end NavFuse.Props
