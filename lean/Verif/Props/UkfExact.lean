import Verif.Props.Ukf
/-! C84 exactly: which weights make the unscented prediction return a covariance whatever the propagated points are. -/

namespace NavFuse.Props
open Matrix Kalman Spec KA

/-- the first diagonal entry of the scatter, when only point `c` differs from the others, by `s` in the first coordinate -/
theorem wscat_spike {n N : ℕ} (W : Fin N → ℝ) (hW : ∑ i, W i = 1) (c : Fin N) (s : ℝ) (k : Fin n) :
    let Y : Matrix (Fin n) (Fin N) ℝ := of fun _ i => if i = c then s else 0
    wscat W Y (wmean W Y) Y (wmean W Y) k k = s ^ 2 * (W c - W c ^ 2) := by
  intro Y
  have hm : wmean W Y k = s * W c := by simp [wmean, Y, mul_comm]
  have hd : ∀ i, W i * (dev Y (wmean W Y) i k * dev Y (wmean W Y) i k)
      = (if i = c then s ^ 2 * W c - 2 * s * W c * (s * W c) else 0) + (s * W c) ^ 2 * W i := by
    intro i
    simp only [dev, hm, Y, of_apply]
    split_ifs with h
    · subst h; ring
    · ring
  simp only [wscat, moment, hd, Finset.sum_add_distrib, Finset.sum_ite_eq', Finset.mem_univ, if_true, ← Finset.mul_sum, hW]
  ring

/-- C84, exactly. Let the weights sum to one and `Q` be any covariance. The predicted covariance is a covariance for every set of propagated sigma points if
and only if no weight is negative; with a negative weight, be it as small as it may, some set of points gives a negative variance. -/
theorem C84_characterised {n : ℕ} (W : Fin (2 * (n + 1) + 1) → ℝ) (hW : ∑ i, W i = 1) (Q : Matrix (Fin (n + 1)) (Fin (n + 1)) ℝ) (hQ : IsCov Q)
    (xo : Fin (n + 1) → ℝ) (Po : Matrix (Fin (n + 1)) (Fin (n + 1)) ℝ) :
    (∀ Y, ∃ x' P', filterUkfPredict ⟨2 * (n + 1) + 1, W⟩ ⟨n + 1, 2 * (n + 1) + 1, Y⟩ ⟨n + 1, n + 1, Q⟩ ⟨n + 1, xo⟩ ⟨n + 1, n + 1, Po⟩
        = .ok (true, ⟨n + 1, x'⟩, ⟨n + 1, n + 1, P'⟩) ∧ IsCov P')
      ↔ ∀ i, 0 ≤ W i := by
  constructor
  · intro h c
    by_contra hc
    push Not at hc
    have hneg : 0 < W c ^ 2 - W c := by nlinarith
    have hq0 : 0 ≤ Q 0 0 := by simpa [dotProduct, mulVec, Pi.single_apply] using hQ.2 (Pi.single 0 1)
    set s := Real.sqrt ((Q 0 0 + 1) / (W c ^ 2 - W c)) with hs
    have hs2 : s ^ 2 = (Q 0 0 + 1) / (W c ^ 2 - W c) := Real.sq_sqrt (by positivity)
    obtain ⟨x', P', h1, h2⟩ := h (of fun _ i => if i = c then s else 0)
    rw [ukfPredict_R] at h1
    simp only [Except.ok.injEq, Prod.mk.injEq, DVec.mk.injEq, DMat.mk.injEq, true_and, heq_eq_eq] at h1
    have h00 : 0 ≤ P' 0 0 := by simpa [dotProduct, mulVec, Pi.single_apply] using h2.2 (Pi.single 0 1)
    rw [← h1.2, Matrix.add_apply, wscat_spike W hW c s 0, hs2] at h00
    have : (Q 0 0 + 1) / (W c ^ 2 - W c) * (W c - W c ^ 2) = -(Q 0 0 + 1) := by
      rw [show W c - W c ^ 2 = -(W c ^ 2 - W c) by ring, mul_neg, div_mul_cancel₀ _ hneg.ne']
    linarith
  · intro h Y
    exact C84_ukf_predict_psd_partial W Y Q xo Po hQ fun i hi => absurd (h i) (not_le.2 hi)

/-- both sides occur: equal weights, and the weights of the shipped scheme's kind with a negative centre -/
example : (∀ i, 0 ≤ (![1/3, 1/3, 1/3] : Fin (2 * (0 + 1) + 1) → ℝ) i) ∧ ¬ ∀ i, 0 ≤ (![-1, 1, 1] : Fin (2 * (0 + 1) + 1) → ℝ) i := by
  refine ⟨fun i => by fin_cases i <;> simp, fun h => ?_⟩
  have := h 0
  norm_num at this

end NavFuse.Props
