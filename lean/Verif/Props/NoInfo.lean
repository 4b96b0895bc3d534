import Verif.Props.KalmanInfo
import Verif.Props.Exact
import Mathlib.Topology.Instances.Matrix

/-! # C198: infinite variances -/

namespace NavFuse.Props
open Matrix Kalman Spec KA XR Align Filter Topology

variable {n m : ℕ}

/-- C198 does not hold for infinite noise: if one entry of the measurement noise covariance is infinite (or NaN), no entry of the resulting covariance is a number, whatever the other
data are and whatever the solver does, and the call reports success. -/
theorem C198_infinite_noise_fails (L : LinSolver XR) (x : Fin n → XR) (P : Matrix (Fin n) (Fin n) XR) (z : Fin m → XR) (H : Matrix (Fin m) (Fin n) XR)
    (R : Matrix (Fin m) (Fin m) XR) (k l : Fin m) (hR : ¬ (R k l).Finite) (xo : Fin n → XR) (Po : Matrix (Fin n) (Fin n) XR) :
    ∃ (y : Fin n → XR) (Y : Matrix (Fin n) (Fin n) XR),
      filterUpdate L ⟨n, x⟩ ⟨n, n, P⟩ ⟨m, z⟩ ⟨m, n, H⟩ ⟨m, m, R⟩ ⟨n, xo⟩ ⟨n, n, Po⟩ = .ok (true, ⟨n, y⟩, ⟨n, n, Y⟩) ∧ ∀ i j, ¬ (Y i j).Finite := by
  refine ⟨_, _, update_fit .., fun i j => ?_⟩
  exact nf_add_right (fsum_notfin _ l (nf_mul_left (fsum_notfin _ k (nf_mul_right hR _)) _)) _

/-- C198 does not hold for an infinite prior variance: if one entry of the covariance is infinite (or NaN), no entry of the resulting covariance is a number, and neither is the estimate
of the state to whose row the entry belongs. -/
theorem C198_infinite_prior_fails (L : LinSolver XR) (x : Fin n → XR) (P : Matrix (Fin n) (Fin n) XR) (z : Fin m → XR) (H : Matrix (Fin m) (Fin n) XR)
    (R : Matrix (Fin m) (Fin m) XR) (hm : 0 < m) (k l : Fin n) (hP : ¬ (P k l).Finite) (xo : Fin n → XR) (Po : Matrix (Fin n) (Fin n) XR) :
    ∃ (y : Fin n → XR) (Y : Matrix (Fin n) (Fin n) XR),
      filterUpdate L ⟨n, x⟩ ⟨n, n, P⟩ ⟨m, z⟩ ⟨m, n, H⟩ ⟨m, m, R⟩ ⟨n, xo⟩ ⟨n, n, Po⟩ = .ok (true, ⟨n, y⟩, ⟨n, n, Y⟩) ∧ ¬ (y k).Finite ∧ ∀ i j, ¬ (Y i j).Finite := by
  refine ⟨_, _, update_fit .., ?_, fun i j => ?_⟩
  · refine nf_add_right (fsum_notfin _ ⟨0, hm⟩ (nf_mul_left ?_ _)) _
    exact fsum_notfin _ ⟨0, hm⟩ (nf_mul_left (fsum_notfin _ l (nf_mul_left hP _)) _)
  · exact notfin_add (fsum_notfin _ l (nf_mul_left (fsum_notfin _ k (nf_mul_right hP _)) _)) _

theorem inv_tendsto {A : ℝ → Matrix (Fin n) (Fin n) ℝ} {B : Matrix (Fin n) (Fin n) ℝ} (h : Tendsto A atTop (𝓝 B)) (hB : IsUnit B.det) :
    Tendsto (fun r => (A r)⁻¹) atTop (𝓝 B⁻¹) := by
  have : ContinuousAt Ring.inverse B.det := by
    rw [Ring.inverse_eq_inv']; exact continuousAt_inv₀ hB.ne_zero
  exact (continuousAt_matrix_inv B this).tendsto.comp h

theorem smul_tendsto_mat (A : Matrix (Fin n) (Fin n) ℝ) : Tendsto (fun r : ℝ => r⁻¹ • A) atTop (𝓝 0) := by
  have := (tendsto_inv_atTop_zero (𝕜 := ℝ)).smul_const A
  rwa [zero_smul] at this

theorem smul_tendsto_vec (v : Fin n → ℝ) : Tendsto (fun r : ℝ => r⁻¹ • v) atTop (𝓝 0) := by
  have := (tendsto_inv_atTop_zero (𝕜 := ℝ)).smul_const v
  rwa [zero_smul] at this

theorem smul_posdef_inv {R : Matrix (Fin m) (Fin m) ℝ} (hR : R.PosDef) {r : ℝ} (hr : 0 < r) : (r • R)⁻¹ = r⁻¹ • R⁻¹ := by
  have u : IsUnit R.det := hR.det_pos.ne'.isUnit
  refine inv_eq_left_inv ?_
  rw [Matrix.smul_mul, Matrix.mul_smul, smul_smul, inv_mul_cancel₀ hr.ne', one_smul, nonsing_inv_mul _ u]

/-- C198, what holds (noise): as the noise of a measurement grows beyond all bounds, the update tends to leave estimate and covariance as they are. -/
theorem C198_large_noise_partial {L : LinSolver ℝ} (hL : L.Correct) (x : Fin n → ℝ) (P : Matrix (Fin n) (Fin n) ℝ) (z : Fin m → ℝ) (H : Matrix (Fin m) (Fin n) ℝ)
    (R : Matrix (Fin m) (Fin m) ℝ) (hP : IsCov P) (hR : IsPosCov R) :
    ∃ (f : ℝ → Fin n → ℝ) (g : ℝ → Matrix (Fin n) (Fin n) ℝ),
      (∀ r > 0, ∀ (xo : Fin n → ℝ) (Po : Matrix (Fin n) (Fin n) ℝ),
        filterUpdate L ⟨n, x⟩ ⟨n, n, P⟩ ⟨m, z⟩ ⟨m, n, H⟩ ⟨m, m, r • R⟩ ⟨n, xo⟩ ⟨n, n, Po⟩ = .ok (true, ⟨n, f r⟩, ⟨n, n, g r⟩))
      ∧ Tendsto f atTop (𝓝 x) ∧ Tendsto g atTop (𝓝 P) := by
  rw [isCov_iff] at hP; rw [isPosCov_iff] at hR
  have hRr : ∀ r : ℝ, 0 < r → (r • R).PosDef := fun r hr => hR.smul hr
  have hA : ∀ r : ℝ, 0 < r → 1 + P * info H (r • R) = 1 + r⁻¹ • (P * info H R) := fun r hr => by
    rw [info, info, smul_posdef_inv hR hr, Matrix.mul_smul, Matrix.smul_mul, Matrix.mul_smul]
  have hu : ∀ r : ℝ, 0 < r → IsUnit (1 + r⁻¹ • (P * info H R)).det := fun r hr => by
    rw [← hA r hr]; exact one_add_mul_unit hP (info_psd H (hRr r hr))
  have lim : Tendsto (fun r : ℝ => (1 + r⁻¹ • (P * info H R))⁻¹) atTop (𝓝 1) := by
    have : Tendsto (fun r : ℝ => 1 + r⁻¹ • (P * info H R)) atTop (𝓝 1) := by
      simpa only [add_zero] using (smul_tendsto_mat (P * info H R)).const_add 1
    simpa using inv_tendsto this (by simp)
  refine ⟨fun r => (1 + r⁻¹ • (P * info H R))⁻¹ *ᵥ (x + r⁻¹ • (P *ᵥ (Hᵀ *ᵥ (R⁻¹ *ᵥ z)))), fun r => (1 + r⁻¹ • (P * info H R))⁻¹ * P, fun r hr xo Po => ?_, ?_, ?_⟩
  · rw [update_R hL x hP z H (hRr r hr)]
    have c := post_cov hP H (hRr r hr)
    have d := post_mean hP H (hRr r hr) x z
    rw [hA r hr] at c d
    rw [smul_posdef_inv hR hr, smul_mulVec, mulVec_smul, mulVec_smul] at d
    beta_reduce
    rw [← d, mulVec_mulVec, nonsing_inv_mul _ (hu r hr), one_mulVec]
    congr
    have := congrArg (fun w => (1 + r⁻¹ • (P * info H R))⁻¹ * w) c
    simpa only [← Matrix.mul_assoc, nonsing_inv_mul _ (hu r hr), Matrix.one_mul] using this
  · have h2 : Tendsto (fun r : ℝ => x + r⁻¹ • (P *ᵥ (Hᵀ *ᵥ (R⁻¹ *ᵥ z)))) atTop (𝓝 x) := by
      simpa only [add_zero] using (smul_tendsto_vec (P *ᵥ (Hᵀ *ᵥ (R⁻¹ *ᵥ z)))).const_add x
    have hc : Continuous fun q : Matrix (Fin n) (Fin n) ℝ × (Fin n → ℝ) => q.1 *ᵥ q.2 := continuous_fst.matrix_mulVec continuous_snd
    have := (hc.tendsto (1, x)).comp (lim.prodMk_nhds h2)
    simp only [one_mulVec] at this
    exact this
  · have hc : Continuous fun q : Matrix (Fin n) (Fin n) ℝ => q * P := continuous_id.matrix_mul continuous_const
    have := (hc.tendsto 1).comp lim
    rw [Matrix.one_mul] at this
    exact this

/-- C198, what holds (prior): as the prior covariance grows beyond all bounds, estimate and covariance tend to those of weighted least squares, if the measurement determines the
state. -/
theorem C198_large_prior_partial {L : LinSolver ℝ} (hL : L.Correct) (x : Fin n → ℝ) (P : Matrix (Fin n) (Fin n) ℝ) (z : Fin m → ℝ) (H : Matrix (Fin m) (Fin n) ℝ)
    (R : Matrix (Fin m) (Fin m) ℝ) (hP : IsPosCov P) (hR : IsPosCov R) (hJ : IsUnit (Hᵀ * R⁻¹ * H).det) :
    ∃ (f : ℝ → Fin n → ℝ) (g : ℝ → Matrix (Fin n) (Fin n) ℝ),
      (∀ s > 0, ∀ (xo : Fin n → ℝ) (Po : Matrix (Fin n) (Fin n) ℝ),
        filterUpdate L ⟨n, x⟩ ⟨n, n, s • P⟩ ⟨m, z⟩ ⟨m, n, H⟩ ⟨m, m, R⟩ ⟨n, xo⟩ ⟨n, n, Po⟩ = .ok (true, ⟨n, f s⟩, ⟨n, n, g s⟩))
      ∧ Tendsto f atTop (𝓝 ((Hᵀ * R⁻¹ * H)⁻¹ *ᵥ (Hᵀ *ᵥ (R⁻¹ *ᵥ z)))) ∧ Tendsto g atTop (𝓝 (Hᵀ * R⁻¹ * H)⁻¹) := by
  rw [isPosCov_iff] at hP hR
  set J := Hᵀ * R⁻¹ * H with hJd
  have hPs : ∀ s : ℝ, 0 < s → (s • P).PosSemidef := fun s hs => (hP.smul hs).posSemidef
  have hPu : IsUnit P.det := hP.det_pos.ne'.isUnit
  have hA : ∀ s : ℝ, 0 < s → 1 + (s • P) * info H R = s • (s⁻¹ • 1 + P * J) := fun s hs => by
    rw [info, ← hJd, smul_add, smul_smul, mul_inv_cancel₀ hs.ne', one_smul, Matrix.smul_mul]
  have hu : ∀ s : ℝ, 0 < s → IsUnit (s⁻¹ • (1 : Matrix (Fin n) (Fin n) ℝ) + P * J).det := fun s hs => by
    have := one_add_mul_unit (hPs s hs) (info_psd H hR)
    rw [hA s hs, det_smul] at this
    exact isUnit_of_mul_isUnit_right this
  have hPJ : IsUnit (P * J).det := by rw [det_mul]; exact hPu.mul hJ
  have lim : Tendsto (fun s : ℝ => (s⁻¹ • (1 : Matrix (Fin n) (Fin n) ℝ) + P * J)⁻¹) atTop (𝓝 (P * J)⁻¹) := by
    have : Tendsto (fun s : ℝ => s⁻¹ • (1 : Matrix (Fin n) (Fin n) ℝ) + P * J) atTop (𝓝 (P * J)) := by
      simpa only [zero_add] using (smul_tendsto_mat (1 : Matrix (Fin n) (Fin n) ℝ)).add_const (P * J)
    exact inv_tendsto this hPJ
  have hfin : (P * J)⁻¹ * P = J⁻¹ := by rw [Matrix.mul_inv_rev, Matrix.mul_assoc, nonsing_inv_mul _ hPu, Matrix.mul_one]
  refine ⟨fun s => (s⁻¹ • (1 : Matrix (Fin n) (Fin n) ℝ) + P * J)⁻¹ *ᵥ (s⁻¹ • x + P *ᵥ (Hᵀ *ᵥ (R⁻¹ *ᵥ z))), fun s => (s⁻¹ • (1 : Matrix (Fin n) (Fin n) ℝ) + P * J)⁻¹ * P,
    fun s hs xo Po => ?_, ?_, ?_⟩
  · rw [update_R hL x (hPs s hs) z H hR]
    have c := post_cov (hPs s hs) H hR
    have d := post_mean (hPs s hs) H hR x z
    rw [hA s hs] at c d
    have c' := congrArg (fun w => s⁻¹ • w) c
    have d' := congrArg (fun w => s⁻¹ • w) d
    beta_reduce at c' d'
    rw [Matrix.smul_mul, smul_smul, smul_smul, inv_mul_cancel₀ hs.ne', one_smul, one_smul] at c'
    rw [smul_mulVec, smul_mulVec, smul_smul, smul_add, smul_smul, inv_mul_cancel₀ hs.ne', one_smul, one_smul] at d'
    beta_reduce
    rw [← d', mulVec_mulVec, nonsing_inv_mul _ (hu s hs), one_mulVec]
    congr
    have := congrArg (fun w => (s⁻¹ • (1 : Matrix (Fin n) (Fin n) ℝ) + P * J)⁻¹ * w) c'
    simpa only [← Matrix.mul_assoc, nonsing_inv_mul _ (hu s hs), Matrix.one_mul] using this
  · have h2 : Tendsto (fun s : ℝ => s⁻¹ • x + P *ᵥ (Hᵀ *ᵥ (R⁻¹ *ᵥ z))) atTop (𝓝 (P *ᵥ (Hᵀ *ᵥ (R⁻¹ *ᵥ z)))) := by
      simpa only [zero_add] using (smul_tendsto_vec x).add_const (P *ᵥ (Hᵀ *ᵥ (R⁻¹ *ᵥ z)))
    have hc : Continuous fun q : Matrix (Fin n) (Fin n) ℝ × (Fin n → ℝ) => q.1 *ᵥ q.2 := continuous_fst.matrix_mulVec continuous_snd
    have := (hc.tendsto ((P * J)⁻¹, P *ᵥ (Hᵀ *ᵥ (R⁻¹ *ᵥ z)))).comp (lim.prodMk_nhds h2)
    simp only [mulVec_mulVec _ (P * J)⁻¹ P, hfin] at this
    exact this
  · have hc : Continuous fun q : Matrix (Fin n) (Fin n) ℝ => q * P := continuous_id.matrix_mul continuous_const
    have := (hc.tendsto (P * J)⁻¹).comp lim
    rw [hfin] at this
    exact this

/-- one state, measured directly; an infinite variance -/
example : IsPosCov (1 : Matrix (Fin 1) (Fin 1) ℝ) ∧ IsUnit ((1 : Matrix (Fin 1) (Fin 1) ℝ)ᵀ * (1 : Matrix (Fin 1) (Fin 1) ℝ)⁻¹ * 1).det
    ∧ ¬ ((fun _ _ => XR.pinf : Matrix (Fin 1) (Fin 1) XR) 0 0).Finite :=
  ⟨isPosCov_iff.2 Matrix.PosDef.one, by simp, fun ⟨x, h⟩ => by cases h⟩

end NavFuse.Props
