import Verif.Props.Init

/-! # Property C191: the azimuth update and the documented measurement noise -/

namespace NavFuse.Props.Align
open Matrix NavFuse.Init NavFuse.Spec NavFuse.Kalman

/-- the mean square error of the heading after correcting it by `k` times the innovation, if its mean square error was `p` and the measurement has the standard deviation `σ`,
independent of it -/
def errorAfter (p σ k : ℝ) : ℝ := (1 - k) ^ 2 * p + k ^ 2 * σ ^ 2

/-- no correction does better than this -/
theorem best_correction {p σ : ℝ} (hp : 0 ≤ p) (hs : σ ≠ 0) (k : ℝ) : p * σ ^ 2 / (p + σ ^ 2) ≤ errorAfter p σ k ∧ errorAfter p σ (p / (p + σ ^ 2)) = p * σ ^ 2 / (p + σ ^ 2) := by
  have h : 0 < p + σ ^ 2 := by positivity
  constructor
  · rw [div_le_iff₀ h, errorAfter]
    nlinarith [sq_nonneg (p - k * (p + σ ^ 2))]
  · rw [errorAfter]; field_simp; ring

/-- C191, exactly when it holds: `sigAz` is documented as the noise of the azimuth in radians and `dtAz` as the time between measurements. The reported variance of the heading is
that of the best correction, and the correction is the best one, if and only if the time is the number one, or the heading is known exactly anyway. -/
theorem C191_documented_noise_characterised_partial {L : LinSolver ℝ} (hL : L.Correct) (azMeas dtAz azEst sigAz : ℝ) (x xo : Fin 8 → ℝ) (P Po : Matrix (Fin 8) (Fin 8) ℝ)
    (hP : IsCov P) (hd : 0 < dtAz) (hs : sigAz ≠ 0) :
    ∃ x' P' k, fineAlignmentAzimuthUpdate L azMeas dtAz azEst sigAz ⟨8, x⟩ ⟨8, 8, P⟩ ⟨8, xo⟩ ⟨8, 8, Po⟩ = .ok (true, ⟨8, x'⟩, ⟨8, 8, P'⟩)
      ∧ x' 2 = x 2 + k * (azMeas - azEst - x 2)
      ∧ (P' 2 2 = errorAfter (P 2 2) sigAz k ↔ dtAz = 1 ∨ P 2 2 = 0)
      ∧ ((∀ k', errorAfter (P 2 2) sigAz k ≤ errorAfter (P 2 2) sigAz k') ↔ dtAz = 1 ∨ P 2 2 = 0) := by
  obtain ⟨x', P', e, hx, hP', -⟩ := C61_azimuth hL azMeas dtAz azEst sigAz x P xo Po hP hd hs
  have h22 : 0 ≤ P 2 2 := by simpa [Pi.single_apply] using hP.2 (Pi.single 2 1)
  have s2 : 0 < sigAz ^ 2 := by positivity
  have hr : 0 < sigAz ^ 2 * dtAz := by positivity
  refine ⟨x', P', _, e, hx 2, ?_, ?_⟩
  · rw [hP' 2 2]
    generalize P 2 2 = p at *
    have hS : p + sigAz ^ 2 * dtAz ≠ 0 := by positivity
    have key : errorAfter p sigAz (p / (p + sigAz ^ 2 * dtAz)) - (p - p * p / (p + sigAz ^ 2 * dtAz)) = p ^ 2 * sigAz ^ 2 * (1 - dtAz) / (p + sigAz ^ 2 * dtAz) ^ 2 := by
      rw [errorAfter]; field_simp; ring
    rw [eq_comm, ← sub_eq_zero, key, div_eq_zero_iff, or_iff_left (pow_ne_zero 2 hS), mul_eq_zero, mul_eq_zero, or_iff_left s2.ne', pow_eq_zero_iff two_ne_zero, sub_eq_zero]
    constructor
    · rintro (h | h)
      · exact Or.inr h
      · exact Or.inl h.symm
    · rintro (h | h)
      · exact Or.inr h.symm
      · exact Or.inl h
  · generalize P 2 2 = p at *
    have hS : p + sigAz ^ 2 * dtAz ≠ 0 := by positivity
    have hS1 : p + sigAz ^ 2 ≠ 0 := by positivity
    have key : errorAfter p sigAz (p / (p + sigAz ^ 2 * dtAz)) - p * sigAz ^ 2 / (p + sigAz ^ 2)
        = (p * sigAz ^ 2 * (1 - dtAz)) ^ 2 / ((p + sigAz ^ 2 * dtAz) ^ 2 * (p + sigAz ^ 2)) := by
      rw [errorAfter]; field_simp; ring
    constructor
    · intro h
      have h1 := h (p / (p + sigAz ^ 2))
      rw [(best_correction h22 hs 0).2] at h1
      have h2 := (best_correction h22 hs (p / (p + sigAz ^ 2 * dtAz))).1
      rw [le_antisymm h1 h2, sub_self, eq_comm, div_eq_zero_iff, or_iff_left (mul_ne_zero (pow_ne_zero 2 hS) hS1), pow_eq_zero_iff two_ne_zero, mul_eq_zero, mul_eq_zero, or_iff_left s2.ne',
        sub_eq_zero] at key
      rcases key with h | h
      · exact Or.inr h
      · exact Or.inl h.symm
    · intro h k'
      have : p * sigAz ^ 2 * (1 - dtAz) = 0 := by rcases h with h | h <;> simp [h]
      rw [this, zero_pow two_ne_zero, zero_div, sub_eq_zero] at key
      rw [key]
      exact (best_correction h22 hs k').1

/-- C191 fails: with azimuths more often than once per unit of time the filter is over-confident. For every uncertain heading and all measurements the variance it reports is
smaller than the mean square error of any correction whatsoever with a measurement of the given noise. -/
theorem C191_overconfident_fails {L : LinSolver ℝ} (hL : L.Correct) (azMeas dtAz azEst sigAz : ℝ) (x xo : Fin 8 → ℝ) (P Po : Matrix (Fin 8) (Fin 8) ℝ)
    (hP : IsCov P) (hd : 0 < dtAz) (hd1 : dtAz < 1) (hs : sigAz ≠ 0) (h2 : P 2 2 ≠ 0) :
    ∃ x' P', fineAlignmentAzimuthUpdate L azMeas dtAz azEst sigAz ⟨8, x⟩ ⟨8, 8, P⟩ ⟨8, xo⟩ ⟨8, 8, Po⟩ = .ok (true, ⟨8, x'⟩, ⟨8, 8, P'⟩)
      ∧ ∀ k, P' 2 2 < errorAfter (P 2 2) sigAz k := by
  obtain ⟨x', P', e, -, hP', -⟩ := C61_azimuth hL azMeas dtAz azEst sigAz x P xo Po hP hd hs
  have h22 : 0 ≤ P 2 2 := by simpa [Pi.single_apply] using hP.2 (Pi.single 2 1)
  have hp : 0 < P 2 2 := lt_of_le_of_ne h22 (Ne.symm h2)
  have s2 : 0 < sigAz ^ 2 := by positivity
  have hr : 0 < sigAz ^ 2 * dtAz := by positivity
  refine ⟨x', P', e, fun k => lt_of_lt_of_le ?_ (best_correction h22 hs k).1⟩
  rw [hP' 2 2]
  generalize P 2 2 = p at *
  have : p - p * p / (p + sigAz ^ 2 * dtAz) = p * (sigAz ^ 2 * dtAz) / (p + sigAz ^ 2 * dtAz) := by field_simp; ring
  rw [this, div_lt_div_iff₀ (by positivity) (by positivity)]
  have : 0 < p * p * sigAz ^ 2 * (1 - dtAz) := by have := sub_pos.2 hd1; positivity
  nlinarith

/-- less noise than there is: the variance reported for a state that the measurement touches is below what any gain reaches -/
theorem reported_below {n m : ℕ} {P : Matrix (Fin n) (Fin n) ℝ} (hP : P.PosSemidef) (H : Matrix (Fin m) (Fin n) ℝ) {r r' : ℝ} (hr : 0 < r) (h : r < r')
    (G : Matrix (Fin n) (Fin m) ℝ) (i : Fin n) (hi : (P * Hᵀ) i ≠ 0) :
    KA.joseph P H (r • 1) (KA.gain P H (r • 1)) i i < KA.joseph P H (r' • 1) G i i := by
  have hR : (r • (1 : Matrix (Fin m) (Fin m) ℝ)).PosDef := Matrix.PosDef.one.smul hr
  have hS := KA.innov_pd hP H hR
  have hm := (KA.innov_pd hP H hR).posSemidef
  have e1 : KA.joseph P H (r' • 1) G i i = KA.joseph P H (r • 1) G i i + (r' - r) * (G i ⬝ᵥ G i) := by
    have : (G * Gᵀ) i i = G i ⬝ᵥ G i := rfl
    simp only [KA.joseph, Matrix.mul_smul, Matrix.mul_one, Matrix.smul_mul, Matrix.add_apply, Matrix.smul_apply, smul_eq_mul, this]
    ring
  have q : ∀ A : Matrix (Fin n) (Fin m) ℝ, (A * KA.innov P H (r • 1) * Aᵀ) i i = A i ⬝ᵥ (KA.innov P H (r • 1) *ᵥ A i) := fun A => by
    rw [Matrix.mul_assoc]; rfl
  have qn : ∀ v : Fin m → ℝ, 0 ≤ v ⬝ᵥ (KA.innov P H (r • 1) *ᵥ v) := fun v => by simpa using hm.dotProduct_mulVec_nonneg v
  have qp : ∀ v : Fin m → ℝ, v ≠ 0 → 0 < v ⬝ᵥ (KA.innov P H (r • 1) *ᵥ v) := fun v hv => by simpa using hS.dotProduct_mulVec_pos hv
  have g1 := KA.joseph_gap (KA.psd_tr hP) (KA.psd_tr hm) (KA.pd_det hS) G
  have g2 := KA.joseph_opt (KA.psd_tr hP) (KA.psd_tr hm) (KA.pd_det hS)
  by_cases hG : G i = 0
  · have hK : KA.gain P H (r • 1) i ≠ 0 := fun hk => hi (by
      rw [← KA.gain_mul_innov (KA.pd_det hS)]
      funext j
      rw [Matrix.mul_apply_eq_vecMul, hk, Matrix.zero_vecMul])
    have e2 : KA.joseph P H (r • 1) G i i = P i i := by
      rw [KA.joseph_expand (KA.psd_tr hP)]
      have z1 : ∀ A : Matrix (Fin m) (Fin n) ℝ, (G * A) i i = 0 := fun A => by rw [Matrix.mul_apply_eq_vecMul, hG, Matrix.zero_vecMul]; rfl
      have z2 : (P * Hᵀ * Gᵀ) i i = 0 := by
        rw [Matrix.mul_apply]; exact Finset.sum_eq_zero fun k _ => by rw [Matrix.transpose_apply, congrFun hG k]; simp
      rw [Matrix.add_apply, Matrix.sub_apply, Matrix.sub_apply, Matrix.mul_assoc G, z1, z1, z2]; ring
    rw [e1, e2, g2, Matrix.sub_apply, q, hG]
    have := qp _ hK
    simp only [dotProduct_zero, mul_zero]; linarith
  · have : 0 < G i ⬝ᵥ G i := lt_of_le_of_ne (Finset.sum_nonneg fun k _ => mul_self_nonneg _) (Ne.symm fun h0 => hG (dotProduct_self_eq_zero.1 h0))
    rw [e1, g1, g2, Matrix.add_apply, q]
    have := qn ((G - KA.gain P H (r • 1)) i)
    have := mul_pos (sub_pos.2 h) ‹0 < G i ⬝ᵥ G i›
    linarith

/-- C191 fails for velocities in the same way: with velocities more often than once per unit of time, for every state correlated with a level velocity error (the velocity errors
themselves, the tilts), the reported variance is below the mean square error after any linear correction. -/
theorem C191_velocity_overconfident_fails {L : LinSolver ℝ} (hL : L.Correct) (v : Fin 2 → ℝ) (dtVel sigVel : ℝ) (x xo : Fin 8 → ℝ) (P Po : Matrix (Fin 8) (Fin 8) ℝ)
    (hP : IsCov P) (hd : 0 < dtVel) (hd1 : dtVel < 1) (hs : sigVel ≠ 0) :
    ∃ x' P', fineAlignmentVelocityUpdate L v dtVel sigVel ⟨8, x⟩ ⟨8, 8, P⟩ ⟨8, xo⟩ ⟨8, 8, Po⟩ = .ok (true, ⟨8, x'⟩, ⟨8, 8, P'⟩)
      ∧ ∀ i, (P i 6 ≠ 0 ∨ P i 7 ≠ 0) → ∀ G : Matrix (Fin 8) (Fin 2) ℝ, P' i i < ((1 - G * hVel) * P * (1 - G * hVel)ᵀ + sigVel ^ 2 • (G * Gᵀ) : Matrix (Fin 8) (Fin 8) ℝ) i i := by
  have s2 : 0 < sigVel ^ 2 := by positivity
  have hr : 0 < sigVel ^ 2 * dtVel := by positivity
  have hlt : sigVel ^ 2 * dtVel < sigVel ^ 2 := by nlinarith
  have hR : (diagonal ![sigVel * sigVel * dtVel, sigVel * sigVel * dtVel] : Matrix (Fin 2) (Fin 2) ℝ) = (sigVel ^ 2 * dtVel) • 1 := by
    rw [← sq]; ext i j; fin_cases i <;> fin_cases j <;> simp
  have hP' := isCov_iff.1 hP
  have e := velocity_eq L v dtVel sigVel x P xo Po
  rw [hR, update_R hL x hP' v hVel (R := (sigVel ^ 2 * dtVel) • 1) (Matrix.PosDef.one.smul hr) xo Po] at e
  refine ⟨_, _, e, fun i hi G => ?_⟩
  have := reported_below hP' hVel hr hlt G i (fun h0 => by
    rcases hi with h | h
    · have := congrFun h0 0; simp [mul_apply, hVel, Fin.sum_univ_eight] at this; exact h this
    · have := congrFun h0 1; simp [mul_apply, hVel, Fin.sum_univ_eight] at this; exact h this)
  simpa only [KA.joseph, Matrix.mul_smul, Matrix.mul_one, Matrix.smul_mul] using this

/-- ten azimuths a second, to a milliradian, as in the tests of the repository -/
example : IsCov (1 : Matrix (Fin 8) (Fin 8) ℝ) ∧ (0 : ℝ) < 0.1 ∧ (0.1 : ℝ) < 1 ∧ (0.001 : ℝ) ≠ 0 ∧ (1 : Matrix (Fin 8) (Fin 8) ℝ) 2 2 ≠ 0 :=
  ⟨isCov_iff.2 Matrix.PosSemidef.one, by norm_num, by norm_num, by norm_num, by simp⟩

example : IsCov (1 : Matrix (Fin 8) (Fin 8) ℝ) ∧ (1 : Matrix (Fin 8) (Fin 8) ℝ) 6 6 ≠ 0 := ⟨isCov_iff.2 Matrix.PosSemidef.one, by simp⟩

end NavFuse.Props.Align
