import Verif.Props.InitSens

/-! # Property C196: coarse alignment, units and scale factors -/

namespace NavFuse.Props.Align
open Matrix NavFuse.Init NavFuse.XR NavFuse.Spec NavFuse.Props

theorem finM_injective {A B : M3 ℝ} (h : finM A = finM B) : A = B := by
  ext i j
  exact fin.inj (congrFun (congrFun h i) j)

/-- C196: only the ratios to gravity and Earth rate matter. Readings in other units, with gravity and Earth rate in the same units, give the same result, for arbitrary readings.
So velocity and angle increments over an interval `dt` can be used with `g dt` and `wE dt`. -/
theorem C196_units (lat wE g : ℝ) (a w : V3 ℝ) (hg : g ≠ 0) (hw : wE ≠ 0) (hc : Real.cos lat ≠ 0) {k l : ℝ} (hk : k ≠ 0) (hl : l ≠ 0) :
    coarseAttitudeAlignment (fin lat) (fin (k * wE)) (fin (l * g)) (finV (l • a)) (finV (k • w))
      = coarseAttitudeAlignment (fin lat) (fin wE) (fin g) (finV a) (finV w) := by
  rw [coarse_X lat _ _ _ _ (mul_ne_zero hl hg) (mul_ne_zero hk hw) hc, coarse_X lat wE g a w hg hw hc]
  obtain ⟨p0, p1, p2⟩ := coarse_rows lat wE g a w hg hw hc
  obtain ⟨q0, q1, q2⟩ := coarse_rows lat (k * wE) (l * g) (l • a) (k • w) (mul_ne_zero hl hg) (mul_ne_zero hk hw) hc
  congr 2
  funext i
  fin_cases i
  · change ((rA lat (k * wE) (l * g))⁻¹ * rB (l • a) (k • w)) 0 = ((rA lat wE g)⁻¹ * rB a w) 0
    rw [p0, q0]; ext j; simp; field_simp
  · change ((rA lat (k * wE) (l * g))⁻¹ * rB (l • a) (k • w)) 1 = ((rA lat wE g)⁻¹ * rB a w) 1
    rw [p1, q1]; ext j; fin_cases j <;> simp [cr] <;> field_simp
  · change ((rA lat (k * wE) (l * g))⁻¹ * rB (l • a) (k • w)) 2 = ((rA lat wE g)⁻¹ * rB a w) 2
    rw [p2, q2]; ext j; simp; field_simp

/-- C196: scale factors `l` of the accelerometers and `k` of the gyroscopes that are not accounted for. At rest the result is a rotation exactly if both have absolute value one, and the
same sign away from the equator; it is the attitude exactly if both are one. The return value is `true` in all cases. -/
theorem C196_scale_factors (R : M3 ℝ) (hR : IsRot R) (lat wE g : ℝ) (hg : g ≠ 0) (hw : wE ≠ 0) (hc : Real.cos lat ≠ 0) (k l : ℝ) :
    ∃ X : M3 ℝ, coarseAttitudeAlignment (fin lat) (fin wE) (fin g) (finV (l • (Rᵀ *ᵥ restForce g))) (finV (k • (Rᵀ *ᵥ earthRate lat wE))) = (true, finM X)
      ∧ (IsRot X ↔ l ^ 2 = 1 ∧ k ^ 2 = 1 ∧ (l = k ∨ Real.sin lat = 0)) ∧ (X = R ↔ l = 1 ∧ k = 1) := by
  obtain ⟨X, e, h⟩ := C94_rotation_iff_consistent lat wE g (l • (Rᵀ *ᵥ restForce g)) (k • (Rᵀ *ᵥ earthRate lat wE)) hg hw hc
  have iso : ∀ u v : V3 ℝ, (Rᵀ *ᵥ u) ⬝ᵥ (Rᵀ *ᵥ v) = u ⬝ᵥ v := fun u v => by
    rw [dotProduct_mulVec, vecMul_transpose, mulVec_mulVec, hR.1, one_mulVec]
  have sc := Real.sin_sq_add_cos_sq lat
  have aa : restForce g ⬝ᵥ restForce g = g ^ 2 := by simp [restForce, dotProduct, Fin.sum_univ_three]; ring
  have ww : earthRate lat wE ⬝ᵥ earthRate lat wE = wE ^ 2 := by
    simp [earthRate, dotProduct, Fin.sum_univ_three]; linear_combination wE ^ 2 * sc
  have aw : restForce g ⬝ᵥ earthRate lat wE = g * wE * Real.sin lat := by simp [restForce, earthRate, dotProduct, Fin.sum_univ_three]; ring
  simp only [smul_dotProduct, dotProduct_smul, iso, aa, ww, aw, smul_eq_mul] at h
  have g2 : g ^ 2 ≠ 0 := pow_ne_zero 2 hg
  have w2 : wE ^ 2 ≠ 0 := pow_ne_zero 2 hw
  refine ⟨X, e, h.trans ⟨fun ⟨h1, h2, h3⟩ => ?_, fun ⟨h1, h2, h3⟩ => ⟨?_, ?_, ?_⟩⟩, fun hX => ?_, fun ⟨h1, h2⟩ => ?_⟩
  · have l2 : l ^ 2 = 1 := mul_right_cancel₀ g2 (by linarith)
    have k2 : k ^ 2 = 1 := mul_right_cancel₀ w2 (by linarith)
    refine ⟨l2, k2, ?_⟩
    by_cases hs : Real.sin lat = 0
    · exact .inr hs
    · left
      have : l * k = 1 := mul_right_cancel₀ (mul_ne_zero (mul_ne_zero hg hw) hs) (by linarith)
      calc l = l * k ^ 2 := by rw [k2, mul_one]
        _ = (l * k) * k := by ring
        _ = k := by rw [this, one_mul]
  · linear_combination g ^ 2 * h1
  · linear_combination wE ^ 2 * h2
  · rcases h3 with h3 | h3
    · rw [h3]; linear_combination g * wE * Real.sin lat * h2
    · rw [h3]; ring
  · rw [coarse_X lat wE g _ _ hg hw hc] at e
    have eX := finM_injective (Prod.ext_iff.1 e).2
    obtain ⟨p0, -, p2⟩ := coarse_rows lat wE g (l • (Rᵀ *ᵥ restForce g)) (k • (Rᵀ *ᵥ earthRate lat wE)) hg hw hc
    rw [eX, hX] at p0 p2
    have r2 : Rᵀ *ᵥ restForce g = (-g) • R 2 := by
      ext j; simp [restForce, mulVec, dotProduct, Fin.sum_univ_three]; ring
    have r0 : Rᵀ *ᵥ earthRate lat wE = (wE * Real.cos lat) • R 0 - (wE * Real.sin lat) • R 2 := by
      ext j; simp [earthRate, mulVec, dotProduct, Fin.sum_univ_three]; ring
    have o : ∀ i j, R i ⬝ᵥ R j = (1 : M3 ℝ) i j := fun i j => by rw [← hR.1]; rfl
    have o22 := o 2 2
    have o00 := o 0 0
    have o20 := o 0 2
    simp only [one_apply_eq, ne_eq, Fin.reduceEq, not_false_eq_true, one_apply_ne] at o22 o00 o20
    have d2 := congrArg (fun v => v ⬝ᵥ R 2) p2
    simp only [r2, smul_dotProduct, o22, smul_eq_mul] at d2
    have d0 := congrArg (fun v => v ⬝ᵥ R 0) p0
    have o02 : R 2 ⬝ᵥ R 0 = 0 := by rw [dotProduct_comm]; exact o20
    simp only [r2, r0, smul_dotProduct, add_dotProduct, sub_dotProduct, o00, o02, smul_eq_mul] at d0
    field_simp at d2 d0
    exact ⟨by linarith, mul_right_cancel₀ hc (by linarith)⟩
  · subst h1 h2
    rw [one_smul, one_smul, C57_coarse_alignment R hR lat wE g hg hw hc] at e
    exact (finM_injective (Prod.ext_iff.1 e).2).symm

/-- gyroscopes that read half a percent too much -/
example : ¬ ((1 : ℝ) ^ 2 = 1 ∧ (1.005 : ℝ) ^ 2 = 1 ∧ ((1 : ℝ) = 1.005 ∨ Real.sin 1 = 0)) := by norm_num

example : IsRot (bodyToNed 0.1 0.2 0.3) ∧ (9.8 : ℝ) ≠ 0 ∧ (7.292115e-5 : ℝ) ≠ 0 ∧ Real.cos 1 ≠ 0 :=
  ⟨((isRot_rotZ _).mul (isRot_rotY _)).mul (isRot_rotX _), by norm_num, by norm_num, Real.cos_one_pos.ne'⟩

end NavFuse.Props.Align
