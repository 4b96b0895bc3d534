import Verif.Props.InitSens

/-! # Property C186: coarse alignment and the mounting of the sensors -/

namespace NavFuse.Props.Align
open Matrix NavFuse.Init NavFuse.XR NavFuse.Spec NavFuse.Props

/-- half a turn about the east axis -/
def halfTurnEast : M3 ℝ := !![-1, 0, 0; 0, 1, 0; 0, 0, -1]

theorem halfTurnEast_isRot : IsRot halfTurnEast := by
  constructor
  · ext i j; fin_cases i <;> fin_cases j <;> simp [halfTurnEast, mul_apply, Fin.sum_univ_three]
  · rw [det_fin_three]; simp [halfTurnEast]

/-- C186: turning the sensors in the vehicle by a rotation `B` multiplies the aligned attitude by `B` on the right, whatever the two readings are (noisy or inconsistent ones
included). -/
theorem C186_mounting (B : M3 ℝ) (hB : IsRot B) (lat wE g : ℝ) (a w : V3 ℝ) (hg : g ≠ 0) (hw : wE ≠ 0) (hc : Real.cos lat ≠ 0) :
    ∃ X : M3 ℝ, coarseAttitudeAlignment (fin lat) (fin wE) (fin g) (finV a) (finV w) = (true, finM X)
      ∧ coarseAttitudeAlignment (fin lat) (fin wE) (fin g) (finV (Bᵀ *ᵥ a)) (finV (Bᵀ *ᵥ w)) = (true, finM (X * B)) :=
  ⟨_, coarse_X lat wE g a w hg hw hc, by rw [coarse_X lat wE g _ _ hg hw hc, rB_rot hB, Matrix.mul_assoc]⟩

example : IsRot (bodyToNed 0.1 0.2 0.3) ∧ (9.8 : ℝ) ≠ 0 ∧ (7.292115e-5 : ℝ) ≠ 0 ∧ Real.cos 1 ≠ 0 :=
  ⟨((isRot_rotZ _).mul (isRot_rotY _)).mul (isRot_rotX _), by norm_num, by norm_num, Real.cos_one_pos.ne'⟩

/-- C186: sensors that all count in the reversed direction are not noticed. The attitude that comes out is the right one turned by half a turn about the east axis: it is a
rotation exactly when the right one is, it is never the right one, and the return value is `true` both times. -/
theorem C186_reversed_sensors_unnoticed (lat wE g : ℝ) (a w : V3 ℝ) (hg : g ≠ 0) (hw : wE ≠ 0) (hc : Real.cos lat ≠ 0) :
    ∃ X : M3 ℝ, coarseAttitudeAlignment (fin lat) (fin wE) (fin g) (finV a) (finV w) = (true, finM X)
      ∧ coarseAttitudeAlignment (fin lat) (fin wE) (fin g) (finV (-a)) (finV (-w)) = (true, finM (halfTurnEast * X))
      ∧ (IsRot (halfTurnEast * X) ↔ IsRot X)
      ∧ (IsRot X → halfTurnEast * X ≠ X) := by
  have hh : halfTurnEast * halfTurnEast = 1 := by
    ext i j; fin_cases i <;> fin_cases j <;> simp [halfTurnEast, mul_apply, Fin.sum_univ_three]
  refine ⟨_, coarse_X lat wE g a w hg hw hc, ?_, ⟨fun h => ?_, fun h => halfTurnEast_isRot.mul h⟩, fun h e => ?_⟩
  · rw [coarse_X lat wE g _ _ hg hw hc]
    obtain ⟨p0, p1, p2⟩ := coarse_rows lat wE g a w hg hw hc
    obtain ⟨q0, q1, q2⟩ := coarse_rows lat wE g (-a) (-w) hg hw hc
    have hr (i : Fin 3) (M : M3 ℝ) : (halfTurnEast * M) i = (halfTurnEast i i) • M i := by
      ext j; fin_cases i <;> simp [halfTurnEast, mul_apply, Fin.sum_univ_three]
    congr 2
    funext i
    rw [hr]
    fin_cases i
    · change ((rA lat wE g)⁻¹ * rB (-a) (-w)) 0 = halfTurnEast 0 0 • ((rA lat wE g)⁻¹ * rB a w) 0
      rw [p0, q0]; ext j; simp [halfTurnEast]; ring
    · change ((rA lat wE g)⁻¹ * rB (-a) (-w)) 1 = halfTurnEast 1 1 • ((rA lat wE g)⁻¹ * rB a w) 1
      rw [p1, q1]; ext j; fin_cases j <;> simp [halfTurnEast, cr]
    · change ((rA lat wE g)⁻¹ * rB (-a) (-w)) 2 = halfTurnEast 2 2 • ((rA lat wE g)⁻¹ * rB a w) 2
      rw [p2, q2]; ext j; simp [halfTurnEast]
  · have := halfTurnEast_isRot.mul h
    rwa [← Matrix.mul_assoc, hh, Matrix.one_mul] at this
  · have h1 : halfTurnEast = 1 := by
      generalize (rA lat wE g)⁻¹ * rB a w = X at e h
      have := congrArg (· * Xᵀ) e
      simpa only [Matrix.mul_assoc, h.1, Matrix.mul_one] using this
    have := congrFun (congrFun h1 0) 0
    norm_num [halfTurnEast] at this

/-- the ideal readings of C57 are such readings, with a rotation as the result -/
example : ∃ X : M3 ℝ, coarseAttitudeAlignment (fin 1) (fin 7.292115e-5) (fin 9.8) (finV ((bodyToNed 0.1 0.2 0.3)ᵀ *ᵥ restForce 9.8))
    (finV ((bodyToNed 0.1 0.2 0.3)ᵀ *ᵥ earthRate 1 7.292115e-5)) = (true, finM X) ∧ IsRot X :=
  have h : IsRot (bodyToNed 0.1 0.2 0.3) := ((isRot_rotZ _).mul (isRot_rotY _)).mul (isRot_rotX _)
  ⟨_, C57_coarse_alignment _ h 1 _ _ (by norm_num) (by norm_num) Real.cos_one_pos.ne', h⟩

end NavFuse.Props.Align
