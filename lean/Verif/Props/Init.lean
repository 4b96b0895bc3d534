import Verif.Model.Init
import Verif.Props.Kalman
import Verif.Lemmas.Rot
import Verif.XR
import Mathlib.Tactic.LinearCombination
import Mathlib.Tactic.FieldSimp

/-! # Properties C57–C61, C94, C95: coarse and fine alignment -/

set_option linter.unusedSectionVars false
set_option linter.unnecessarySeqFocus false

namespace NavFuse.Props.Align
open Matrix NavFuse.KA NavFuse.Init NavFuse.XR NavFuse.Spec NavFuse.Kalman

/-! ## Coarse alignment -/

/-- the reaction to gravity that a resting accelerometer measures, in north-east-down axes -/
def restForce (g : ℝ) : V3 ℝ := ![0, 0, -g]
/-- the Earth's rotation in north-east-down axes -/
noncomputable def earthRate (lat wE : ℝ) : V3 ℝ := ![wE * Real.cos lat, 0, -(wE * Real.sin lat)]

/-- the left inverse of the matrix `A` of the code -/
noncomputable def invA (lat wE g : ℝ) : M3 ℝ :=
  !![-(Real.sin lat / (g * Real.cos lat)), (wE * Real.cos lat)⁻¹, 0; 0, 0, (g * wE * Real.cos lat)⁻¹; -g⁻¹, 0, 0]

theorem alignA_X (lat wE g : ℝ) : alignA (fin lat) (fin wE) (fin g)
    = finM !![0, 0, -g; wE * Real.cos lat, 0, -wE * Real.sin lat; 0, g * wE * Real.cos lat, 0] := by
  ext i j; fin_cases i <;> fin_cases j <;> simp [alignA, xsimp]

theorem inv3_X (A : M3 ℝ) (h : A.det ≠ 0) : inv3 (finM A) = finM A⁻¹ := by
  have hd : (∑ i, (A (i + 1) (0 + 1) * A (i + 2) (0 + 2) - A (i + 1) (0 + 2) * A (i + 2) (0 + 1)) * A i 0) = A.det := by
    rw [Fin.sum_univ_three, det_fin_three]
    simp only [Fin.isValue, Fin.reduceAdd, zero_add]
    ring
  ext i j
  have e : inv3 (finM A) i j = fin ((A (j + 1) (i + 1) * A (j + 2) (i + 2) - A (j + 1) (i + 2) * A (j + 2) (i + 1)) * (1 / A.det)) := by
    simp only [inv3, cofactor3, xsimp, Matrix.of_apply]
    rw [hd, fin_div _ _ h]
    simp only [xsimp]
  rw [e, finM_apply, fin_inj, inv_def, Ring.inverse_eq_inv', Matrix.smul_apply, smul_eq_mul, one_div, mul_comm]
  congr 1
  fin_cases i <;> fin_cases j <;> simp [adjugate_fin_three] <;> ring

theorem det_A (lat wE g : ℝ) : (!![0, 0, -g; wE * Real.cos lat, 0, -wE * Real.sin lat; 0, g * wE * Real.cos lat, 0] : M3 ℝ).det
    = -(g * wE * Real.cos lat) ^ 2 := by
  rw [det_fin_three]; simp; ring

theorem alignB_X (a w : V3 ℝ) : alignB (finV a) (finV w)
    = finM !![a 0, a 1, a 2; w 0, w 1, w 2; -(a 1 * w 2 - a 2 * w 1), -(a 2 * w 0 - a 0 * w 2), -(a 0 * w 1 - a 1 * w 0)] := by
  ext i j; fin_cases i <;> fin_cases j <;> simp [alignB, vcross, xsimp]

/-- the two matrices of the code over the reals -/
noncomputable def rA (lat wE g : ℝ) : M3 ℝ := !![0, 0, -g; wE * Real.cos lat, 0, -wE * Real.sin lat; 0, g * wE * Real.cos lat, 0]
def rB (a w : V3 ℝ) : M3 ℝ :=
  !![a 0, a 1, a 2; w 0, w 1, w 2; -(a 1 * w 2 - a 2 * w 1), -(a 2 * w 0 - a 0 * w 2), -(a 0 * w 1 - a 1 * w 0)]

theorem coarse_X (lat wE g : ℝ) (a w : V3 ℝ) (hg : g ≠ 0) (hw : wE ≠ 0) (hc : Real.cos lat ≠ 0) :
    coarseAttitudeAlignment (fin lat) (fin wE) (fin g) (finV a) (finV w) = (true, finM ((rA lat wE g)⁻¹ * rB a w)) := by
  have h : (rA lat wE g).det ≠ 0 := by
    rw [rA, det_A, neg_ne_zero]; exact pow_ne_zero 2 (mul_ne_zero (mul_ne_zero hg hw) hc)
  rw [coarseAttitudeAlignment, alignA_X, alignB_X, ← rA, ← rB, inv3_X _ h, X_mmul]

theorem det_rA {lat wE g : ℝ} (hg : g ≠ 0) (hw : wE ≠ 0) (hc : Real.cos lat ≠ 0) : IsUnit (rA lat wE g).det := by
  rw [rA, det_A, isUnit_iff_ne_zero, neg_ne_zero]; exact pow_ne_zero 2 (mul_ne_zero (mul_ne_zero hg hw) hc)

theorem rA_rows (lat wE g : ℝ) : rA lat wE g = rB (restForce g) (earthRate lat wE) := by
  ext i j; fin_cases i <;> fin_cases j <;> simp [rA, rB, restForce, earthRate] <;> ring

/-- rotating both readings multiplies the triad matrix -/
theorem rB_rot {R : M3 ℝ} (hR : IsRot R) (a w : V3 ℝ) : rB (Rᵀ *ᵥ a) (Rᵀ *ᵥ w) = rB a w * R := by
  obtain ⟨h00, h01, h02, h10, h11, h12, h20, h21, h22⟩ := hR.cof
  ext i j
  fin_cases i <;> fin_cases j <;> simp [rB, mul_apply, mulVec, dotProduct, Fin.sum_univ_three]
  · ring
  · ring
  · ring
  · ring
  · ring
  · ring
  · rw [h00, h10, h20]; ring
  · rw [h01, h11, h21]; ring
  · rw [h02, h12, h22]; ring

/-- C57: from the ideal readings of a resting vehicle (the reaction to gravity and the Earth's rotation, seen in body axes) coarse alignment returns exactly the body-to-NED
rotation, at every latitude except the poles. -/
theorem C57_coarse_alignment (R : M3 ℝ) (hR : IsRot R) (lat wE g : ℝ) (hg : g ≠ 0) (hw : wE ≠ 0) (hc : Real.cos lat ≠ 0) :
    coarseAttitudeAlignment (fin lat) (fin wE) (fin g) (finV (Rᵀ *ᵥ restForce g)) (finV (Rᵀ *ᵥ earthRate lat wE)) = (true, finM R) := by
  rw [coarse_X lat wE g _ _ hg hw hc, rB_rot hR, ← rA_rows, ← Matrix.mul_assoc, nonsing_inv_mul _ (det_rA hg hw hc), Matrix.one_mul]

example : IsRot (bodyToNed 0.1 0.2 0.3) ∧ (9.8 : ℝ) ≠ 0 ∧ (7.292115e-5 : ℝ) ≠ 0 ∧ Real.cos 1 ≠ 0 :=
  ⟨((isRot_rotZ _).mul (isRot_rotY _)).mul (isRot_rotX _), by norm_num, by norm_num, Real.cos_one_pos.ne'⟩

/-! ## C58 -/

theorem nf_mul_left {a : XR} (h : ¬ a.Finite) (b : XR) : ¬ (a * b).Finite := by
  rintro ⟨x, hx⟩
  rcases a with _ | _ | _ | a
  · rw [nan_mul] at hx; cases hx
  · rcases b with _ | _ | _ | b
    · rw [mul_nan] at hx; cases hx
    · cases hx
    · cases hx
    · change infSign b = _ at hx; unfold infSign at hx; split_ifs at hx
  · rcases b with _ | _ | _ | b
    · rw [mul_nan] at hx; cases hx
    · cases hx
    · cases hx
    · change infSign (-b) = _ at hx; unfold infSign at hx; split_ifs at hx
  · exact h ⟨a, rfl⟩

theorem nf_mul_right {b : XR} (h : ¬ b.Finite) (a : XR) : ¬ (a * b).Finite := by
  rintro ⟨x, hx⟩
  rcases b with _ | _ | _ | b
  · rw [mul_nan] at hx; cases hx
  · rcases a with _ | _ | _ | a
    · rw [nan_mul] at hx; cases hx
    · cases hx
    · cases hx
    · change infSign a = _ at hx; unfold infSign at hx; split_ifs at hx
  · rcases a with _ | _ | _ | a
    · rw [nan_mul] at hx; cases hx
    · cases hx
    · cases hx
    · change infSign (-a) = _ at hx; unfold infSign at hx; split_ifs at hx
  · exact h ⟨b, rfl⟩

theorem nf_add_right {b : XR} (h : ¬ b.Finite) (a : XR) : ¬ (a + b).Finite := by
  rintro ⟨x, hx⟩
  rcases a with _ | _ | _ | a <;> rcases b with _ | _ | _ | b <;> first | exact h ⟨_, rfl⟩ | cases hx

theorem fsum3 (f : Fin 3 → XR) : fsum f = f 0 + f 1 + f 2 := rfl

/-- C58: where the two reference directions are parallel or vanish (at the poles, without gravity, without rotation) every entry of the returned matrix is infinite or not a number,
whatever the readings, and the function still reports success. -/
theorem C58_degenerate (lat wE g : ℝ) (a w : V3 XR) (h : Real.cos lat = 0 ∨ g = 0 ∨ wE = 0) :
    (coarseAttitudeAlignment (fin lat) (fin wE) (fin g) a w).1 = true
    ∧ ∀ i j, ¬ ((coarseAttitudeAlignment (fin lat) (fin wE) (fin g) a w).2 i j).Finite := by
  refine ⟨rfl, fun i j => ?_⟩
  have hz : g * wE * Real.cos lat = 0 := by rcases h with h | h | h <;> simp [h]
  have hinv : ∀ i j, ¬ (inv3 (alignA (fin lat) (fin wE) (fin g)) i j).Finite := by
    intro i j
    have hd : (fsum fun i => cofactor3 (alignA (fin lat) (fin wE) (fin g)) i 0 * alignA (fin lat) (fin wE) (fin g) i 0) = fin 0 := by
      rw [alignA_X]
      simp only [cofactor3, xsimp, Fin.sum_univ_three]
      simp
      rcases mul_eq_zero.1 hz with hz | hz
      · rcases mul_eq_zero.1 hz with hz | hz <;> simp [hz]
      · simp [hz]
    simp only [inv3, hd, of_apply]
    exact nf_mul_right (div_zero_not_finite _) _
  simp only [coarseAttitudeAlignment, mmul, of_apply, fsum3]
  exact nf_add_right (nf_mul_left (hinv i 2) _) _

/-- the north pole -/
example : Real.cos (Real.pi / 2) = 0 := Real.cos_pi_div_two

/-! ## C94 -/

/-- C94: for arbitrary finite readings the result is a rotation matrix exactly when the readings could come from a resting vehicle at that latitude: the specific force has the
length of gravity, the rate has the length of the Earth's rotation, and they form the right angle. Otherwise a matrix that is no rotation is returned with success. -/
theorem C94_rotation_iff_consistent (lat wE g : ℝ) (a w : V3 ℝ) (hg : g ≠ 0) (hw : wE ≠ 0) (hc : Real.cos lat ≠ 0) :
    ∃ R : M3 ℝ, coarseAttitudeAlignment (fin lat) (fin wE) (fin g) (finV a) (finV w) = (true, finM R)
      ∧ (IsRot R ↔ a ⬝ᵥ a = g ^ 2 ∧ w ⬝ᵥ w = wE ^ 2 ∧ a ⬝ᵥ w = g * wE * Real.sin lat) := by
  refine ⟨_, coarse_X lat wE g a w hg hw hc, ?_⟩
  have hA := det_rA hg hw hc
  have hAA : rA lat wE g * (rA lat wE g)ᵀ = !![g ^ 2, g * wE * Real.sin lat, 0; g * wE * Real.sin lat, wE ^ 2, 0; 0, 0, (g * wE * Real.cos lat) ^ 2] := by
    have := Real.sin_sq_add_cos_sq lat
    ext i j
    fin_cases i <;> fin_cases j <;> simp [rA, mul_apply, Fin.sum_univ_three] <;> first | ring1 | linear_combination wE ^ 2 * this
  have hBB : rB a w * (rB a w)ᵀ = !![a ⬝ᵥ a, a ⬝ᵥ w, 0; a ⬝ᵥ w, w ⬝ᵥ w, 0; 0, 0, (a ⬝ᵥ a) * (w ⬝ᵥ w) - (a ⬝ᵥ w) ^ 2] := by
    ext i j
    fin_cases i <;> fin_cases j <;> simp [rB, mul_apply, Fin.sum_univ_three, dotProduct] <;> ring
  have hdB : (rB a w).det = -((a ⬝ᵥ a) * (w ⬝ᵥ w) - (a ⬝ᵥ w) ^ 2) := by
    rw [det_fin_three]; simp [rB, dotProduct, Fin.sum_univ_three]; ring
  set A := rA lat wE g with hAdef
  set B := rB a w
  have hRR : (A⁻¹ * B) * (A⁻¹ * B)ᵀ = 1 ↔ B * Bᵀ = A * Aᵀ := by
    have hAt : IsUnit Aᵀ.det := by rwa [det_transpose]
    constructor
    · intro h
      calc B * Bᵀ = A * ((A⁻¹ * B) * (A⁻¹ * B)ᵀ) * Aᵀ := by
            rw [transpose_mul, transpose_nonsing_inv]
            simp only [← Matrix.mul_assoc]
            rw [mul_nonsing_inv _ hA, Matrix.one_mul, nonsing_inv_mul_cancel_right _ _ hAt]
        _ = A * Aᵀ := by rw [h, Matrix.mul_one]
    · intro h
      calc (A⁻¹ * B) * (A⁻¹ * B)ᵀ = A⁻¹ * (B * Bᵀ) * (Aᵀ)⁻¹ := by
            rw [transpose_mul, transpose_nonsing_inv]; simp only [Matrix.mul_assoc]
        _ = 1 := by rw [h, ← Matrix.mul_assoc, nonsing_inv_mul _ hA, Matrix.one_mul, mul_nonsing_inv _ hAt]
  constructor
  · rintro ⟨h1, -⟩
    have h2 := hRR.1 h1
    rw [hAA, hBB] at h2
    have e1 := congrFun (congrFun h2 0) 0
    have e2 := congrFun (congrFun h2 1) 1
    have e3 := congrFun (congrFun h2 0) 1
    simp at e1 e2 e3
    exact ⟨e1, e2, e3⟩
  · rintro ⟨e1, e2, e3⟩
    have hs := Real.sin_sq_add_cos_sq lat
    have hgap : (a ⬝ᵥ a) * (w ⬝ᵥ w) - (a ⬝ᵥ w) ^ 2 = (g * wE * Real.cos lat) ^ 2 := by
      rw [e1, e2, e3]; linear_combination g ^ 2 * wE ^ 2 * (-hs)
    refine ⟨hRR.2 ?_, ?_⟩
    · rw [hAA, hBB, hgap, e1, e2, e3]
    · rw [det_mul, det_nonsing_inv, hdB, hgap, hAdef, rA, det_A, Ring.inverse_eq_inv']
      exact inv_mul_cancel₀ (neg_ne_zero.2 (pow_ne_zero 2 (mul_ne_zero (mul_ne_zero hg hw) hc)))

/-- readings that satisfy, and readings that violate, the condition -/
example : (restForce 9.8 ⬝ᵥ restForce 9.8 = (9.8 : ℝ) ^ 2) ∧ ¬ ((1.1 : ℝ) • restForce 9.8 ⬝ᵥ (1.1 : ℝ) • restForce 9.8 = (9.8 : ℝ) ^ 2) := by
  constructor <;> simp [restForce, dotProduct, Fin.sum_univ_three] <;> norm_num

/-! ## Fine alignment -/

section generic
variable {α : Type} [Add α] [Sub α] [Mul α] [Div α] [Neg α] [Flt α]

/-- all arguments describe eight states -/
def Eight (xk : DVec α) (Pk : DMat α) (xkp1 : DVec α) (Pkp1 : DMat α) : Prop := xk.n = 8 ∧ Square 8 Pk ∧ xkp1.n = 8 ∧ Square 8 Pkp1

/-- C59 (prediction): no undefined behaviour for any sizes; true exactly for eight states, then with outputs of eight states; otherwise false and both outputs as they were. -/
theorem C59_predict_sizes (lat wE g r : α) (xk : DVec α) (Pk : DMat α) (xkp1 : DVec α) (Pkp1 : DMat α) :
    (Eight xk Pk xkp1 Pkp1 → ∃ x' P', fineAlignmentPredict lat wE g r xk Pk xkp1 Pkp1 = .ok (true, x', P') ∧ x'.n = 8 ∧ Square 8 P')
    ∧ (¬ Eight xk Pk xkp1 Pkp1 → fineAlignmentPredict lat wE g r xk Pk xkp1 Pkp1 = .ok (false, xkp1, Pkp1)) := by
  rcases C81_predict_sizes xk Pk ⟨8, 8, phi lat wE g r⟩ (DMat.zero xk.n xk.n) xkp1 Pkp1 with ⟨h1, h2, h3, h4, h5, x', P', h6, h7, h8⟩ | ⟨h1, h2⟩
  · have h8' : xk.n = 8 := h2.1.symm
    refine ⟨fun _ => ⟨x', P', ?_, h7.trans h8', h8' ▸ h8⟩, fun h => absurd ⟨h8', h8' ▸ h1, h4.trans h8', h8' ▸ h5⟩ h⟩
    rw [fineAlignmentPredict]
    rw [if_neg (by simp [h1.1, h1.2]), if_neg (by simp [h4]), if_neg (by simp [h5.1, h5.2])]
    simp only [h6, osimp]
    rfl
  · refine ⟨fun h => absurd ?_ h1, fun _ => ?_⟩
    · obtain ⟨e1, e2, e3, e4⟩ := h
      refine ⟨?_, ?_, ⟨rfl, rfl⟩, ?_, ?_⟩
      · rw [e1]; exact e2
      · rw [e1]; exact ⟨rfl, rfl⟩
      · rw [e1, e3]
      · rw [e1]; exact e4
    · rw [fineAlignmentPredict]
      simp only [h2, osimp, Bool.not_false, if_true]
      split_ifs <;> rfl

/-- C59 (azimuth update) -/
theorem C59_azimuth_sizes (L : LinSolver α) (azMeas dtAz azEst sigAz : α) (xk : DVec α) (Pk : DMat α) (xkp1 : DVec α) (Pkp1 : DMat α) :
    (Eight xk Pk xkp1 Pkp1 →
      ∃ x' P', fineAlignmentAzimuthUpdate L azMeas dtAz azEst sigAz xk Pk xkp1 Pkp1 = .ok (true, x', P') ∧ x'.n = 8 ∧ Square 8 P')
    ∧ (¬ Eight xk Pk xkp1 Pkp1 → fineAlignmentAzimuthUpdate L azMeas dtAz azEst sigAz xk Pk xkp1 Pkp1 = .ok (false, xkp1, Pkp1)) := by
  rcases C81_update_sizes L xk Pk ⟨1, ![azMeas - azEst]⟩
      ⟨1, 8, !![Flt.lit 0, Flt.lit 0, Flt.lit 1, Flt.lit 0, Flt.lit 0, Flt.lit 0, Flt.lit 0, Flt.lit 0]⟩ ⟨1, 1, !![sigAz * sigAz * dtAz]⟩ xkp1 Pkp1
    with ⟨h1, h2, h3, h4, h5, x', P', h6, h7, h8⟩ | ⟨h1, h2⟩
  · have h8' : xk.n = 8 := h2.2.symm
    refine ⟨fun _ => ⟨x', P', ?_, h7.trans h8', h8' ▸ h8⟩, fun h => absurd ⟨h8', h8' ▸ h1, h4.trans h8', h8' ▸ h5⟩ h⟩
    rw [fineAlignmentAzimuthUpdate]
    rw [if_neg (by simp [h1.1, h1.2]), if_neg (by simp [h4]), if_neg (by simp [h5.1, h5.2])]
    simp only [h6, osimp]
    rfl
  · refine ⟨fun h => absurd ?_ h1, fun _ => ?_⟩
    · obtain ⟨e1, e2, e3, e4⟩ := h
      refine ⟨?_, ?_, ⟨rfl, rfl⟩, ?_, ?_⟩
      · rw [e1]; exact e2
      · rw [e1]; exact ⟨rfl, rfl⟩
      · rw [e1, e3]
      · rw [e1]; exact e4
    · rw [fineAlignmentAzimuthUpdate]
      simp only [h2, osimp, Bool.not_false, if_true]
      split_ifs <;> rfl

/-- C59 (velocity update) -/
theorem C59_velocity_sizes (L : LinSolver α) (velMeas : Fin 2 → α) (dtVel sigVel : α) (xk : DVec α) (Pk : DMat α) (xkp1 : DVec α) (Pkp1 : DMat α) :
    (Eight xk Pk xkp1 Pkp1 →
      ∃ x' P', fineAlignmentVelocityUpdate L velMeas dtVel sigVel xk Pk xkp1 Pkp1 = .ok (true, x', P') ∧ x'.n = 8 ∧ Square 8 P')
    ∧ (¬ Eight xk Pk xkp1 Pkp1 → fineAlignmentVelocityUpdate L velMeas dtVel sigVel xk Pk xkp1 Pkp1 = .ok (false, xkp1, Pkp1)) := by
  rcases C81_update_sizes L xk Pk ⟨2, ![velMeas 0, velMeas 1]⟩
      ⟨2, 8, !![Flt.lit 0, Flt.lit 0, Flt.lit 0, Flt.lit 0, Flt.lit 0, Flt.lit 0, Flt.lit 1, Flt.lit 0;
        Flt.lit 0, Flt.lit 0, Flt.lit 0, Flt.lit 0, Flt.lit 0, Flt.lit 0, Flt.lit 0, Flt.lit 1]⟩
      ⟨2, 2, !![sigVel * sigVel * dtVel, Flt.lit 0; Flt.lit 0, sigVel * sigVel * dtVel]⟩ xkp1 Pkp1
    with ⟨h1, h2, h3, h4, h5, x', P', h6, h7, h8⟩ | ⟨h1, h2⟩
  · have h8' : xk.n = 8 := h2.2.symm
    refine ⟨fun _ => ⟨x', P', ?_, h7.trans h8', h8' ▸ h8⟩, fun h => absurd ⟨h8', h8' ▸ h1, h4.trans h8', h8' ▸ h5⟩ h⟩
    rw [fineAlignmentVelocityUpdate]
    rw [if_neg (by simp [h1.1, h1.2]), if_neg (by simp [h4]), if_neg (by simp [h5.1, h5.2])]
    simp only [h6, osimp]
    rfl
  · refine ⟨fun h => absurd ?_ h1, fun _ => ?_⟩
    · obtain ⟨e1, e2, e3, e4⟩ := h
      refine ⟨?_, ?_, ⟨rfl, rfl⟩, ?_, ?_⟩
      · rw [e1]; exact e2
      · rw [e1]; exact ⟨rfl, rfl⟩
      · rw [e1, e3]
      · rw [e1]; exact e4
    · rw [fineAlignmentVelocityUpdate]
      simp only [h2, osimp, Bool.not_false, if_true]
      split_ifs <;> rfl

/-- both cases occur -/
example (x : Fin 8 → α) (P : Matrix (Fin 8) (Fin 8) α) (y : Fin 7 → α) (Q : Matrix (Fin 7) (Fin 7) α) :
    Eight ⟨8, x⟩ ⟨8, 8, P⟩ ⟨8, x⟩ ⟨8, 8, P⟩ ∧ ¬ Eight ⟨7, y⟩ ⟨7, 7, Q⟩ ⟨7, y⟩ ⟨7, 7, Q⟩ :=
  ⟨⟨rfl, ⟨rfl, rfl⟩, rfl, rfl, rfl⟩, fun h => absurd (show (7 : ℕ) = 8 from h.1) (by decide)⟩

end generic

/-! ## C60 -/

/-- what the matrix of the code makes of the alignment errors of a resting system (three tilts, three gyroscope biases, two level velocity errors), written out; C188 compares it
with the error equations -/
noncomputable def errRate (lat wE g r : ℝ) (x : Fin 8 → ℝ) : Fin 8 → ℝ :=
  ![-(wE * Real.sin lat) * x 1 - x 3 + x 7 / r,
    wE * Real.sin lat * x 0 + wE * Real.cos lat * x 2 - x 4 - x 6 / r,
    -(wE * Real.cos lat) * x 1 - x 5 + Real.tan lat / r * x 7,
    0, 0, 0,
    g * x 1 - 2 * wE * Real.sin lat * x 7,
    -g * x 0 + 2 * wE * Real.sin lat * x 6]

theorem phi_R (lat wE g r : ℝ) (x : Fin 8 → ℝ) : phi lat wE g r *ᵥ x = errRate lat wE g r x := by
  ext i
  fin_cases i <;> simp [phi, mulVec, dotProduct, Fin.sum_univ_eight, errRate, rsimp] <;> ring

theorem predict_eq (lat wE g r : ℝ) (x : Fin 8 → ℝ) (P : Matrix (Fin 8) (Fin 8) ℝ) (xo : Fin 8 → ℝ) (Po : Matrix (Fin 8) (Fin 8) ℝ) :
    fineAlignmentPredict lat wE g r ⟨8, x⟩ ⟨8, 8, P⟩ ⟨8, xo⟩ ⟨8, 8, Po⟩
      = .ok (true, ⟨8, errRate lat wE g r x⟩, ⟨8, 8, phi lat wE g r * P * (phi lat wE g r)ᵀ⟩) := by
  simp only [fineAlignmentPredict, ne_eq, not_true_eq_false, or_self, if_false, DMat.zero]
  rw [predict_R, phi_R]
  simp [osimp, rsimp]

/-- C60 fails: a prediction replaces the gyroscope-bias estimates by zero and declares them perfectly known, whatever they were. (The matrix of the differential equation is used where
the transition matrix belongs; no time step enters.) -/
theorem C60_biases_lost_fails (lat wE g r : ℝ) (x : Fin 8 → ℝ) (P : Matrix (Fin 8) (Fin 8) ℝ) (xo : Fin 8 → ℝ) (Po : Matrix (Fin 8) (Fin 8) ℝ) :
    ∃ x' P', fineAlignmentPredict lat wE g r ⟨8, x⟩ ⟨8, 8, P⟩ ⟨8, xo⟩ ⟨8, 8, Po⟩ = .ok (true, ⟨8, x'⟩, ⟨8, 8, P'⟩)
      ∧ (∀ i : Fin 8, 3 ≤ i.val → i.val ≤ 5 → x' i = 0 ∧ ∀ j, P' i j = 0 ∧ P' j i = 0)
      ∧ ((x 3 ≠ 0 ∨ x 4 ≠ 0 ∨ x 5 ≠ 0) → x' ≠ x) := by
  have hz : ∀ i : Fin 8, 3 ≤ i.val → i.val ≤ 5 → ∀ j, phi lat wE g r i j = 0 := by
    intro i h1 h2 j
    fin_cases i <;> simp at h1 h2 <;> fin_cases j <;> simp [phi, rsimp]
  have hx : ∀ i : Fin 8, 3 ≤ i.val → i.val ≤ 5 → errRate lat wE g r x i = 0 := by
    intro i h1 h2
    fin_cases i <;> simp at h1 h2 <;> simp [errRate]
  refine ⟨_, _, predict_eq lat wE g r x P xo Po, fun i h1 h2 => ⟨hx i h1 h2, fun j => ⟨?_, ?_⟩⟩, ?_⟩
  · simp [mul_apply, hz i h1 h2]
  · simp [mul_apply, hz i h1 h2]
  · rintro h he
    have e3 := congrFun he 3
    have e4 := congrFun he 4
    have e5 := congrFun he 5
    rw [hx 3 (by decide) (by decide)] at e3
    rw [hx 4 (by decide) (by decide)] at e4
    rw [hx 5 (by decide) (by decide)] at e5
    rcases h with h | h | h
    · exact h e3.symm
    · exact h e4.symm
    · exact h e5.symm

/-- C60, what does hold: the function returns the *rate of change* of the alignment errors (and its covariance). So the zero state is kept. (Full claim: the state after an interval;
missing: the identity and the time step.) -/
theorem C60_returns_rate_partial (lat wE g r : ℝ) (x : Fin 8 → ℝ) (P : Matrix (Fin 8) (Fin 8) ℝ) (xo : Fin 8 → ℝ) (Po : Matrix (Fin 8) (Fin 8) ℝ)
    (hP : IsCov P) :
    ∃ P', fineAlignmentPredict lat wE g r ⟨8, x⟩ ⟨8, 8, P⟩ ⟨8, xo⟩ ⟨8, 8, Po⟩ = .ok (true, ⟨8, errRate lat wE g r x⟩, ⟨8, 8, P'⟩)
      ∧ IsCov P' ∧ errRate lat wE g r 0 = 0 := by
  refine ⟨_, predict_eq lat wE g r x P xo Po, isCov_iff.2 (psd_conj (isCov_iff.1 hP) _), ?_⟩
  ext i; fin_cases i <;> simp [errRate]

/-! ## C95 -/

/-- a fine-alignment call -/
inductive AlignOp
  | predict (lat wE g r : ℝ)
  | azimuth (azMeas dtAz azEst sigAz : ℝ)
  | velocity (velMeas : Fin 2 → ℝ) (dtVel sigVel : ℝ)

/-- perform a call on the current estimate, into the given outputs -/
noncomputable def AlignOp.exec (L : LinSolver ℝ) (s : DVec ℝ × DMat ℝ) : AlignOp → Out (DVec ℝ × DMat ℝ)
  | .predict lat wE g r => do let o ← fineAlignmentPredict lat wE g r s.1 s.2 s.1 s.2; .ok o.2
  | .azimuth a d e σ => do let o ← fineAlignmentAzimuthUpdate L a d e σ s.1 s.2 s.1 s.2; .ok o.2
  | .velocity v d σ => do let o ← fineAlignmentVelocityUpdate L v d σ s.1 s.2 s.1 s.2; .ok o.2

/-- the azimuth and velocity measurement matrices -/
def hAz : Matrix (Fin 1) (Fin 8) ℝ := !![0, 0, 1, 0, 0, 0, 0, 0]
def hVel : Matrix (Fin 2) (Fin 8) ℝ := !![0, 0, 0, 0, 0, 0, 1, 0; 0, 0, 0, 0, 0, 0, 0, 1]

theorem azimuth_eq (L : LinSolver ℝ) (azMeas dtAz azEst sigAz : ℝ) (x : Fin 8 → ℝ) (P : Matrix (Fin 8) (Fin 8) ℝ) (xo : Fin 8 → ℝ)
    (Po : Matrix (Fin 8) (Fin 8) ℝ) :
    fineAlignmentAzimuthUpdate L azMeas dtAz azEst sigAz ⟨8, x⟩ ⟨8, 8, P⟩ ⟨8, xo⟩ ⟨8, 8, Po⟩
      = filterUpdate L ⟨8, x⟩ ⟨8, 8, P⟩ ⟨1, ![azMeas - azEst]⟩ ⟨1, 8, hAz⟩ ⟨1, 1, diagonal ![sigAz * sigAz * dtAz]⟩ ⟨8, xo⟩ ⟨8, 8, Po⟩ := by
  have hR : (!![sigAz * sigAz * dtAz] : Matrix (Fin 1) (Fin 1) ℝ) = diagonal ![sigAz * sigAz * dtAz] := by
    ext i j; fin_cases i; fin_cases j; rfl
  simp only [fineAlignmentAzimuthUpdate, ne_eq, not_true_eq_false, or_self, if_false, hR, R_lit, Rat.cast_zero, Rat.cast_one]
  rw [← hAz, update_fit]
  simp [osimp]

theorem velocity_eq (L : LinSolver ℝ) (v : Fin 2 → ℝ) (dtVel sigVel : ℝ) (x : Fin 8 → ℝ) (P : Matrix (Fin 8) (Fin 8) ℝ) (xo : Fin 8 → ℝ)
    (Po : Matrix (Fin 8) (Fin 8) ℝ) :
    fineAlignmentVelocityUpdate L v dtVel sigVel ⟨8, x⟩ ⟨8, 8, P⟩ ⟨8, xo⟩ ⟨8, 8, Po⟩
      = filterUpdate L ⟨8, x⟩ ⟨8, 8, P⟩ ⟨2, v⟩ ⟨2, 8, hVel⟩ ⟨2, 2, diagonal ![sigVel * sigVel * dtVel, sigVel * sigVel * dtVel]⟩ ⟨8, xo⟩ ⟨8, 8, Po⟩ := by
  have hR : (!![sigVel * sigVel * dtVel, 0; 0, sigVel * sigVel * dtVel] : Matrix (Fin 2) (Fin 2) ℝ)
      = diagonal ![sigVel * sigVel * dtVel, sigVel * sigVel * dtVel] := by
    ext i j; fin_cases i <;> fin_cases j <;> rfl
  have hv : ![v 0, v 1] = v := by ext i; fin_cases i <;> rfl
  simp only [fineAlignmentVelocityUpdate, ne_eq, not_true_eq_false, or_self, if_false, R_lit, Rat.cast_zero, Rat.cast_one, hR, hv]
  rw [← hVel, update_fit]
  simp [osimp]

/-- an update leaves alone what is known perfectly -/
theorem update_known {n m : ℕ} (L : LinSolver ℝ) (x : Fin n → ℝ) (P : Matrix (Fin n) (Fin n) ℝ) (z : Fin m → ℝ) (H : Matrix (Fin m) (Fin n) ℝ)
    (R : Matrix (Fin m) (Fin m) ℝ) (xo : Fin n → ℝ) (Po : Matrix (Fin n) (Fin n) ℝ) :
    ∃ x' P', filterUpdate L ⟨n, x⟩ ⟨n, n, P⟩ ⟨m, z⟩ ⟨m, n, H⟩ ⟨m, m, R⟩ ⟨n, xo⟩ ⟨n, n, Po⟩ = .ok (true, ⟨n, x'⟩, ⟨n, n, P'⟩)
      ∧ ∀ i, (∀ j, P i j = 0 ∧ P j i = 0) → x' i = x i ∧ ∀ j, P' i j = 0 ∧ P' j i = 0 := by
  refine ⟨_, _, update_fit L x P z H R xo Po, fun i hi => ?_⟩
  have hK : ∀ k, gainC L P H R i k = 0 := by
    intro k
    simp only [gainC, rsimp]
    rw [Matrix.mul_assoc, mul_apply]
    exact Finset.sum_eq_zero fun l _ => by rw [(hi l).1, zero_mul]
  generalize gainC L P H R = K at hK
  have hKH : ∀ k, (K * H) i k = 0 := fun k => by
    rw [mul_apply]; exact Finset.sum_eq_zero fun l _ => by rw [hK, zero_mul]
  have hA : ∀ k, (1 - K * H : Matrix (Fin n) (Fin n) ℝ) i k = (1 : Matrix (Fin n) (Fin n) ℝ) i k := fun k => by rw [Matrix.sub_apply, hKH, sub_zero]
  refine ⟨?_, fun j => ⟨?_, ?_⟩⟩
  · simp only [rsimp, Pi.add_apply]
    rw [mulVec, dotProduct, Finset.sum_eq_zero fun l _ => by rw [hK, zero_mul], add_zero]
  · simp only [rsimp, Matrix.add_apply]
    rw [Matrix.mul_assoc, Matrix.mul_assoc, mul_apply, mul_apply]
    rw [Finset.sum_eq_zero (s := Finset.univ) (f := fun l => K i l * _) fun l _ => by rw [hK, zero_mul], add_zero]
    refine Finset.sum_eq_zero fun l _ => ?_
    rw [hA]
    by_cases hl : i = l
    · subst hl
      rw [mul_apply, Finset.sum_eq_zero fun k _ => by rw [(hi k).1, zero_mul], mul_zero]
    · rw [one_apply_ne hl, zero_mul]
  · simp only [rsimp, Matrix.add_apply]
    rw [mul_apply, mul_apply]
    have h2 : ∑ l, (K * R) j l * Kᵀ l i = 0 := Finset.sum_eq_zero fun l _ => by rw [transpose_apply, hK, mul_zero]
    have h1 : ∑ l, ((1 - K * H) * P : Matrix (Fin n) (Fin n) ℝ) j l * (1 - K * H : Matrix (Fin n) (Fin n) ℝ)ᵀ l i = 0 := by
      refine Finset.sum_eq_zero fun l _ => ?_
      rw [transpose_apply, hA]
      by_cases hl : i = l
      · subst hl
        rw [mul_apply, Finset.sum_eq_zero fun k _ => by rw [(hi k).2, mul_zero], zero_mul]
      · rw [one_apply_ne hl, mul_zero]
    rw [h1, h2, add_zero]

/-- C95: fine alignment never estimates the gyroscope biases. After a prediction and then any sequence of predictions and azimuth and velocity updates, the three bias estimates and all
their covariances are exactly zero, whatever was measured. -/
theorem C95_biases_never_estimated (L : LinSolver ℝ) (lat wE g r : ℝ) (ops : List AlignOp) (x : Fin 8 → ℝ) (P : Matrix (Fin 8) (Fin 8) ℝ) :
    ∃ x' P', (AlignOp.predict lat wE g r :: ops).foldlM (AlignOp.exec L) (⟨8, x⟩, ⟨8, 8, P⟩) = .ok (⟨8, x'⟩, ⟨8, 8, P'⟩)
      ∧ ∀ i : Fin 8, 3 ≤ i.val → i.val ≤ 5 → x' i = 0 ∧ ∀ j, P' i j = 0 ∧ P' j i = 0 := by
  have main : ∀ (ops : List AlignOp) (x : Fin 8 → ℝ) (P : Matrix (Fin 8) (Fin 8) ℝ),
      (∀ i : Fin 8, 3 ≤ i.val → i.val ≤ 5 → x i = 0 ∧ ∀ j, P i j = 0 ∧ P j i = 0) →
      ∃ x' P', ops.foldlM (AlignOp.exec L) (⟨8, x⟩, ⟨8, 8, P⟩) = .ok (⟨8, x'⟩, ⟨8, 8, P'⟩)
        ∧ ∀ i : Fin 8, 3 ≤ i.val → i.val ≤ 5 → x' i = 0 ∧ ∀ j, P' i j = 0 ∧ P' j i = 0 := by
    intro ops
    induction ops with
    | nil => exact fun x P h => ⟨x, P, rfl, h⟩
    | cons o ops ih =>
      intro x P h
      rw [List.foldlM_cons]
      cases o with
      | predict lat wE g r =>
        obtain ⟨x1, P1, e, h1, -⟩ := C60_biases_lost_fails lat wE g r x P x P
        simp only [AlignOp.exec, e, osimp]
        exact ih x1 P1 h1
      | azimuth a d e σ =>
        obtain ⟨x1, P1, e, h1⟩ := update_known L x P ![a - e] hAz (diagonal ![σ * σ * d]) x P
        simp only [AlignOp.exec, azimuth_eq, e, osimp]
        exact ih x1 P1 fun i hi hj => ⟨(h1 i (h i hi hj).2).1.trans (h i hi hj).1, (h1 i (h i hi hj).2).2⟩
      | velocity v d σ =>
        obtain ⟨x1, P1, e, h1⟩ := update_known L x P v hVel (diagonal ![σ * σ * d, σ * σ * d]) x P
        simp only [AlignOp.exec, velocity_eq, e, osimp]
        exact ih x1 P1 fun i hi hj => ⟨(h1 i (h i hi hj).2).1.trans (h i hi hj).1, (h1 i (h i hi hj).2).2⟩
  rw [List.foldlM_cons]
  obtain ⟨x1, P1, e, h1, -⟩ := C60_biases_lost_fails lat wE g r x P x P
  simp only [AlignOp.exec, e, osimp]
  exact main ops x1 P1 h1

/-! ## C61 -/

theorem hAz_apply (k : Fin 1) (l : Fin 8) : hAz k l = if l = 2 then 1 else 0 := by
  fin_cases k; fin_cases l <;> simp [hAz]
theorem az_left (M : Matrix (Fin 8) (Fin 8) ℝ) (i : Fin 1) (j : Fin 8) : (hAz * M) i j = M 2 j := by
  simp [mul_apply, hAz_apply]
theorem az_right {n : ℕ} (M : Matrix (Fin n) (Fin 8) ℝ) (i : Fin n) (j : Fin 1) : (M * hAzᵀ) i j = M i 2 := by
  simp [mul_apply, hAz_apply]

theorem posCov_diag {n : ℕ} (d : ℝ) (hd : 0 < d) (v : Fin n → ℝ) (hv : ∀ i, v i = d) : IsPosCov (diagonal v) :=
  diag_isPosCov _ fun i => by rw [hv]; exact hd

/-- C61 (azimuth): the update in closed form. The residual acts on every state in proportion to its covariance with the azimuth error; the covariance is reduced accordingly, stays
positive semidefinite and no larger in any direction, and the azimuth variance ends below the measurement variance. Hence a residual equal to the predicted azimuth error changes no
state, and states uncorrelated with it are unchanged. -/
theorem C61_azimuth {L : LinSolver ℝ} (hL : L.Correct) (azMeas dtAz azEst sigAz : ℝ) (x : Fin 8 → ℝ) (P : Matrix (Fin 8) (Fin 8) ℝ) (xo : Fin 8 → ℝ)
    (Po : Matrix (Fin 8) (Fin 8) ℝ) (hP : IsCov P) (hd : 0 < dtAz) (hs : sigAz ≠ 0) :
    ∃ x' P', fineAlignmentAzimuthUpdate L azMeas dtAz azEst sigAz ⟨8, x⟩ ⟨8, 8, P⟩ ⟨8, xo⟩ ⟨8, 8, Po⟩ = .ok (true, ⟨8, x'⟩, ⟨8, 8, P'⟩)
      ∧ (∀ i, x' i = x i + P i 2 / (P 2 2 + sigAz ^ 2 * dtAz) * (azMeas - azEst - x 2))
      ∧ (∀ i j, P' i j = P i j - P i 2 * P 2 j / (P 2 2 + sigAz ^ 2 * dtAz))
      ∧ IsCov P' ∧ CovLe P' P ∧ P' 2 2 < sigAz ^ 2 * dtAz
      ∧ (azMeas - azEst = x 2 → x' = x) ∧ (∀ i, P i 2 = 0 → x' i = x i ∧ ∀ j, P' i j = P i j) := by
  have hr : 0 < sigAz ^ 2 * dtAz := by positivity
  have hr' : 0 < sigAz * sigAz * dtAz := by rw [← sq]; exact hr
  have hR : IsPosCov (diagonal ![sigAz * sigAz * dtAz]) := posCov_diag _ hr' _ fun i => by fin_cases i; rfl
  have h22 : 0 ≤ P 2 2 := by simpa [Pi.single_apply] using hP.2 (Pi.single 2 1)
  have hS : P 2 2 + sigAz ^ 2 * dtAz ≠ 0 := by positivity
  have hsym : ∀ i j, P i j = P j i := fun i j => hP.1.apply j i
  obtain ⟨x', P', K, e, hK, hx, -, hP'⟩ := C76_joseph_short_forms hL x P ![azMeas - azEst] hAz _ xo Po hP hR
  obtain ⟨x'', P'', e', hc, hle⟩ := C75_update_covariance hL x P ![azMeas - azEst] hAz _ xo Po hP hR
  rw [e] at e'
  obtain ⟨rfl, rfl⟩ : x' = x'' ∧ P' = P'' := by
    injection e' with e'; injection e' with _ e'; injection e' with e1 e2; injection e1 with _ e1; injection e2 with _ _ e2; exact ⟨e1, e2⟩
  have hSm : ∀ i j : Fin 1, (hAz * P * hAzᵀ + diagonal ![sigAz * sigAz * dtAz]) i j = P 2 2 + sigAz ^ 2 * dtAz := by
    intro i j; fin_cases i; fin_cases j
    rw [Matrix.add_apply, az_right, az_left, sq]
    rfl
  have hPH : ∀ i (j : Fin 1), (P * hAzᵀ) i j = P i 2 := by
    intro i j; exact az_right P i j
  have hKi : ∀ i, K i 0 = P i 2 / (P 2 2 + sigAz ^ 2 * dtAz) := by
    intro i
    have := congrFun (congrFun hK i) 0
    rw [hPH, mul_apply, Fin.sum_univ_one, hSm] at this
    rw [← this]; field_simp
  have hxi : ∀ i, x' i = x i + P i 2 / (P 2 2 + sigAz ^ 2 * dtAz) * (azMeas - azEst - x 2) := by
    intro i
    have : (hAz *ᵥ x) 0 = x 2 := by simp [hAz, mulVec, dotProduct, Fin.sum_univ_eight]
    rw [hx, Pi.add_apply, mulVec, dotProduct, Fin.sum_univ_one, hKi, Pi.sub_apply, this]; rfl
  have hPij : ∀ i j, P' i j = P i j - P i 2 * P 2 j / (P 2 2 + sigAz ^ 2 * dtAz) := by
    intro i j
    rw [hP', Matrix.sub_apply, mul_apply, Fin.sum_univ_one, mul_apply, Fin.sum_univ_one, hSm, transpose_apply, hKi, hKi, hsym 2 j]
    field_simp
  refine ⟨x', P', by rw [azimuth_eq, e], hxi, hPij, hc, hle, ?_, fun h => ?_, fun i hi => ⟨?_, fun j => ?_⟩⟩
  · rw [hPij, show P 2 2 - P 2 2 * P 2 2 / (P 2 2 + sigAz ^ 2 * dtAz) = P 2 2 / (P 2 2 + sigAz ^ 2 * dtAz) * (sigAz ^ 2 * dtAz) by field_simp; ring]
    have : P 2 2 / (P 2 2 + sigAz ^ 2 * dtAz) < 1 := by rw [div_lt_one (by positivity)]; linarith
    nlinarith
  · ext i; rw [hxi, h, sub_self, mul_zero, add_zero]
  · rw [hxi, hi, zero_div, zero_mul, add_zero]
  · rw [hPij, hi, zero_mul, zero_div, sub_zero]

/-- C61 (velocity): the covariance stays positive semidefinite, is no larger in any direction, and both velocity variances end at most at the measurement variance; a measurement
equal to the predicted velocity error changes no state; a state uncorrelated with both velocity errors keeps its estimate and its covariances. -/
theorem C61_velocity {L : LinSolver ℝ} (hL : L.Correct) (v : Fin 2 → ℝ) (dtVel sigVel : ℝ) (x : Fin 8 → ℝ) (P : Matrix (Fin 8) (Fin 8) ℝ) (xo : Fin 8 → ℝ)
    (Po : Matrix (Fin 8) (Fin 8) ℝ) (hP : IsCov P) (hd : 0 < dtVel) (hs : sigVel ≠ 0) :
    ∃ x' P', fineAlignmentVelocityUpdate L v dtVel sigVel ⟨8, x⟩ ⟨8, 8, P⟩ ⟨8, xo⟩ ⟨8, 8, Po⟩ = .ok (true, ⟨8, x'⟩, ⟨8, 8, P'⟩)
      ∧ IsCov P' ∧ CovLe P' P ∧ P' 6 6 ≤ sigVel ^ 2 * dtVel ∧ P' 7 7 ≤ sigVel ^ 2 * dtVel
      ∧ (x 6 = v 0 → x 7 = v 1 → x' = x) ∧ (∀ i, P i 6 = 0 → P i 7 = 0 → x' i = x i ∧ ∀ j, P' i j = P i j) := by
  have hr : 0 < sigVel ^ 2 * dtVel := by positivity
  have hr' : 0 < sigVel * sigVel * dtVel := by rw [← sq]; exact hr
  have hR : IsPosCov (diagonal ![sigVel * sigVel * dtVel, sigVel * sigVel * dtVel]) := posCov_diag _ hr' _ fun i => by fin_cases i <;> rfl
  have hsym : ∀ i j, P i j = P j i := fun i j => hP.1.apply j i
  obtain ⟨x', P', K, e, hK, hx, hP1, hP'⟩ := C76_joseph_short_forms hL x P v hVel _ xo Po hP hR
  obtain ⟨x'', P'', e', hc, hle⟩ := C75_update_covariance hL x P v hVel _ xo Po hP hR
  rw [e] at e'
  obtain ⟨rfl, rfl⟩ : x' = x'' ∧ P' = P'' := by
    injection e' with e'; injection e' with _ e'; injection e' with e1 e2; injection e1 with _ e1; injection e2 with _ _ e2; exact ⟨e1, e2⟩
  have hRp := isPosCov_iff.1 hR
  have hPp := isCov_iff.1 hP
  set R := diagonal ![sigVel * sigVel * dtVel, sigVel * sigVel * dtVel] with hRdef
  have hS := pd_det (innov_pd hPp hVel hRp)
  have hH6 : ∀ y : Fin 8 → ℝ, (hVel *ᵥ y) 0 = y 6 := fun y => by simp [hVel, mulVec, dotProduct, Fin.sum_univ_eight]
  have hH7 : ∀ y : Fin 8 → ℝ, (hVel *ᵥ y) 1 = y 7 := fun y => by simp [hVel, mulVec, dotProduct, Fin.sum_univ_eight]
  have hKrow : ∀ i, P i 6 = 0 → P i 7 = 0 → ∀ k, K i k = 0 := by
    intro i h6 h7 k
    have hPH : ∀ k, (P * hVelᵀ) i k = 0 := by
      intro k; fin_cases k <;> simp [hVel, mul_apply, Fin.sum_univ_eight, h6, h7]
    have : K = P * hVelᵀ * (innov P hVel R)⁻¹ := by
      rw [← hK, ← innov, Matrix.mul_assoc, mul_nonsing_inv _ hS, Matrix.mul_one]
    rw [this, mul_apply]
    exact Finset.sum_eq_zero fun l _ => by rw [hPH, zero_mul]
  -- the optimal gain is at least as good as simply taking the measurement
  have hvar : ∀ (G : Matrix (Fin 8) (Fin 2) ℝ) (i : Fin 8), P' i i ≤ joseph P hVel R G i i := by
    intro G i
    have hSs := psd_tr (innov_pd hPp hVel hRp).posSemidef
    have hK' : K = gain P hVel R := by
      rw [gain, ← hK, ← innov, Matrix.mul_assoc, mul_nonsing_inv _ hS, Matrix.mul_one]
    have hg := joseph_gap (psd_tr hPp) hSs hS G
    rw [← hK', innov, ← hP', ← innov] at hg
    rw [hg, Matrix.add_apply]
    have hpsd := isCov_iff.2 (psd_conj (innov_pd hPp hVel hRp).posSemidef (G - K))
    have := hpsd.2 (Pi.single i 1)
    simp only [single_one_dotProduct, mulVec_single_one, col_apply] at this
    linarith [this]
  have hj : ∀ (i : Fin 8) (k : Fin 2), (∀ l, hVel k l = if l = i then 1 else 0) →
      joseph P hVel R (of fun i' k' => if i' = i ∧ k' = k then 1 else 0) i i = sigVel ^ 2 * dtVel := by
    intro i k hl
    generalize hG : (of fun i' k' => if i' = i ∧ k' = k then 1 else 0 : Matrix (Fin 8) (Fin 2) ℝ) = G
    have hGi : ∀ k', G i k' = if k' = k then 1 else 0 := fun k' => by rw [← hG]; simp
    have hA : ∀ l, (1 - G * hVel : Matrix (Fin 8) (Fin 8) ℝ) i l = 0 := by
      intro l
      rw [Matrix.sub_apply, mul_apply, Finset.sum_congr rfl fun k' _ => by rw [hGi]]
      simp [hl, one_apply, eq_comm]
    have h1 : ((1 - G * hVel) * P * (1 - G * hVel)ᵀ : Matrix (Fin 8) (Fin 8) ℝ) i i = 0 := by
      rw [mul_apply]; exact Finset.sum_eq_zero fun l _ => by rw [transpose_apply, hA, mul_zero]
    have h2 : (G * R * Gᵀ) i i = sigVel ^ 2 * dtVel := by
      rw [mul_apply, Finset.sum_congr rfl fun l _ => by rw [transpose_apply, hGi]]
      simp only [mul_ite, mul_one, mul_zero, Finset.sum_ite_eq', Finset.mem_univ, if_true]
      rw [hRdef, mul_diagonal, hGi, if_pos rfl, one_mul, sq]
      fin_cases k <;> rfl
    rw [joseph, Matrix.add_apply, h1, h2, zero_add]
  have hj6 := hj 6 0 fun l => by fin_cases l <;> simp [hVel]
  have hj7 := hj 7 1 fun l => by fin_cases l <;> simp [hVel]
  refine ⟨x', P', by rw [velocity_eq, e], hc, hle, (hvar _ 6).trans_eq hj6, (hvar _ 7).trans_eq hj7, fun h6 h7 => ?_, fun i h6 h7 => ⟨?_, fun j => ?_⟩⟩
  · have : v - hVel *ᵥ x = 0 := by
      ext k; fin_cases k
      · simp [hH6, h6]
      · simp [hH7, h7]
    rw [hx, this, mulVec_zero, add_zero]
  · rw [hx, Pi.add_apply, mulVec, dotProduct, Finset.sum_eq_zero fun l _ => by rw [hKrow i h6 h7, zero_mul], add_zero]
  · rw [hP1, Matrix.sub_mul, Matrix.one_mul, Matrix.sub_apply, Matrix.mul_assoc, mul_apply,
      Finset.sum_eq_zero fun l _ => by rw [hKrow i h6 h7, zero_mul], sub_zero]

/-- a covariance with correlated and uncorrelated states -/
example : IsCov (diagonal ![(1 : ℝ), 1, 4, 0, 0, 0, 9, 9]) := diag_isCov _ (by intro i; fin_cases i <;> norm_num)

end NavFuse.Props.Align
