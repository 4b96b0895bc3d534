import Verif.Spec.Rotation
import Mathlib.LinearAlgebra.Matrix.NonsingularInverse
import Mathlib.LinearAlgebra.Matrix.Adjugate
import Mathlib.Tactic.LinearCombination
import Mathlib.Tactic.FinCases
import Mathlib.Tactic.Linarith

/-! Lemmas about rotation matrices. -/

namespace NavFuse.Spec
open Matrix

variable {R S : Matrix (Fin 3) (Fin 3) ℝ}

theorem IsRot.tr_mul (h : IsRot R) : Rᵀ * R = 1 := mul_eq_one_comm.1 h.1

theorem IsRot.transpose (h : IsRot R) : IsRot Rᵀ := ⟨by simpa using h.tr_mul, by rw [det_transpose]; exact h.2⟩

theorem IsRot.mul (h : IsRot R) (k : IsRot S) : IsRot (R * S) := by
  refine ⟨?_, by rw [det_mul, h.2, k.2, one_mul]⟩
  rw [transpose_mul, ← Matrix.mul_assoc, Matrix.mul_assoc R, k.1, Matrix.mul_one, h.1]

theorem IsRot.one : IsRot (1 : Matrix (Fin 3) (Fin 3) ℝ) := ⟨by simp, by simp⟩

theorem IsRot.inv (h : IsRot R) : R⁻¹ = Rᵀ := inv_eq_right_inv h.1

/-- the adjugate of a rotation is its transpose -/
theorem IsRot.adj (h : IsRot R) : adjugate R = Rᵀ := by
  have h1 : adjugate R * R = 1 := by rw [adjugate_mul, h.2, one_smul]
  calc adjugate R = adjugate R * (R * Rᵀ) := by rw [h.1, Matrix.mul_one]
    _ = Rᵀ := by rw [← Matrix.mul_assoc, h1, Matrix.one_mul]

/-- rows are orthonormal -/
theorem IsRot.rows (h : IsRot R) (i j : Fin 3) : R i 0 * R j 0 + R i 1 * R j 1 + R i 2 * R j 2 = if i = j then 1 else 0 := by
  have := congrFun (congrFun h.1 i) j
  simpa [mul_apply, Fin.sum_univ_three, one_apply] using this

/-- columns are orthonormal -/
theorem IsRot.cols (h : IsRot R) (i j : Fin 3) : R 0 i * R 0 j + R 1 i * R 1 j + R 2 i * R 2 j = if i = j then 1 else 0 := by
  have := congrFun (congrFun h.tr_mul i) j
  simpa [mul_apply, Fin.sum_univ_three, one_apply] using this

/-- every entry is its own cofactor -/
theorem IsRot.cof (h : IsRot R) :
    R 0 0 = R 1 1 * R 2 2 - R 1 2 * R 2 1 ∧ R 0 1 = R 1 2 * R 2 0 - R 1 0 * R 2 2 ∧ R 0 2 = R 1 0 * R 2 1 - R 1 1 * R 2 0
    ∧ R 1 0 = R 0 2 * R 2 1 - R 0 1 * R 2 2 ∧ R 1 1 = R 0 0 * R 2 2 - R 0 2 * R 2 0 ∧ R 1 2 = R 0 1 * R 2 0 - R 0 0 * R 2 1
    ∧ R 2 0 = R 0 1 * R 1 2 - R 0 2 * R 1 1 ∧ R 2 1 = R 0 2 * R 1 0 - R 0 0 * R 1 2 ∧ R 2 2 = R 0 0 * R 1 1 - R 0 1 * R 1 0 := by
  have key : ∀ i j, adjugate R i j = R j i := fun i j => by rw [h.adj]; rfl
  have a := key
  simp only [adjugate_fin_three] at a
  have e := fun i j => a i j
  refine ⟨?_, ?_, ?_, ?_, ?_, ?_, ?_, ?_, ?_⟩
  · have := e 0 0; simp at this; linarith
  · have := e 1 0; simp at this; linarith
  · have := e 2 0; simp at this; linarith
  · have := e 0 1; simp at this; linarith
  · have := e 1 1; simp at this; linarith
  · have := e 2 1; simp at this; linarith
  · have := e 0 2; simp at this; linarith
  · have := e 1 2; simp at this; linarith
  · have := e 2 2; simp at this; linarith

theorem isRot_of (h1 : R * Rᵀ = 1) (h2 : R.det = 1) : IsRot R := ⟨h1, h2⟩

theorem isRot_rotX (t : ℝ) : IsRot (rotX t) := by
  have := Real.sin_sq_add_cos_sq t
  constructor
  · ext i j; fin_cases i <;> fin_cases j <;> simp [rotX, mul_apply, Fin.sum_univ_three] <;> linarith
  · simp [rotX, det_fin_three]; linarith
theorem isRot_rotY (t : ℝ) : IsRot (rotY t) := by
  have := Real.sin_sq_add_cos_sq t
  constructor
  · ext i j; fin_cases i <;> fin_cases j <;> simp [rotY, mul_apply, Fin.sum_univ_three] <;> linarith
  · simp [rotY, det_fin_three]; linarith
theorem isRot_rotZ (t : ℝ) : IsRot (rotZ t) := by
  have := Real.sin_sq_add_cos_sq t
  constructor
  · ext i j; fin_cases i <;> fin_cases j <;> simp [rotZ, mul_apply, Fin.sum_univ_three] <;> linarith
  · simp [rotZ, det_fin_three]; linarith

theorem rotX_transpose (t : ℝ) : (rotX t)ᵀ = rotX (-t) := by
  ext i j; fin_cases i <;> fin_cases j <;> simp [rotX]
theorem rotY_transpose (t : ℝ) : (rotY t)ᵀ = rotY (-t) := by
  ext i j; fin_cases i <;> fin_cases j <;> simp [rotY]
theorem rotZ_transpose (t : ℝ) : (rotZ t)ᵀ = rotZ (-t) := by
  ext i j; fin_cases i <;> fin_cases j <;> simp [rotZ]

/-- a rotation preserves dot products -/
theorem IsRot.dot (h : IsRot R) (u v : Fin 3 → ℝ) : (R *ᵥ u) ⬝ᵥ (R *ᵥ v) = u ⬝ᵥ v := by
  rw [dotProduct_mulVec, ← mulVec_transpose, mulVec_mulVec, h.tr_mul, one_mulVec]

/-- a rotation preserves cross products -/
theorem IsRot.cross (h : IsRot R) (u v : Fin 3 → ℝ) : (R *ᵥ u) ⨯₃ (R *ᵥ v) = R *ᵥ (u ⨯₃ v) := by
  obtain ⟨c00, c01, c02, c10, c11, c12, c20, c21, c22⟩ := h.cof
  ext i
  fin_cases i <;> simp [mulVec, dotProduct, Fin.sum_univ_three, cross_apply]
  · linear_combination (-(u 1 * v 2 - u 2 * v 1)) * c00 + (-(u 2 * v 0 - u 0 * v 2)) * c01 + (-(u 0 * v 1 - u 1 * v 0)) * c02
  · linear_combination (-(u 1 * v 2 - u 2 * v 1)) * c10 + (-(u 2 * v 0 - u 0 * v 2)) * c11 + (-(u 0 * v 1 - u 1 * v 0)) * c12
  · linear_combination (-(u 1 * v 2 - u 2 * v 1)) * c20 + (-(u 2 * v 0 - u 0 * v 2)) * c21 + (-(u 0 * v 1 - u 1 * v 0)) * c22

section quaternion
variable (q : Fin 4 → ℝ) (v : Fin 3 → ℝ)
@[simp] theorem toQ_re : (toQ q).re = q 0 := rfl
@[simp] theorem toQ_imI : (toQ q).imI = q 1 := rfl
@[simp] theorem toQ_imJ : (toQ q).imJ = q 2 := rfl
@[simp] theorem toQ_imK : (toQ q).imK = q 3 := rfl
@[simp] theorem pureQ_re : (pureQ v).re = 0 := rfl
@[simp] theorem pureQ_imI : (pureQ v).imI = v 0 := rfl
@[simp] theorem pureQ_imJ : (pureQ v).imJ = v 1 := rfl
@[simp] theorem pureQ_imK : (pureQ v).imK = v 2 := rfl
theorem normSq_toQ : Quaternion.normSq (toQ q) = sq4 q := by simp [Quaternion.normSq_def', sq4]
theorem inv_toQ : (toQ q)⁻¹ = (sq4 q)⁻¹ • star (toQ q) := by rw [← normSq_toQ]; rfl
theorem pureQ_injective {u w : Fin 3 → ℝ} (h : pureQ u = pureQ w) : u = w := by
  ext i
  fin_cases i
  · exact congrArg (fun x : Quaternion ℝ => x.imI) h
  · exact congrArg (fun x : Quaternion ℝ => x.imJ) h
  · exact congrArg (fun x : Quaternion ℝ => x.imK) h
end quaternion

end NavFuse.Spec
