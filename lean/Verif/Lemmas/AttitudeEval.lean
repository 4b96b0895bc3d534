import Verif.Model.Attitude
import Verif.XR
import Verif.Lemmas.Rot

/-! Evaluation of the attitude functions on arguments of the right size. -/

set_option linter.unusedSectionVars false
set_option linter.unusedSimpArgs false

namespace NavFuse.Attitude
open Matrix Spec

section generic
variable {α : Type} [Add α] [Sub α] [Mul α] [Div α] [Neg α] [Flt α]

/-- the entries written by `computeDcmFromQuaternion` -/
def dcmG (q : Fin 4 → α) : M3 α :=
  let den := (q 0 * q 0) + (q 1 * q 1) + (q 2 * q 2) + (q 3 * q 3)
  !![((q 0 * q 0) + (q 1 * q 1) - (q 2 * q 2) - (q 3 * q 3)) / den, (Flt.lit 2 * ((q 1 * q 2) + (q 0 * q 3))) / den,
      (Flt.lit 2 * ((q 1 * q 3) - (q 0 * q 2))) / den;
     (Flt.lit 2 * ((q 1 * q 2) - (q 0 * q 3))) / den, ((q 0 * q 0) - (q 1 * q 1) + (q 2 * q 2) - (q 3 * q 3)) / den,
      (Flt.lit 2 * ((q 2 * q 3) + (q 0 * q 1))) / den;
     (Flt.lit 2 * ((q 1 * q 3) + (q 0 * q 2))) / den, (Flt.lit 2 * ((q 2 * q 3) - (q 0 * q 1))) / den,
      ((q 0 * q 0) - (q 1 * q 1) - (q 2 * q 2) + (q 3 * q 3)) / den]

theorem dcm_eval (q : Fin 4 → α) (R0 : M3 α) : computeDcmFromQuaternion ⟨4, q⟩ ⟨3, 3, R0⟩ = .ok (true, ⟨3, 3, dcmG q⟩) := by
  simp [computeDcmFromQuaternion, DVec.get, osimp, dcmG]

/-- the quaternion written by `computeQuaternionFromDcm` -/
def quatG (R : M3 α) : Fin 4 → α :=
  let qSq0 := Flt.lit 0.25 * (Flt.lit 1 + R 0 0 + R 1 1 + R 2 2)
  let qSq1 := Flt.lit 0.25 * (Flt.lit 1 + R 0 0 - R 1 1 - R 2 2)
  let qSq2 := Flt.lit 0.25 * (Flt.lit 1 - R 0 0 + R 1 1 - R 2 2)
  let qSq3 := Flt.lit 0.25 * (Flt.lit 1 - R 0 0 - R 1 1 + R 2 2)
  if Flt.lt qSq1 qSq0 && Flt.lt qSq2 qSq0 && Flt.lt qSq3 qSq0 then
    fun i => ![Flt.lit 4 * Flt.powi (Flt.sqrt qSq0) 2, R 1 2 - R 2 1, R 2 0 - R 0 2, R 0 1 - R 1 0] i * (Flt.lit 1 / (Flt.lit 4 * Flt.sqrt qSq0))
  else if Flt.lt qSq0 qSq1 && Flt.lt qSq2 qSq1 && Flt.lt qSq3 qSq1 then
    fun i => ![R 1 2 - R 2 1, Flt.lit 4 * Flt.powi (Flt.sqrt qSq1) 2, R 0 1 + R 1 0, R 2 0 + R 0 2] i * (Flt.lit 1 / (Flt.lit 4 * Flt.sqrt qSq1))
  else if Flt.lt qSq0 qSq2 && Flt.lt qSq1 qSq2 && Flt.lt qSq3 qSq2 then
    fun i => ![R 2 0 - R 0 2, R 0 1 + R 1 0, Flt.lit 4 * Flt.powi (Flt.sqrt qSq2) 2, R 1 2 + R 2 1] i * (Flt.lit 1 / (Flt.lit 4 * Flt.sqrt qSq2))
  else
    fun i => ![R 0 1 - R 1 0, R 2 0 + R 0 2, R 1 2 + R 2 1, Flt.lit 4 * Flt.powi (Flt.sqrt qSq3) 2] i * (Flt.lit 1 / (Flt.lit 4 * Flt.sqrt qSq3))

theorem quat_eval (R : M3 α) (q0 : Fin 4 → α) : computeQuaternionFromDcm ⟨3, 3, R⟩ ⟨4, q0⟩ = .ok (true, ⟨4, quatG R⟩) := by
  simp only [computeQuaternionFromDcm, ne_eq, not_true_eq_false, or_self, if_false, DMat.get, show ((0 : ℕ) < 3) = True by simp,
    show ((1 : ℕ) < 3) = True by simp, show ((2 : ℕ) < 3) = True by simp, and_self, dite_true, osimp, scaleBy, quatG, Fin.zero_eta, Fin.mk_one, Fin.reduceFinMk]
  split_ifs <;> rfl

/-- the quaternion written by `computeQuaternionFromRotationVec` -/
def rvqG (p : V3 α) : Fin 4 → α :=
  let mag := Flt.sqrt ((p 0 * p 0) + (p 1 * p 1) + (p 2 * p 2))
  ![Flt.cos (mag / Flt.lit 2), (Flt.lit 1 / mag) * Flt.sin (mag / Flt.lit 2) * p 0, (Flt.lit 1 / mag) * Flt.sin (mag / Flt.lit 2) * p 1,
    (Flt.lit 1 / mag) * Flt.sin (mag / Flt.lit 2) * p 2]

theorem rvq_eval (p : V3 α) (q0 : Fin 4 → α) : computeQuaternionFromRotationVec ⟨3, p⟩ ⟨4, q0⟩ = .ok (true, ⟨4, rvqG p⟩) := by
  simp [computeQuaternionFromRotationVec, DVec.get, DVec.set, osimp, rvqG]
  ext i; fin_cases i <;> simp

/-- the rotation vector written by `computeRotationVecFromQuaternion` -/
def qrvG (q : Fin 4 → α) : V3 α :=
  let v : V3 α := if Flt.lt (q 0) (Flt.lit 0) then (fun i => ![q 1, q 2, q 3] i * Flt.lit (-1)) else ![q 1, q 2, q 3]
  let r : α × V3 α :=
    if Flt.lt (Flt.lit 1.0e-6) (vnorm v) then (Flt.lit (-2) * Flt.asin (vnorm v), vdiv v (vnorm v))
    else (Flt.lit 0, ![Flt.lit 1, Flt.lit 0, Flt.lit 0])
  vsmul r.1 r.2

theorem qrv_eval (q : Fin 4 → α) (p0 : V3 α) : computeRotationVecFromQuaternion ⟨4, q⟩ ⟨3, p0⟩ = .ok (true, ⟨3, qrvG q⟩) := by
  simp [computeRotationVecFromQuaternion, DVec.get, osimp, qrvG]

/-- the matrix written by `buildQuaternionEquivalent` -/
def qeqG (q : Fin 4 → α) : Matrix (Fin 4) (Fin 4) α :=
  !![q 0, -q 1, -q 2, -q 3; q 1, q 0, -q 3, q 2; q 2, q 3, q 0, -q 1; q 3, -q 2, q 1, q 0]

theorem qeq_eval (q : Fin 4 → α) (Q0 : Matrix (Fin 4) (Fin 4) α) : buildQuaternionEquivalent ⟨4, q⟩ ⟨4, 4, Q0⟩ = .ok (true, ⟨4, 4, qeqG q⟩) := by
  simp [buildQuaternionEquivalent, DVec.get, osimp, qeqG]
end generic

/-! At ℝ. -/

theorem dcmR (q : Fin 4 → ℝ) : dcmG q = (sq4 q)⁻¹ •
    !![q 0 ^ 2 + q 1 ^ 2 - q 2 ^ 2 - q 3 ^ 2, 2 * (q 1 * q 2 + q 0 * q 3), 2 * (q 1 * q 3 - q 0 * q 2);
       2 * (q 1 * q 2 - q 0 * q 3), q 0 ^ 2 - q 1 ^ 2 + q 2 ^ 2 - q 3 ^ 2, 2 * (q 2 * q 3 + q 0 * q 1);
       2 * (q 1 * q 3 + q 0 * q 2), 2 * (q 2 * q 3 - q 0 * q 1), q 0 ^ 2 - q 1 ^ 2 - q 2 ^ 2 + q 3 ^ 2] := by
  have hs : q 0 * q 0 + q 1 * q 1 + q 2 * q 2 + q 3 * q 3 = sq4 q := by simp [sq4]; ring
  ext i j
  fin_cases i <;> fin_cases j <;> simp [dcmG, rsimp, hs, div_eq_inv_mul, -mul_eq_mul_left_iff] <;> ring

theorem sq4_pos {q : Fin 4 → ℝ} (h : q ≠ 0) : 0 < sq4 q := by
  by_contra hn
  apply h
  have h0 := sq_nonneg (q 0); have h1 := sq_nonneg (q 1); have h2 := sq_nonneg (q 2); have h3 := sq_nonneg (q 3)
  simp only [sq4] at hn
  ext i
  fin_cases i <;> simp <;> nlinarith

theorem dcm_isRot {q : Fin 4 → ℝ} (h : q ≠ 0) : IsRot (dcmG q) := by
  have hs := (sq4_pos h).ne'
  rw [dcmR]
  constructor
  · ext i j
    fin_cases i <;> fin_cases j <;> simp [mul_apply, Fin.sum_univ_three] <;> field_simp <;> simp only [sq4] <;> ring
  · simp [det_fin_three]; field_simp; simp only [sq4]; ring

end NavFuse.Attitude
