import Verif.Props.CompensatorExact
import Mathlib.LinearAlgebra.Matrix.NonsingularInverse
import Mathlib.LinearAlgebra.Matrix.ToLinearEquiv
import Mathlib.Tactic.LinearCombination
import Mathlib.Tactic.Positivity
import Mathlib.Tactic.Linarith

/-! # Property C192: what a calibration can find out -/

namespace NavFuse.Props.Comp
open Matrix NavFuse.Compensator NavFuse.XR

/-- the accelerometer was calibrated with these finite errors -/
def AccelHas (s : St XR) (b : V3 ℝ) (m : Fin 6 → ℝ) (sf : V3 ℝ) : Prop := s.ba = some (finV b) ∧ s.ma = ⟨6, finV m⟩ ∧ s.sfa = some (finV sf)
/-- the gyroscope was calibrated with these finite errors -/
def GyroHas (s : St XR) (b : V3 ℝ) (m : Fin 6 → ℝ) (sf : V3 ℝ) : Prop := s.bg = some (finV b) ∧ s.mg = ⟨6, finV m⟩ ∧ s.sfg = some (finV sf)

/-- the rows of the error model give the errors back -/
theorem errModel_inj {m m' : Fin 6 → ℝ} {sf sf' : V3 ℝ} (hM : (errModel m sf).det ≠ 0) (h : errModel m sf = errModel m' sf') : m = m' ∧ sf = sf' := by
  have hs : ∀ i, sf i ≠ 0 := fun i h0 => hM (by
    rw [errModel, det_mul, det_diagonal, Finset.prod_eq_zero (Finset.mem_univ i) h0, zero_mul])
  have e : ∀ i j, errModel m sf i j = errModel m' sf' i j := fun i j => by rw [h]
  simp only [errModel, diagonal_mul] at e
  have hsf : sf = sf' := by
    funext i
    have := e i i
    fin_cases i <;> simpa using this
  subst hsf
  refine ⟨?_, rfl⟩
  have e' : ∀ i j, (!![1, m 0, m 1; m 2, 1, m 3; m 4, m 5, 1] : M3 ℝ) i j = (!![1, m' 0, m' 1; m' 2, 1, m' 3; m' 4, m' 5, 1] : M3 ℝ) i j :=
    fun i j => mul_left_cancel₀ (hs i) (e i j)
  funext k
  fin_cases k
  · exact e' 0 1
  · exact e' 0 2
  · exact e' 1 0
  · exact e' 1 2
  · exact e' 2 0
  · exact e' 2 1

/-- two compensations that agree on four readings in general position are the same -/
theorem same_errors {b b' : V3 ℝ} {m m' : Fin 6 → ℝ} {sf sf' : V3 ℝ} (hM : (errModel m sf).det ≠ 0) {x : Fin 4 → V3 ℝ}
    (hx : (Matrix.of fun i : Fin 3 => x i.succ - x 0).det ≠ 0) (h : ∀ k, errModel m sf *ᵥ (x k - b) = errModel m' sf' *ᵥ (x k - b')) : b = b' ∧ m = m' ∧ sf = sf' := by
  have d : ∀ i : Fin 3, (errModel m sf - errModel m' sf') *ᵥ (x i.succ - x 0) = 0 := fun i => by
    have h1 := h i.succ
    have h0 := h 0
    simp only [mulVec_sub, sub_mulVec] at h1 h0 ⊢
    funext j
    have h1 := congrFun h1 j
    have h0 := congrFun h0 j
    simp only [Pi.sub_apply, Pi.zero_apply] at h1 h0 ⊢
    linarith
  have z : (errModel m sf - errModel m' sf') * (Matrix.of fun i : Fin 3 => x i.succ - x 0)ᵀ = 0 := by
    ext j i; exact congrFun (d i) j
  have u : IsUnit (Matrix.of fun i : Fin 3 => x i.succ - x 0)ᵀ.det := by rw [det_transpose]; exact isUnit_iff_ne_zero.2 hx
  have hD : errModel m sf = errModel m' sf' := by
    rw [← sub_eq_zero]
    calc _ = (errModel m sf - errModel m' sf') * ((Matrix.of fun i : Fin 3 => x i.succ - x 0)ᵀ * ((Matrix.of fun i : Fin 3 => x i.succ - x 0)ᵀ)⁻¹) := by
          rw [mul_nonsing_inv _ u, Matrix.mul_one]
      _ = 0 := by rw [← Matrix.mul_assoc, z, Matrix.zero_mul]
  refine ⟨?_, errModel_inj hM hD⟩
  have h0 := h 0
  rw [← hD] at h0
  have := mulVec_injective_of_isUnit ((isUnit_iff_isUnit_det _).2 (isUnit_iff_ne_zero.2 hM)) h0
  exact sub_right_injective this

/-- C192: if two calibrated compensators give the same values for four readings in general position (no plane contains all four) then their bias, misalignments and scale factors are
the same, so they give the same values for every reading. Only the first must be one that can be undone. -/
theorem C192_four_readings (s s' : St XR) (b b' : V3 ℝ) (m m' : Fin 6 → ℝ) (sf sf' : V3 ℝ) (hM : (errModel m sf).det ≠ 0) (x : Fin 4 → V3 ℝ)
    (hx : (Matrix.of fun i : Fin 3 => x i.succ - x 0).det ≠ 0) :
    (AccelHas s b m sf → AccelHas s' b' m' sf' → (∀ k, compensateAccelerometer s (finV (x k)) = compensateAccelerometer s' (finV (x k))) → b = b' ∧ m = m' ∧ sf = sf')
    ∧ (GyroHas s b m sf → GyroHas s' b' m' sf' → (∀ k, compensateGyroscope s (finV (x k)) = compensateGyroscope s' (finV (x k))) → b = b' ∧ m = m' ∧ sf = sf') := by
  refine ⟨fun ⟨h1, h2, h3⟩ ⟨g1, g2, g3⟩ h => same_errors hM hx fun k => ?_, fun ⟨h1, h2, h3⟩ ⟨g1, g2, g3⟩ h => same_errors hM hx fun k => ?_⟩
  · have := h k
    rw [accel_eval s _ _ _ _ h1 h2 h3, accel_eval s' _ _ _ _ g1 g2 g3, comp_X, comp_X] at this
    exact finV_injective (Prod.ext_iff.1 (Except.ok.inj this)).2
  · have := h k
    rw [gyro_eval s _ _ _ _ h1 h2 h3, gyro_eval s' _ _ _ _ g1 g2 g3, comp_X, comp_X] at this
    exact finV_injective (Prod.ext_iff.1 (Except.ok.inj this)).2

/-- every matrix without zeros on its diagonal is an error model -/
theorem errModel_surj (A : M3 ℝ) (h : ∀ i, A i i ≠ 0) : ∃ m sf, errModel m sf = A := by
  refine ⟨![A 0 1 / A 0 0, A 0 2 / A 0 0, A 1 0 / A 1 1, A 1 2 / A 1 1, A 2 0 / A 2 2, A 2 1 / A 2 2], fun i => A i i, ?_⟩
  have h0 := h 0
  have h1 := h 1
  have h2 := h 2
  ext i j
  rw [errModel, diagonal_mul]
  fin_cases i <;> fin_cases j <;> simp <;> field_simp

/-- C192: three readings are not enough, however they are chosen: next to the compensator without errors there is another one, with different misalignments or scale factors, that can
be undone as well and gives the same values for all three. -/
theorem C192_three_not_enough (x : Fin 3 → V3 ℝ) :
    ∃ b' m' sf', (errModel m' sf').det ≠ 0 ∧ errModel m' sf' ≠ errModel 0 1 ∧
      ∀ s s' : St XR, (AccelHas s 0 0 1 → AccelHas s' b' m' sf' → ∀ k, compensateAccelerometer s (finV (x k)) = compensateAccelerometer s' (finV (x k)))
        ∧ (GyroHas s 0 0 1 → GyroHas s' b' m' sf' → ∀ k, compensateGyroscope s (finV (x k)) = compensateGyroscope s' (finV (x k))) := by
  have e1 : errModel 0 1 = 1 := by
    ext i j; rw [errModel, diagonal_mul]; fin_cases i <;> fin_cases j <;> simp
  obtain ⟨n, hn, hn0⟩ := exists_mulVec_eq_zero_iff.2 (show (Matrix.of ![x 1 - x 0, x 2 - x 0, 0] : M3 ℝ).det = 0 from det_eq_zero_of_row_eq_zero 2 fun j => rfl)
  have n1 : (x 1 - x 0) ⬝ᵥ n = 0 := congrFun hn0 0
  have n2 : (x 2 - x 0) ⬝ᵥ n = 0 := congrFun hn0 1
  have hnn : 0 < n ⬝ᵥ n := lt_of_le_of_ne (Finset.sum_nonneg fun k _ => mul_self_nonneg _) (Ne.symm fun h0 => hn (dotProduct_self_eq_zero.1 h0))
  have hd : (1 + vecMulVec n n : M3 ℝ).det ≠ 0 := by
    rw [det_fin_three]
    simp only [Matrix.add_apply, vecMulVec_apply, one_apply_eq, ne_eq, Fin.reduceEq, not_false_eq_true, one_apply_ne, zero_ne_one, one_ne_zero, Fin.isValue]
    simp only [dotProduct, Fin.sum_univ_three] at hnn
    nlinarith
  obtain ⟨m', sf', hA⟩ := errModel_surj (1 + vecMulVec n n) fun i => by
    simp only [Matrix.add_apply, one_apply_eq, vecMulVec_apply]; nlinarith [mul_self_nonneg (n i)]
  have key : ∀ k, errModel 0 1 *ᵥ (x k - 0) = errModel m' sf' *ᵥ (x k - (x 0 - (1 + vecMulVec n n : M3 ℝ)⁻¹ *ᵥ x 0)) := fun k => by
    have hk : (x k - x 0) ⬝ᵥ n = 0 := by
      fin_cases k
      · simp
      · exact n1
      · exact n2
    have : x k - (x 0 - (1 + vecMulVec n n : M3 ℝ)⁻¹ *ᵥ x 0) = (x k - x 0) + (1 + vecMulVec n n : M3 ℝ)⁻¹ *ᵥ x 0 := by abel
    rw [e1, hA, this, mulVec_add, mulVec_mulVec, mul_nonsing_inv _ (isUnit_iff_ne_zero.2 hd), add_mulVec, vecMulVec_mulVec, dotProduct_comm, hk]
    simp
  refine ⟨x 0 - (1 + vecMulVec n n : M3 ℝ)⁻¹ *ᵥ x 0, m', sf', hA ▸ hd, fun h => ?_, fun s s' => ⟨fun ⟨h1, h2, h3⟩ ⟨g1, g2, g3⟩ k => ?_, fun ⟨h1, h2, h3⟩ ⟨g1, g2, g3⟩ k => ?_⟩⟩
  · rw [hA, e1, add_eq_left] at h
    refine hnn.ne' ?_
    have : ∀ i, n i * n i = 0 := fun i => by have := congrFun (congrFun h i) i; simpa [vecMulVec_apply] using this
    simp [dotProduct, this]
  · rw [accel_eval s _ _ _ _ h1 h2 h3, accel_eval s' _ _ _ _ g1 g2 g3, comp_X, comp_X, key]
  · rw [gyro_eval s _ _ _ _ h1 h2 h3, gyro_eval s' _ _ _ _ g1 g2 g3, comp_X, comp_X, key]

/-- rest and the three axes are four readings in general position -/
example : (Matrix.of fun i : Fin 3 => (![0, ![1, 0, 0], ![0, 1, 0], ![0, 0, 1]] : Fin 4 → V3 ℝ) i.succ - (![0, ![1, 0, 0], ![0, 1, 0], ![0, 0, 1]] : Fin 4 → V3 ℝ) 0).det ≠ 0 := by
  simp [det_fin_three]

/-- a compensator that holds given errors -/
example : ∃ s : St XR, AccelHas s 0 0 1 ∧ GyroHas s 0 0 1 := ⟨⟨some (finV 0), ⟨6, finV 0⟩, some (finV 1), some (finV 0), ⟨6, finV 0⟩, some (finV 1)⟩, ⟨rfl, rfl, rfl⟩, rfl, rfl, rfl⟩

end NavFuse.Props.Comp
