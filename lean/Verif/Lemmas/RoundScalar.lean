import Verif.Lemmas.RoundKalman
import Verif.Lemmas.RoundZero
import Verif.Model.Solvers

/-! # Rounding errors of a Kalman update with one measurement, with Eigen's 1x1 inverse -/

namespace NavFuse
open Matrix Kalman
variable [Machine] {r : ℝ → ℝ}

/-- Eigen's inverse of a 1x1 matrix is the reciprocal -/
theorem luInverse_one (h : Rounds53 r) (A : Matrix (Fin 1) (Fin 1) (Dbl r)) : luInverse A = of fun _ _ => Flt.lit 1 / A 0 0 := by
  have e1 : (Flt.lit 1 : Dbl r) = .fin 1 := by
    show Dbl.rd r (.fin ((1 : ℚ) : ℝ)) = _
    rw [Rat.cast_one, Dbl.rd_fin] <;> rw [h.one]
    rw [abs_one]; exact one_lt_pow₀ (by norm_num) (by norm_num)
  have e0 : (Flt.lit 0 : Dbl r) = .fin 0 := by
    show Dbl.rd r (.fin ((0 : ℚ) : ℝ)) = _
    rw [Rat.cast_zero, Rz.rd_zero h]
  have e2 : (Flt.lit 1 : Dbl r) - Flt.lit 0 = Flt.lit 1 := by
    rw [e0, e1]
    show Dbl.rd r (XR.fin 1 - XR.fin 0) = _
    rw [XR.fin_sub, sub_zero, Dbl.rd_fin] <;> rw [h.one]
    rw [abs_one]; exact one_lt_pow₀ (by norm_num) (by norm_num)
  ext i j
  rw [Fin.fin_one_eq_zero i, Fin.fin_one_eq_zero j]
  show luSolve A (fun k => if k = 0 then Flt.lit 1 else Flt.lit 0) 0 = _
  have hs : Equiv.swap (0 : Fin 1) (argmax fun i => Flt.abs (A i 0)) 0 = 0 := Subsingleton.elim _ _
  rw [luSolve]
  simp only [Fin.cons_zero, Matrix.of_apply, hs, if_true]
  exact congrArg (· / A 0 0) e2

omit [Machine] in
/-- a weaker bound -/
theorem Rl.le {X : Dbl r} {y M M' : ℝ} {k : ℕ} (a : Rl X y k M) (h : M ≤ M') : Rl X y k M' := by
  obtain ⟨x, e, b⟩ := a.near
  exact ⟨⟨x, e, b.trans (mul_le_mul_of_nonneg_left h (by linarith [one_le_gr k]))⟩, a.mag.trans h⟩

omit [Machine] in
/-- an error relative to a bound that is at most `κ` times the value -/
theorem Rl.rel {X : Dbl r} {y M : ℝ} {k κ : ℕ} (a : Rl X y k M) (h : M ≤ κ * |y|) : Rl X y (κ * k) |y| := by
  obtain ⟨x, e, b⟩ := a.near
  refine ⟨⟨x, e, b.trans ?_⟩, le_rfl⟩
  have h1 : (gr k - 1) * M ≤ (gr k - 1) * (κ * |y|) := mul_le_mul_of_nonneg_left h (by linarith [one_le_gr k])
  refine h1.trans ?_
  rw [← mul_assoc]
  refine mul_le_mul_of_nonneg_right ?_ (abs_nonneg y)
  have h2 := one_add_mul_le_pow (a := gr k - 1) (by linarith [one_le_gr k]) κ
  rw [add_sub_cancel] at h2
  have h3 : gr (κ * k) = gr k ^ κ := by rw [gr, gr, ← pow_mul, mul_comm]
  rw [h3]; linarith

section
variable {n k : ℕ}

theorem gain_rl (h : Rounds53 r) {P : Matrix (Fin n) (Fin n) ℝ} {P' : Matrix (Fin n) (Fin n) (Dbl r)} {H : Matrix (Fin 1) (Fin n) ℝ}
    {R : Matrix (Fin 1) (Fin 1) ℝ} {H' : Matrix (Fin 1) (Fin n) (Dbl r)} {R' : Matrix (Fin 1) (Fin 1) (Dbl r)} {MH : Matrix (Fin 1) (Fin n) ℝ}
    {MR : Matrix (Fin 1) (Fin 1) ℝ} {MP : Matrix (Fin n) (Fin n) ℝ} (hH : MRl H' H 0 MH) (hR : MRl R' R k MR) (hP : MRl P' P 0 MP)
    (fH : ∀ i j, 1e-50 ≤ MH i j) (fR : ∀ i j, 1e-50 ≤ MR i j) (fP : ∀ i j, 1e-50 ≤ MP i j) {κ : ℕ}
    (hS : 1e-50 ≤ (H * P * Hᵀ + R) 0 0) (hκ : (MH * MP * MHᵀ + MR) 0 0 ≤ κ * (H * P * Hᵀ + R) 0 0) (cS : (MH * MP * MHᵀ + MR) 0 0 ≤ 1e100)
    (cPH : ∀ i, (MP * MHᵀ) i 0 ≤ 1e100) (hk : 2 * (κ * (2 * n + 3 + k)) + (n + 4) ≤ 10 ^ 15) :
    MRl (gainC LinSolver.eigen P' H' R') (P * Hᵀ * (H * P * Hᵀ + R)⁻¹) (2 * (κ * (2 * n + 3 + k)) + (n + 4))
      (of fun i _ => max ((MP * MHᵀ) i 0 / (H * P * Hᵀ + R) 0 0) 1e-50) := by
  rcases Nat.eq_zero_or_pos n with rfl | hn
  · exact fun i => i.elim0
  have i0 : Fin n := ⟨0, hn⟩
  have z50 : (0 : ℝ) ≤ 1e-50 := by norm_num
  have pH : ∀ i j, 0 ≤ MH i j := fun i j => z50.trans (fH i j)
  have pHT : ∀ i j, 0 ≤ MHᵀ i j := fun i j => pH j i
  have pR : ∀ i j, 0 ≤ MR i j := fun i j => z50.trans (fR i j)
  have pP : ∀ i j, 0 ≤ MP i j := fun i j => z50.trans (fP i j)
  have big : (1e100 : ℝ) ≤ 1e199 := by norm_num
  set S := (H * P * Hᵀ + R) 0 0 with hSdef
  have pS : 0 < S := lt_of_lt_of_le (by norm_num) hS
  have fHP : ∀ i j, 1e-100 ≤ (MH * MP) i j := fun i j =>
    (floor_mul (fH i i0) (fP i0 j) z50 z50 (by norm_num)).trans (term_le pH pP i i0 j)
  have pHP : ∀ i j, 0 ≤ (MH * MP) i j := fun i j => le_trans (by norm_num) (fHP i j)
  have fPH : ∀ i j, 1e-100 ≤ (MP * MHᵀ) i j := fun i j =>
    (floor_mul (fP i i0) (fH j i0) z50 z50 (by norm_num)).trans (term_le pP pHT i i0 j)
  have pPH : ∀ i j, 0 ≤ (MP * MHᵀ) i j := fun i j => le_trans (by norm_num) (fPH i j)
  have cHPH : ∀ i j, (MH * MP * MHᵀ) i j ≤ 1e100 := fun i j => by
    rw [Fin.fin_one_eq_zero i, Fin.fin_one_eq_zero j]
    have := cS
    rw [Matrix.add_apply] at this
    linarith [pR 0 0]
  have cHP : ∀ i j, (MH * MP) i j ≤ 1e199 := fun i j =>
    cap_of (b := MHᵀ j i) (fH i j) (pHP i j) ((term_le pHP pHT i j i).trans (cHPH i i)) (by norm_num)
  have κ1 : 1 ≤ κ := by
    rcases Nat.eq_zero_or_pos κ with rfl | h1
    · exfalso
      have h2 := cHPH 0 0
      have h3 := (term_le pHP pHT 0 i0 0)
      have h4 := mul_nonneg (pHP 0 i0) (pHT i0 0)
      rw [Matrix.add_apply] at hκ
      push_cast at hκ
      linarith [fR 0 0]
    · exact h1
  have hq : 2 * n + 3 + k ≤ κ * (2 * n + 3 + k) := Nat.le_mul_of_pos_left _ κ1
  generalize hqq : κ * (2 * n + 3 + k) = q at *
  have a1 := hH.mmul h hP (fun i l j => floor_mul (fH i l) (fP l j) z50 z50 (by norm_num)) cHP (by omega)
  have a2 := a1.mmul h hH.tr (fun i l j => floor_mul (fHP i l) (fH j l) (by norm_num) z50 (by norm_num)) (fun i j => (cHPH i j).trans big) (by omega)
  have a3 := (a2.mono (show _ ≤ 2 * n + 2 + k by omega)).madd h (hR.mono (by omega)) (fun i j => ?_) (fun i j => ?_) (by omega)
  · have b1 := hP.mmul h hH.tr (fun i l j => floor_mul (fP i l) (fH j l) z50 z50 (by norm_num))
      (fun i j => by rw [Fin.fin_one_eq_zero j]; exact (cPH i).trans big) (by omega)
    have a4 : Rl (madd (mmul (mmul H' P') (mtr H')) R' 0 0) S q |S| := by
      have := (a3 0 0).rel (κ := κ) (by rw [← hSdef, abs_of_pos pS]; exact hκ)
      rw [← hqq]
      exact this.mono (by rw [show 2 * n + 2 + k + 1 = 2 * n + 3 + k by omega])
    have S2 : S ≤ 1e199 := (le_abs_self S).trans (((a3 0 0).mag.trans cS).trans big)
    have a5 := Rz.inv h ⟨a4, .inl (by rw [abs_of_pos pS]; exact le_trans (by norm_num) hS)⟩ (by rw [abs_of_pos pS]; exact le_trans (by norm_num) hS)
      (by rw [abs_of_pos pS]; exact S2) (by omega)
    rw [abs_of_pos pS] at a5
    have eI : ((H * P * Hᵀ + R)⁻¹ : Matrix (Fin 1) (Fin 1) ℝ) = of fun _ _ => 1 / S := by
      refine inv_eq_right_inv ?_
      ext i j
      rw [Fin.fin_one_eq_zero i, Fin.fin_one_eq_zero j, Matrix.mul_apply, Fin.sum_univ_one]
      show S * (1 / S) = 1
      field_simp
    have a6 : MRl ((LinSolver.eigen : LinSolver (Dbl r)).inv (madd (mmul (mmul H' P') (mtr H')) R')) (H * P * Hᵀ + R)⁻¹ (2 * q + 1) (of fun _ _ => 1 / S) := by
      show MRl (luInverse _) _ _ _
      rw [luInverse_one h, eI]
      exact fun _ _ => a5.rl
    have iS1 : (1e-100 : ℝ) ≤ 1 / S := by
      rw [le_div_iff₀ pS]
      have h1 : S ≤ 1e100 := (le_abs_self S).trans ((a3 0 0).mag.trans cS)
      have := mul_le_mul_of_nonneg_left h1 (by norm_num : (0 : ℝ) ≤ 1e-100)
      exact this.trans (by norm_num)
    have iS2 : 1 / S ≤ 1e50 := by
      rw [div_le_iff₀ pS]
      have := mul_le_mul_of_nonneg_left hS (by norm_num : (0 : ℝ) ≤ 1e50)
      exact le_trans (by norm_num) this
    have a7 := b1.mmul h a6 (fun i l j => floor_mul (fPH i l) iS1 (by norm_num) (by norm_num) (by norm_num)) (fun i j => ?_) (by omega)
    · intro i j
      refine ((a7 i j).mono (by omega)).le ?_
      rw [Matrix.mul_apply, Fin.sum_univ_one]
      show (MP * MHᵀ) i 0 * (1 / S) ≤ _
      rw [mul_one_div]
      exact le_max_left _ _
    · rw [Matrix.mul_apply, Fin.sum_univ_one]
      show (MP * MHᵀ) i 0 * (1 / S) ≤ _
      refine (mul_le_mul (cPH i) iS2 (by positivity) (by norm_num)).trans (by norm_num)
  · rw [Fin.fin_one_eq_zero i, Fin.fin_one_eq_zero j, Matrix.add_apply]
    have h3 := (term_le pHP pHT 0 i0 0)
    have h4 := mul_nonneg (pHP 0 i0) (pHT i0 0)
    have h5 : (1e-250 : ℝ) ≤ 1e-50 := by norm_num
    linarith [fR 0 0]
  · rw [Fin.fin_one_eq_zero i, Fin.fin_one_eq_zero j]; exact cS.trans big

end
end NavFuse
