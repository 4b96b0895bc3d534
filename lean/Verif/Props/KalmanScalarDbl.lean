import Verif.Lemmas.RoundScalar
import Verif.Props.KalmanDbl

/-! # Property C142: a Kalman update with one measurement in double precision, with Eigen's inverse -/

namespace NavFuse.Props
open Matrix Kalman Spec
variable [Machine] {r : ℝ → ℝ} {n : ℕ}

/-- bound of the gains: `|P| |H|ᵀ / S` -/
noncomputable def gainBd (MP : Matrix (Fin n) (Fin n) ℝ) (MH : Matrix (Fin 1) (Fin n) ℝ) (S : ℝ) : Matrix (Fin n) (Fin 1) ℝ :=
  of fun i _ => max ((MP * MHᵀ) i 0 / S) 1e-50

theorem scalar_rl (h : Rounds53 r) {k : ℕ} {P : Matrix (Fin n) (Fin n) ℝ} {x : Fin n → ℝ} {H : Matrix (Fin 1) (Fin n) ℝ} {z : Fin 1 → ℝ}
    {R : Matrix (Fin 1) (Fin 1) ℝ} {MP : Matrix (Fin n) (Fin n) ℝ} {Mx : Fin n → ℝ} {MH : Matrix (Fin 1) (Fin n) ℝ} {Mz : Fin 1 → ℝ}
    {MR : Matrix (Fin 1) (Fin 1) ℝ} {P' : Matrix (Fin n) (Fin n) (Dbl r)} {x' : Fin n → Dbl r} {H' : Matrix (Fin 1) (Fin n) (Dbl r)} {z' : Fin 1 → Dbl r}
    {R' : Matrix (Fin 1) (Fin 1) (Dbl r)} (hP : MRl P' P 0 MP) (hx : VRl x' x 0 Mx) (hH : MRl H' H 0 MH) (hz : VRl z' z k Mz) (hR : MRl R' R k MR)
    (fP : ∀ i j, 1e-50 ≤ MP i j) (fx : ∀ i, 1e-50 ≤ Mx i) (fH : ∀ i j, 1e-50 ≤ MH i j) (fz : ∀ i, 1e-50 ≤ Mz i) (fR : ∀ i j, 1e-50 ≤ MR i j) {κ : ℕ}
    (hS : 1e-50 ≤ (H * P * Hᵀ + R) 0 0) (hκ : (MH * MP * MHᵀ + MR) 0 0 ≤ κ * (H * P * Hᵀ + R) 0 0) (cS : (MH * MP * MHᵀ + MR) 0 0 ≤ 1e100)
    (cPH : ∀ i, (MP * MHᵀ) i 0 ≤ 1e100)
    (cx : ∀ i, (Mx + gainBd MP MH ((H * P * Hᵀ + R) 0 0) *ᵥ (Mz + MH *ᵥ Mx)) i ≤ 1e100)
    (cP : ∀ i j, ((1 + gainBd MP MH ((H * P * Hᵀ + R) 0 0) * MH) * MP * (1 + gainBd MP MH ((H * P * Hᵀ + R) 0 0) * MH)ᵀ
      + gainBd MP MH ((H * P * Hᵀ + R) 0 0) * MR * (gainBd MP MH ((H * P * Hᵀ + R) 0 0))ᵀ : Matrix (Fin n) (Fin n) ℝ) i j ≤ 1e100)
    (hk : 3 * (2 * (κ * (2 * n + 3 + k)) + (n + 4 + k)) + (2 * n + 9) ≤ 10 ^ 15) (xo : Fin n → Dbl r) (Po : Matrix (Fin n) (Fin n) (Dbl r)) :
    ∃ (y : Fin n → ℝ) (Y : Matrix (Fin n) (Fin n) ℝ),
      filterUpdate LinSolver.eigen ⟨n, x'⟩ ⟨n, n, P'⟩ ⟨1, z'⟩ ⟨1, n, H'⟩ ⟨1, 1, R'⟩ ⟨n, xo⟩ ⟨n, n, Po⟩ = .ok (true, ⟨n, dV y⟩, ⟨n, n, dM Y⟩)
      ∧ (let K := P * Hᵀ * (H * P * Hᵀ + R)⁻¹
         let MK := gainBd MP MH ((H * P * Hᵀ + R) 0 0)
         (∀ i, |y i - (x + K *ᵥ (z - H *ᵥ x)) i| ≤ (3 * (2 * (κ * (2 * n + 3 + k)) + (n + 4 + k)) + (2 * n + 9) : ℕ) / 2 ^ 51 * (Mx + MK *ᵥ (Mz + MH *ᵥ Mx)) i)
         ∧ ∀ i j, |Y i j - ((1 - K * H) * P * (1 - K * H)ᵀ + K * R * Kᵀ : Matrix (Fin n) (Fin n) ℝ) i j| ≤ (3 * (2 * (κ * (2 * n + 3 + k)) + (n + 4 + k)) + (2 * n + 9) : ℕ) / 2 ^ 51
            * ((1 + MK * MH) * MP * (1 + MK * MH)ᵀ + MK * MR * MKᵀ : Matrix (Fin n) (Fin n) ℝ) i j) := by
  have hK := gain_rl h hH hR hP fH fR fP hS hκ cS cPH (by omega)
  have hgr := gr_le hk
  generalize hq : κ * (2 * n + 3 + k) = q at *
  obtain ⟨a, b⟩ := update_rl' h (k := 0) (k' := 2 * q + (n + 4 + k)) one_pos hH (hR.mono (by omega)) (hz.mono (by omega)) (hK.mono (by omega)) hx hP fH fR fz
    (fun i j => le_max_right _ _) fx fP cx cP (by omega)
  rw [show 0 + 3 * (2 * q + (n + 4 + k)) + (2 * 1 + 2 * n + 7) = 3 * (2 * q + (n + 4 + k)) + (2 * n + 9) by omega] at a b
  choose v ev hv using fun i => (a i).near
  choose V eV hV using fun i j => (b i j).near
  refine ⟨v, of V, ?_, fun i => (hv i).trans ?_, fun i j => (hV i j).trans ?_⟩
  · rw [update_fit]
    congr 3
    · congr 1
      exact funext ev
    · congr 1
      ext i j; exact eV i j
  · exact mul_le_mul_of_nonneg_right (by linarith) (a i).M_nonneg
  · exact mul_le_mul_of_nonneg_right (by linarith) (b i j).M_nonneg

/-- roundings on the longest path through an update with one measurement of condition `κ` -/
def scalarCost (n κ : ℕ) : ℕ := 3 * (2 * (κ * (2 * n + 3)) + (n + 4)) + (2 * n + 9)

/-- C142. One measurement, with the inverse as Eigen computes it (no assumption on gains): let the innovation variance `S = H P Hᵀ + R` be positive and not the result of
cancellation, that is `|H| |P| |H|ᵀ + R ≤ κ S` (`κ = 2` covers any measurement of a single state), and let the magnitudes be below 10¹⁰⁰. Then `filterUpdate` on doubles succeeds in every
rounding mode and order of summation, all numbers are finite, and estimate and covariance differ from those of the exact Kalman update by at most `scalarCost n κ / 2⁵¹`,
relative to the magnitudes. -/
theorem C142_scalar_update (h : Rounds53 r) (P : Matrix (Fin n) (Fin n) ℝ) (x : Fin n → ℝ) (H : Matrix (Fin 1) (Fin n) ℝ) (z : Fin 1 → ℝ)
    (R : Matrix (Fin 1) (Fin 1) ℝ) (κ : ℕ) (hS : 1e-50 ≤ (H * P * Hᵀ + R) 0 0)
    (hκ : (mgM H * mgM P * (mgM H)ᵀ + mgM R) 0 0 ≤ κ * (H * P * Hᵀ + R) 0 0) (cS : (mgM H * mgM P * (mgM H)ᵀ + mgM R) 0 0 ≤ 1e100)
    (cPH : ∀ i, (mgM P * (mgM H)ᵀ) i 0 ≤ 1e100) (MK : Matrix (Fin n) (Fin 1) ℝ)
    (hMK : MK = of fun i _ => max ((mgM P * (mgM H)ᵀ) i 0 / (H * P * Hᵀ + R) 0 0) 1e-50)
    (cx : ∀ i, (mgV x + MK *ᵥ (mgV z + mgM H *ᵥ mgV x)) i ≤ 1e100)
    (cP : ∀ i j, ((1 + MK * mgM H) * mgM P * (1 + MK * mgM H)ᵀ + MK * mgM R * MKᵀ : Matrix (Fin n) (Fin n) ℝ) i j ≤ 1e100)
    (hk : scalarCost n κ ≤ 10 ^ 15) (xo : Fin n → Dbl r) (Po : Matrix (Fin n) (Fin n) (Dbl r)) (L : LinSolver ℝ) (hL : L.Correct) (xo' : Fin n → ℝ)
    (Po' : Matrix (Fin n) (Fin n) ℝ) :
    ∃ (y y' : Fin n → ℝ) (Y Y' : Matrix (Fin n) (Fin n) ℝ),
      filterUpdate (α := Dbl r) LinSolver.eigen ⟨n, dV x⟩ ⟨n, n, dM P⟩ ⟨1, dV z⟩ ⟨1, n, dM H⟩ ⟨1, 1, dM R⟩ ⟨n, xo⟩ ⟨n, n, Po⟩
        = .ok (true, ⟨n, dV y⟩, ⟨n, n, dM Y⟩)
      ∧ filterUpdate L ⟨n, x⟩ ⟨n, n, P⟩ ⟨1, z⟩ ⟨1, n, H⟩ ⟨1, 1, R⟩ ⟨n, xo'⟩ ⟨n, n, Po'⟩ = .ok (true, ⟨n, y'⟩, ⟨n, n, Y'⟩)
      ∧ (∀ i, |y i - y' i| ≤ scalarCost n κ / 2 ^ 51 * (mgV x + MK *ᵥ (mgV z + mgM H *ᵥ mgV x)) i)
      ∧ ∀ i j, |Y i j - Y' i j| ≤ scalarCost n κ / 2 ^ 51 * ((1 + MK * mgM H) * mgM P * (1 + MK * mgM H)ᵀ + MK * mgM R * MKᵀ : Matrix (Fin n) (Fin n) ℝ) i j := by
  subst hMK
  obtain ⟨y, Y, e, a, b⟩ := scalar_rl h (k := 0) (dM_rl P) (dV_rl x) (dM_rl H) (dV_rl z) (dM_rl R) (mgM_floor P) (mgV_floor x) (mgM_floor H) (mgV_floor z)
    (mgM_floor R) hS hκ cS cPH cx cP hk xo Po
  have hd : IsUnit (H * P * Hᵀ + R).det := by
    rw [det_fin_one, isUnit_iff_ne_zero]
    exact (lt_of_lt_of_le (by norm_num) hS).ne'
  refine ⟨y, _, Y, _, e, ?_, a, b⟩
  rw [update_fit]
  have eg : gainC L P H R = P * Hᵀ * (H * P * Hᵀ + R)⁻¹ := by
    simp only [gainC, rsimp]
    rw [hL.inv_eq _ hd]
  rw [eg]
  simp only [rsimp]

omit [Machine] in
/-- two states with variances 4 and 9 and covariance 1, the sum measured with variance 2: `S = 17`, no cancellation -/
example : let P : Matrix (Fin 2) (Fin 2) ℝ := !![4, 1; 1, 9]; let H : Matrix (Fin 1) (Fin 2) ℝ := !![1, 1]; let R : Matrix (Fin 1) (Fin 1) ℝ := !![2]
    let x : Fin 2 → ℝ := ![1, -2]; let z : Fin 1 → ℝ := ![3]
    let MK : Matrix (Fin 2) (Fin 1) ℝ := of fun i _ => max ((mgM P * (mgM H)ᵀ) i 0 / (H * P * Hᵀ + R) 0 0) 1e-50
    1e-50 ≤ (H * P * Hᵀ + R) 0 0 ∧ (mgM H * mgM P * (mgM H)ᵀ + mgM R) 0 0 ≤ ((1 : ℕ) : ℝ) * (H * P * Hᵀ + R) 0 0
      ∧ (mgM H * mgM P * (mgM H)ᵀ + mgM R) 0 0 ≤ 1e100 ∧ (∀ i, (mgM P * (mgM H)ᵀ) i 0 ≤ 1e100) ∧ (∀ i, (mgV x + MK *ᵥ (mgV z + mgM H *ᵥ mgV x)) i ≤ 1e100)
      ∧ (∀ i j, ((1 + MK * mgM H) * mgM P * (1 + MK * mgM H)ᵀ + MK * mgM R * MKᵀ : Matrix (Fin 2) (Fin 2) ℝ) i j ≤ 1e100) ∧ scalarCost 2 1 ≤ 10 ^ 15 := by
  have e1 : mgM (!![4, 1; 1, 9] : Matrix (Fin 2) (Fin 2) ℝ) = !![4, 1; 1, 9] := by
    ext i j; fin_cases i <;> fin_cases j <;> norm_num [mgM]
  have e2 : mgM (!![1, 1] : Matrix (Fin 1) (Fin 2) ℝ) = !![1, 1] := by
    ext i j; fin_cases i; fin_cases j <;> norm_num [mgM]
  have e3 : mgM (!![2] : Matrix (Fin 1) (Fin 1) ℝ) = !![2] := by
    ext i j; fin_cases i; fin_cases j; norm_num [mgM]
  have e4 : mgV (![1, -2] : Fin 2 → ℝ) = ![1, 2] := by
    ext i; fin_cases i <;> norm_num [mgV]
  have e5 : mgV (![3] : Fin 1 → ℝ) = ![3] := by
    ext i; fin_cases i; norm_num [mgV]
  have e6 : (!![4, 1; 1, 9] : Matrix (Fin 2) (Fin 2) ℝ) * (!![1, 1] : Matrix (Fin 1) (Fin 2) ℝ)ᵀ = !![5; 10] := by
    ext i j; fin_cases i <;> fin_cases j <;> norm_num [Matrix.mul_apply, Fin.sum_univ_two]
  have e7 : (!![1, 1] : Matrix (Fin 1) (Fin 2) ℝ) * (!![4, 1; 1, 9] : Matrix (Fin 2) (Fin 2) ℝ) * (!![1, 1] : Matrix (Fin 1) (Fin 2) ℝ)ᵀ
      + (!![2] : Matrix (Fin 1) (Fin 1) ℝ) = !![17] := by
    rw [Matrix.mul_assoc, e6]
    ext i j; fin_cases i; fin_cases j; norm_num [Matrix.mul_apply, Fin.sum_univ_two]
  have e8 : (of fun i _ => max ((!![5; 10] : Matrix (Fin 2) (Fin 1) ℝ) i 0 / (!![17] : Matrix (Fin 1) (Fin 1) ℝ) 0 0) 1e-50 : Matrix (Fin 2) (Fin 1) ℝ)
      = !![5 / 17; 10 / 17] := by
    ext i j; fin_cases i <;> fin_cases j <;> norm_num
  have e9 : (1 + (!![5 / 17; 10 / 17] : Matrix (Fin 2) (Fin 1) ℝ) * (!![1, 1] : Matrix (Fin 1) (Fin 2) ℝ) : Matrix (Fin 2) (Fin 2) ℝ) = !![22 / 17, 5 / 17; 10 / 17, 27 / 17] := by
    ext i j; fin_cases i <;> fin_cases j <;> norm_num [Matrix.mul_apply, Matrix.one_apply]
  simp only [e1, e2, e3, e4, e5, e6, e7, e8, e9]
  refine ⟨?_, ?_, ?_, fun i => ?_, fun i => ?_, fun i j => ?_, by decide⟩
  · norm_num
  · norm_num
  · norm_num
  · fin_cases i <;> norm_num
  · fin_cases i <;> norm_num [Matrix.mulVec, dotProduct, Fin.sum_univ_two, vecHead, vecTail]
  · fin_cases i <;> fin_cases j <;> norm_num [Matrix.mul_apply, Matrix.vecMul, dotProduct, Fin.sum_univ_two]

end NavFuse.Props
