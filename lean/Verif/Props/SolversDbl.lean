import Verif.Lemmas.RoundLu
import Verif.Props.KalmanDbl
import Mathlib.LinearAlgebra.Matrix.Gershgorin

/-! # The matrix inverse in double precision

Eigen's `inverse()` (LU with partial pivoting), run on doubles with rounding, overflow, infinities and NaN. -/

namespace NavFuse.Props
open Matrix
variable [Machine] {r : ℝ → ℝ} {n : ℕ}

/-- relative size of the residual of an `n × n` system: `16 · 2ⁿ` units of `2⁻⁵²`, growing with the worst growth of the pivots -/
noncomputable def luTol (n : ℕ) : ℝ := 16 * 2 ^ n / 2 ^ 52

/-- a scale that is neither too small nor too large for doubles -/
def Moderate (M : ℝ) : Prop := 1e-40 ≤ M ∧ M ≤ 1e40

omit [Machine] in
theorem luK_le (hn : n ≤ 100) : luK n * ulp ≤ luTol n := by
  have h1 := gr_le (k := 2 * n) (by omega)
  have h2 : ((2 * n : ℕ) : ℝ) / 2 ^ 51 ≤ 1 / 15 := by
    have : ((2 * n : ℕ) : ℝ) ≤ 200 := by exact_mod_cast (by omega : 2 * n ≤ 200)
    refine (div_le_div_of_nonneg_right this (by positivity)).trans (by norm_num)
  have h3 : (0 : ℝ) < 2 ^ n := by positivity
  have h4 : luK n ≤ 16 * 2 ^ n := by
    unfold luK
    have h5 := luK_base n
    have h6 : (15 * 2 ^ n - 2 * n - 15 : ℝ) * gr (2 * n) ≤ (15 * 2 ^ n - 2 * n - 15) * (16 / 15) := mul_le_mul_of_nonneg_left (by linarith) h5
    have : (0 : ℝ) ≤ n := Nat.cast_nonneg n
    linarith
  unfold luTol ulp
  rw [div_eq_mul_one_div (16 * 2 ^ n : ℝ)]
  exact mul_le_mul_of_nonneg_right h4 (by positivity)

omit [Machine] in
theorem growth_le_small (hn : n ≤ 30) : (2 * gr 2) ^ n ≤ 1e10 := by
  have h1 : (2 * gr 2) ^ n = 2 ^ n * gr (2 * n) := by rw [mul_pow]; congr 1; rw [gr, gr, ← pow_mul]
  have h2 : (2 : ℝ) ^ n ≤ 2 ^ 30 := pow_le_pow_right₀ (by norm_num) hn
  have h3 := gr_le_two (k := 2 * n) (by omega)
  rw [h1]
  refine (mul_le_mul h2 h3 (by linarith [one_le_gr (2 * n)]) (by positivity)).trans (by norm_num)

omit [Machine] in
theorem growth_le (hn : n ≤ 100) : (2 * gr 2) ^ n ≤ 1e31 := by
  have h1 : (2 * gr 2) ^ n = 2 ^ n * gr (2 * n) := by rw [mul_pow]; congr 1; rw [gr, gr, ← pow_mul]
  have h2 : (2 : ℝ) ^ n ≤ 2 ^ 100 := pow_le_pow_right₀ (by norm_num) hn
  have h3 := gr_le_two (k := 2 * n) (by omega)
  rw [h1]
  refine (mul_le_mul h2 h3 (by linarith [one_le_gr (2 * n)]) (by positivity)).trans (by norm_num)

/-- C147: when the LU solver returns finite values on an `n × n` system of doubles, they satisfy the system to within `luTol n` times the size of its
terms, whatever the condition of the matrix. -/
theorem C147_solve (h : Rounds53 r) (A : Matrix (Fin n) (Fin n) ℝ) (b x : Fin n → ℝ) {m β X : ℝ} (hn : n ≤ 100)
    (hm : Moderate m) (hβ : Moderate β) (hX : Moderate X) (Am : ∀ i j, |A i j| ≤ m) (bβ : ∀ i, |b i| ≤ β) (xX : ∀ i, |x i| ≤ X)
    (e : luSolve (dM A : Matrix _ _ (Dbl r)) (dV b) = dV x) (i : Fin n) : |b i - (A *ᵥ x) i| ≤ luTol n * (β + n * (m * X)) := by
  have g := growth_le hn
  have g0 : 0 ≤ (2 * gr 2) ^ n := pow_nonneg (by linarith [one_le_gr 2]) n
  have m0 : 0 ≤ m := le_trans (by norm_num) hm.1
  have b0 : 0 ≤ β := le_trans (by norm_num) hβ.1
  have x0 : 0 ≤ X := le_trans (by norm_num) hX.1
  have k := luSolve_residual h A b x Am bβ xX hn (le_trans (by norm_num) hm.1)
    ((mul_le_mul hm.2 g g0 (by norm_num)).trans (by norm_num)) (le_trans (by norm_num) hβ.1)
    ((mul_le_mul hβ.2 g g0 (by norm_num)).trans (by norm_num)) (le_trans (by norm_num) hX.1) (hX.2.trans (by norm_num)) e i
  exact k.trans (mul_le_mul_of_nonneg_right (luK_le hn) (by positivity))

theorem unit_D (h : Rounds53 r) (j : Fin n) :
    (fun k => if k = j then Flt.lit 1 else Flt.lit 0 : Fin n → Dbl r) = dV fun k => (1 : Matrix (Fin n) (Fin n) ℝ) k j := by
  have e0 : (Flt.lit 0 : Dbl r) = .fin 0 := by
    obtain ⟨z, hz, hz'⟩ := (Rl.zero h).near
    rw [hz]; congr 1; simpa [gr] using hz'
  have e1 : (Flt.lit 1 : Dbl r) = .fin 1 := by
    obtain ⟨z, hz, hz'⟩ := (Rl.one h).near
    rw [hz]; congr 1; simpa [gr, sub_eq_zero] using hz'
  funext k
  simp only [dV, one_apply]
  split_ifs
  · exact e1
  · exact e0

/-- C147: a finite computed inverse `Y` satisfies `A Y = I` to within `luTol n` times the size of the terms. -/
theorem C147_inverse (h : Rounds53 r) (A Y : Matrix (Fin n) (Fin n) ℝ) {m X : ℝ} (hn : n ≤ 100) (hm : Moderate m) (hX : Moderate X)
    (Am : ∀ i j, |A i j| ≤ m) (YX : ∀ i j, |Y i j| ≤ X) (e : luInverse (dM A : Matrix _ _ (Dbl r)) = dM Y) (i j : Fin n) :
    |(A * Y) i j - (1 : Matrix (Fin n) (Fin n) ℝ) i j| ≤ luTol n * (1 + n * (m * X)) := by
  have eb := unit_D (n := n) h j
  have ex : luSolve (dM A : Matrix _ _ (Dbl r)) (dV fun k => (1 : Matrix (Fin n) (Fin n) ℝ) k j) = dV fun k => Y k j := by
    funext k
    rw [← eb]
    exact congrFun (congrFun e k) j
  have := C147_solve h A _ _ hn hm (by constructor <;> norm_num : Moderate 1) hX Am
    (fun k => by rw [one_apply]; split_ifs <;> simp) (fun k => YX k j) ex i
  rw [abs_sub_comm] at this
  exact this

/-- C147: a computed inverse that is not too large proves that the matrix is invertible; in particular the computed inverse of a singular matrix has an
entry that is infinite, NaN, or of the order of `2⁴⁸ / (2ⁿ n² m)`. -/
theorem C147_regular (h : Rounds53 r) (A Y : Matrix (Fin n) (Fin n) ℝ) {m X : ℝ} (hn : n ≤ 100) (hm : Moderate m) (hX : Moderate X)
    (Am : ∀ i j, |A i j| ≤ m) (YX : ∀ i j, |Y i j| ≤ X) (e : luInverse (dM A : Matrix _ _ (Dbl r)) = dM Y)
    (small : n * (luTol n * (1 + n * (m * X))) < 1) : IsUnit A.det := by
  have d := C147_inverse h A Y hn hm hX Am YX e
  set ε := luTol n * (1 + n * (m * X))
  have key : (A * Y).det ≠ 0 := by
    refine det_ne_zero_of_sum_row_lt_diag fun k => ?_
    have d1 := d k k
    rw [one_apply_eq] at d1
    have d2 : 1 - ε ≤ |(A * Y) k k| := by
      have := abs_sub_abs_le_abs_sub 1 ((A * Y) k k)
      rw [abs_one, abs_sub_comm] at this
      linarith
    simp only [Real.norm_eq_abs]
    refine lt_of_le_of_lt (Finset.sum_le_card_nsmul _ _ ε fun j hj => ?_) (lt_of_lt_of_le ?_ d2)
    · have := d k j
      rwa [one_apply_ne (Finset.ne_of_mem_erase hj).symm, sub_zero] at this
    · rw [Finset.card_erase_of_mem (Finset.mem_univ k), Finset.card_univ, Fintype.card_fin, nsmul_eq_mul]
      have : 1 ≤ n := by have := k.2; omega
      rw [Nat.cast_sub this]
      push_cast
      linarith
  rw [det_mul] at key
  exact isUnit_iff_ne_zero.2 (left_ne_zero_of_mul key)

/-- C147: the distance of a finite computed inverse from the exact one, in proportion to the entries `B` of the exact inverse -/
theorem C147_forward (h : Rounds53 r) (A Y : Matrix (Fin n) (Fin n) ℝ) {m X B : ℝ} (hn : n ≤ 100) (hm : Moderate m) (hX : Moderate X)
    (Am : ∀ i j, |A i j| ≤ m) (YX : ∀ i j, |Y i j| ≤ X) (e : luInverse (dM A : Matrix _ _ (Dbl r)) = dM Y) (hA : IsUnit A.det)
    (hB : ∀ i j, |A⁻¹ i j| ≤ B) (i j : Fin n) : |Y i j - A⁻¹ i j| ≤ n * (B * (luTol n * (1 + n * (m * X)))) := by
  have d := C147_inverse h A Y hn hm hX Am YX e
  have : Y - A⁻¹ = A⁻¹ * (A * Y - 1) := by rw [mul_sub, ← Matrix.mul_assoc, nonsing_inv_mul A hA, one_mul, mul_one]
  rw [← Matrix.sub_apply, this, mul_apply]
  refine (Finset.abs_sum_le_sum_abs _ _).trans ?_
  refine (Finset.sum_le_card_nsmul _ _ (B * (luTol n * (1 + n * (m * X)))) fun k _ => ?_).trans (le_of_eq (by simp))
  rw [abs_mul]
  exact mul_le_mul (hB i k) (d k j) (abs_nonneg _) ((abs_nonneg _).trans (hB i k))

omit [Machine] in
/-- a bound for the exact inverse bounds the shrinking of vectors -/
theorem low_of_inv {A : Matrix (Fin n) (Fin n) ℝ} {B : ℝ} (hn : 0 < n) (hA : IsUnit A.det) (B0 : 0 < B) (hB : ∀ i j, |A⁻¹ i j| ≤ B) : Low A (1 / (n * B)) := by
  intro z T hT i
  have e : z = A⁻¹ *ᵥ (A *ᵥ z) := by rw [mulVec_mulVec, nonsing_inv_mul A hA, one_mulVec]
  have n0 : (0 : ℝ) < n := by exact_mod_cast hn
  rw [one_div, inv_mul_le_iff₀ (by positivity)]
  have : |z i| = |∑ j, A⁻¹ i j * (A *ᵥ z) j| := congrArg (fun y : Fin n → ℝ => |y i|) e
  rw [this]
  refine (Finset.abs_sum_le_sum_abs _ _).trans ((Finset.sum_le_card_nsmul _ _ (B * T) fun j _ => ?_).trans (le_of_eq (by simp; ring)))
  rw [abs_mul]
  exact mul_le_mul (hB i j) (hT j) (abs_nonneg _) B0.le

/-- the matrix is not too close to a singular one: entries at most `m`, entries of the inverse at most `B`, and `m B` well below `2⁵²` -/
structure WellCond (A : Matrix (Fin n) (Fin n) ℝ) (m B : ℝ) : Prop where
  pos : 0 < n
  size : n ≤ 30
  regular : IsUnit A.det
  le : ∀ i j, |A i j| ≤ m
  inv_le : ∀ i j, |A⁻¹ i j| ≤ B
  m_le : m ≤ 1e20
  le_m : 1e-20 ≤ m
  B_le : B ≤ 1e18
  le_B : 1e-20 ≤ B
  cond : 4 * luTol n * n ^ 2 * (m * B) ≤ 1

/-- C147: on a matrix that is not too close to singular, Eigen's inverse returns finite values, and each is within
`n B luTol n (1 + 4 n² m B)` of the exact inverse. -/
theorem C147_accurate (h : Rounds53 r) (A : Matrix (Fin n) (Fin n) ℝ) {m B : ℝ} (w : WellCond A m B) :
    ∃ Y : Matrix (Fin n) (Fin n) ℝ, luInverse (dM A : Matrix _ _ (Dbl r)) = dM Y ∧ (∀ i j, |Y i j| ≤ 4 * n * B)
      ∧ (∀ i j, |(A * Y) i j - (1 : Matrix (Fin n) (Fin n) ℝ) i j| ≤ luTol n * (1 + 4 * n ^ 2 * (m * B)))
      ∧ ∀ i j, |Y i j - A⁻¹ i j| ≤ n * B * (luTol n * (1 + 4 * n ^ 2 * (m * B))) := by
  have n0 : (0 : ℝ) < n := by exact_mod_cast w.pos
  have n1 : (1 : ℝ) ≤ n := by exact_mod_cast w.pos
  have n30 : (n : ℝ) ≤ 30 := by exact_mod_cast w.size
  have B0 : 0 < B := lt_of_lt_of_le (by norm_num) w.le_B
  have m0 : 0 < m := lt_of_lt_of_le (by norm_num) w.le_m
  have nB : (n : ℝ) * B ≤ 30 * 1e18 := mul_le_mul n30 w.B_le B0.le (by norm_num)
  have nB' : (1e-20 : ℝ) ≤ n * B := w.le_B.trans (le_mul_of_one_le_left B0.le n1)
  have nB0 : 0 < n * B := mul_pos n0 B0
  have hK := luK_le (n := n) (by have := w.size; omega)
  have tol1 : luTol n ≤ 1 := by
    unfold luTol
    have : (2 : ℝ) ^ n ≤ 2 ^ 30 := pow_le_pow_right₀ (by norm_num) w.size
    rw [div_le_one (by positivity)]
    exact (mul_le_mul_of_nonneg_left this (by norm_num)).trans (by norm_num)
  have g := growth_le_small w.size
  have g0 : 0 ≤ (2 * gr 2) ^ n := pow_nonneg (by linarith [one_le_gr 2]) n
  have hc : 1 / (2 * (n * B)) + 2 * (luK n * ulp * (n * m)) ≤ 1 / (n * B) := by
    have h1 : 2 * (luK n * ulp * (n * m)) ≤ 2 * (luTol n * (n * m)) := by
      have := mul_le_mul_of_nonneg_right hK (by positivity : 0 ≤ n * m); linarith
    have h2 : 2 * (luTol n * (n * m)) ≤ 1 / (2 * (n * B)) := by
      rw [le_div_iff₀ (by positivity)]
      refine le_trans (le_of_eq ?_) w.cond
      ring
    have h3 : 1 / (n * B) = 1 / (2 * (n * B)) + 1 / (2 * (n * B)) := by field_simp; ring
    linarith
  have cs0 : (1e-20 : ℝ) ≤ 1 / (2 * (n * B)) := by
    rw [le_div_iff₀ (by positivity)]
    have : (1e-20 : ℝ) * (2 * (n * B)) ≤ 1e-20 * (2 * (30 * 1e18)) := mul_le_mul_of_nonneg_left (by linarith) (by norm_num)
    exact this.trans (by norm_num)
  have cs1 : 1 / (2 * (n * B)) ≤ (1e50 : ℝ) := by
    rw [div_le_iff₀ (by positivity)]
    have : (1e50 : ℝ) * (2 * 1e-20) ≤ 1e50 * (2 * (n * B)) := mul_le_mul_of_nonneg_left (by linarith) (by norm_num)
    exact le_trans (by norm_num) this
  have fin : ∀ j, ∃ x : Fin n → ℝ, luSolve (dM A : Matrix _ _ (Dbl r)) (dV fun k => (1 : Matrix (Fin n) (Fin n) ℝ) k j) = dV x
      ∧ ∀ i, |x i| ≤ 4 * n * B := fun j => by
    obtain ⟨x, e, hx⟩ := luSolve_finite h A (fun k => (1 : Matrix (Fin n) (Fin n) ℝ) k j) (β := 1) w.le (fun k => by rw [one_apply]; split_ifs <;> simp)
      (low_of_inv w.pos w.regular B0 w.inv_le) hc (hK.trans tol1) (by have := w.size; omega) cs0 cs1 (le_trans (by norm_num) w.le_m)
      ((mul_le_mul w.m_le g g0 (by norm_num)).trans (by norm_num)) (by norm_num) (by rw [one_mul]; exact g.trans (by norm_num))
    refine ⟨x, e, fun i => (hx i).trans (le_of_eq ?_)⟩
    field_simp; ring
  choose y ey hy using fin
  have e : luInverse (dM A : Matrix _ _ (Dbl r)) = dM (of fun i j => y j i) := by
    ext i j
    show luSolve _ _ _ = _
    rw [unit_D h j, ey]
    rfl
  have hX : Moderate (4 * n * B) := by
    constructor
    · refine le_trans ?_ (by linarith : n * B ≤ 4 * n * B); exact le_trans (by norm_num) nB'
    · refine le_trans (by linarith : 4 * n * B ≤ 4 * (30 * 1e18)) (by norm_num)
  have hm : Moderate m := ⟨le_trans (by norm_num) w.le_m, w.m_le.trans (by norm_num)⟩
  have s100 : n ≤ 100 := by have := w.size; omega
  have re : 1 + n * (m * (4 * n * B)) = 1 + 4 * n ^ 2 * (m * B) := by ring
  refine ⟨of fun i j => y j i, e, fun i j => hy j i, fun i j => ?_, fun i j => ?_⟩
  · have := C147_inverse h A _ s100 hm hX w.le (fun i j => hy j i) e i j
    rwa [re] at this
  · have := C147_forward h A _ s100 hm hX w.le (fun i j => hy j i) e w.regular w.inv_le i j
    rw [re, ← mul_assoc] at this
    exact this

/-- a matrix that has to be pivoted -/
noncomputable def pivA : Matrix (Fin 2) (Fin 2) ℝ := !![1, 1; 2, 1]

omit [Machine] in
theorem pivA_cond : WellCond pivA 2 2 := by
  have d : pivA.det = -1 := by simp [pivA, det_fin_two]; norm_num
  have i : pivA⁻¹ = !![-1, 1; 2, -1] := inv_eq_right_inv (by
    ext i j; fin_cases i <;> fin_cases j <;> simp [pivA, mul_apply, Fin.sum_univ_two] <;> norm_num)
  refine ⟨by norm_num, by norm_num, by rw [d]; norm_num, ?_, ?_, by norm_num, by norm_num, by norm_num, by norm_num, by unfold luTol; norm_num⟩
  · intro i j; fin_cases i <;> fin_cases j <;> simp [pivA]
  · intro a b; rw [i]; fin_cases a <;> fin_cases b <;> simp

/-- the hypotheses of `C147_accurate`, `C147_inverse`, `C147_regular`, `C147_forward` and (for the columns of the identity) `C147_solve` can be met -/
example (h : Rounds53 r) : ∃ Y : Matrix (Fin 2) (Fin 2) ℝ, luInverse (dM pivA : Matrix _ _ (Dbl r)) = dM Y ∧ (∀ i j, |Y i j| ≤ 16) ∧ Moderate 2 ∧ Moderate 16
    ∧ ((2 : ℕ) : ℝ) * (luTol 2 * (1 + (2 : ℕ) * (2 * 16))) < 1 ∧ ∀ j, luSolve (dM pivA : Matrix _ _ (Dbl r)) (dV fun k => (1 : Matrix (Fin 2) (Fin 2) ℝ) k j) = dV fun k => Y k j := by
  obtain ⟨Y, e, hY, -, -⟩ := C147_accurate h pivA pivA_cond
  refine ⟨Y, e, fun i j => (hY i j).trans (by norm_num), by constructor <;> norm_num, by constructor <;> norm_num, by unfold luTol; norm_num, fun j => ?_⟩
  funext k
  rw [← unit_D h j]
  exact congrFun (congrFun e k) j


end NavFuse.Props
