import Verif.Lemmas.RoundLdlt
import Verif.Props.GainDbl

/-! # The LDLT solver in double precision

Eigen's `ldlt().solve()`, run on doubles with rounding, overflow, infinities and NaN. -/

namespace NavFuse.Props
open Matrix
variable [Machine] {r : ℝ → ℝ} {n : ℕ}

/-- relative size of the residual of an `n × n` system: a cubic number of units of `2⁻⁵²`, without the pivot growth of LU -/
noncomputable def ldTol (n : ℕ) : ℝ := 2 * ((n : ℝ) ^ 3 + 22 * (n : ℝ) ^ 2 + 18 * n) / 2 ^ 52

omit [Machine] in
theorem ldK_le (hn : n ≤ 100) : ldK n * ulp ≤ ldTol n := by
  have h1 := gr_le_two (k := 22 * n) (by omega)
  unfold ldK ldTol ulp
  have h2 : (0 : ℝ) ≤ (n : ℝ) ^ 3 + 22 * (n : ℝ) ^ 2 + 18 * n := by positivity
  have h3 := mul_le_mul_of_nonneg_left h1 h2
  rw [div_eq_mul_one_div (2 * ((n : ℝ) ^ 3 + 22 * (n : ℝ) ^ 2 + 18 * n))]
  exact mul_le_mul_of_nonneg_right (by linarith) (by positivity)

omit [Machine] in
theorem ldTol_nonneg (n : ℕ) : 0 ≤ ldTol n := by unfold ldTol; positivity

/-- a symmetric system with eigenvalues from `c` upwards, diagonal at most `m`, right-hand side at most `β`, and `κ²` at least `m / c` -/
structure Posed (A : Matrix (Fin n) (Fin n) ℝ) (b : Fin n → ℝ) (m c κ β : ℝ) : Prop where
  size : 0 < n
  size_le : n ≤ 100
  sym : Aᵀ = A
  pos : ∀ v : Fin n → ℝ, c * (v ⬝ᵥ v) ≤ v ⬝ᵥ (A *ᵥ v)
  diag : ∀ i, A i i ≤ m
  rhs : ∀ i, |b i| ≤ β
  le_c : 1e-19 ≤ c
  m_le : m ≤ 1e29
  le_β : 1e-40 ≤ β
  le_κ : 1 ≤ κ
  κ_le : κ ≤ 1e24
  ratio : m ≤ κ * κ * c
  /-- no overflow while the right-hand side is reduced -/
  grow : β * (16 * κ) ^ n ≤ 1e60
  /-- the system is well enough conditioned for the arithmetic -/
  cond : 4 * (n * ldTol n * m) ≤ c

/-- the same for a matrix of which only the lower triangle counts -/
theorem ldlt_posed (h : Rounds53 r) (A : Matrix (Fin n) (Fin n) ℝ) (D : Fin n → Dbl r) (b : Fin n → ℝ) {m c κ β : ℝ} (w : Posed (lowerOf A) b m c κ β) :
    ∃ x : Fin n → ℝ, ldltGo (dM A : Matrix _ _ (Dbl r)) D (dV b) = dV x ∧ (∀ i, |x i| ≤ 2 * n * β / c) ∧
      ∀ X, (∀ i, |x i| ≤ X) → 1e-100 ≤ X → ∀ i, |b i - (lowerOf A *ᵥ x) i| ≤ ldTol n * (m * X) := by
  have c0 : 0 < c := lt_of_lt_of_le (by norm_num) w.le_c
  have n1 : (1 : ℝ) ≤ n := by exact_mod_cast w.size
  have pl : PosL (lowerOf A) c := ⟨w.sym, w.pos⟩
  have cm : c ≤ m := (pl.diag ⟨0, w.size⟩).trans (w.diag _)
  have m0 : 0 ≤ m := c0.le.trans cm
  have b0 : 0 ≤ β := le_trans (by norm_num) w.le_β
  have g := gr_le_two (k := 20 * n) (by have := w.size_le; omega)
  have mg : m * gr (20 * n) ≤ m * 2 := mul_le_mul_of_nonneg_left g m0
  have hK : ldK n * ulp * (n * m) ≤ ldTol n * (n * m) := mul_le_mul_of_nonneg_right (ldK_le w.size_le) (by positivity)
  have κ0 := w.le_κ
  obtain ⟨x, ex, hx, res⟩ := ldlt_main h A D b (m := m) (β := β) (c := c) (cs := c / 2) (L := 2 * κ) pl w.diag w.rhs (by
      have := w.cond
      linarith) w.size_le (by have := w.le_c; norm_num at this ⊢; linarith) (by have := cm.trans w.m_le; norm_num at this ⊢; linarith)
    (le_trans (by norm_num) (w.le_c.trans cm)) (by have := w.m_le; norm_num at this ⊢; linarith) (by have := w.ratio; linarith) (by linarith)
    (by have := w.κ_le; norm_num at this ⊢; linarith) w.le_β (by rw [show 8 * (2 * κ) = 16 * κ by ring]; exact w.grow)
  have e2 : (n : ℝ) * β / (c / 2) = 2 * n * β / c := by field_simp
  rw [e2] at hx
  refine ⟨x, ex, hx, fun X hX X0 i => ?_⟩
  have XX : 0 ≤ X := le_trans (by norm_num) X0
  have lim : 2 * n * β / c ≤ 1e100 := by
    rw [div_le_iff₀ c0]
    have h1 : β ≤ 1e60 := (le_mul_of_one_le_right b0 (one_le_pow₀ (by linarith))).trans w.grow
    have h2 : (n : ℝ) ≤ 100 := by exact_mod_cast w.size_le
    have h3 : 2 * n * β ≤ 2 * 100 * 1e60 := mul_le_mul (by linarith) h1 b0 (by norm_num)
    have h4 : (1e100 : ℝ) * 1e-19 ≤ 1e100 * c := mul_le_mul_of_nonneg_left w.le_c (by norm_num)
    exact h3.trans (le_trans (by norm_num) h4)
  have r1 := res (min X 1e120) (fun i => le_min (hX i) ((hx i).trans (lim.trans (by norm_num)))) (le_min X0 (by norm_num)) (min_le_right _ _) i
  refine r1.trans ?_
  have k1 : m * min X 1e120 ≤ m * X := mul_le_mul_of_nonneg_left (min_le_left _ _) m0
  have k2 : 0 ≤ m * min X 1e120 := mul_nonneg m0 (le_min XX (by norm_num))
  exact mul_le_mul (ldK_le w.size_le) k1 k2 (ldTol_nonneg n)

/-- C149: on a well-conditioned symmetric positive definite system of doubles the LDLT solver returns finite values that satisfy the system to within
`ldTol n` times the diagonal times the solution. -/
theorem C149_solve (h : Rounds53 r) (A : Matrix (Fin n) (Fin n) ℝ) (b : Fin n → ℝ) {m c κ β : ℝ} (w : Posed A b m c κ β) :
    ∃ x : Fin n → ℝ, eigenLdlt (dM A : Matrix _ _ (Dbl r)) (dV b) = dV x ∧ (∀ i, |x i| ≤ 2 * n * β / c) ∧
      ∀ X, (∀ i, |x i| ≤ X) → 1e-100 ≤ X → ∀ i, |b i - (A *ᵥ x) i| ≤ ldTol n * (m * X) := by
  have e := lowerOf_R w.sym
  have := ldlt_posed h A (fun i => (dM A : Matrix _ _ (Dbl r)) i i) b (m := m) (c := c) (κ := κ) (β := β) (by rw [e]; exact w)
  rw [e] at this
  exact this

/-- C149: and lie within `n · ldTol n · m/c` of the exact solution, relative to its largest entry. -/
theorem C149_accurate (h : Rounds53 r) (A : Matrix (Fin n) (Fin n) ℝ) (b s : Fin n → ℝ) {m c κ β : ℝ} (w : Posed A b m c κ β) (hs : A *ᵥ s = b) :
    ∃ x : Fin n → ℝ, eigenLdlt (dM A : Matrix _ _ (Dbl r)) (dV b) = dV x ∧
      ∀ X, (∀ i, |s i| ≤ X) → 1e-100 ≤ X → ∀ i, |x i - s i| ≤ 2 * (n * ldTol n * (m / c)) * X := by
  obtain ⟨x, ex, -, res⟩ := C149_solve h A b w
  refine ⟨x, ex, fun X hX X0 => ?_⟩
  have c0 : 0 < c := lt_of_lt_of_le (by norm_num) w.le_c
  have n0 : (0 : ℝ) < n := by exact_mod_cast w.size
  have XX : 0 ≤ X := le_trans (by norm_num) X0
  have pl : PosL A c := ⟨w.sym, w.pos⟩
  have m0 : 0 ≤ m := c0.le.trans ((pl.diag ⟨0, w.size⟩).trans (w.diag _))
  have t0 := ldTol_nonneg n
  have sX : ‖s‖ ≤ X := (pi_norm_le_iff_of_nonneg XX).2 hX
  have key : ∀ i, c / n * |(x - s) i| ≤ ldTol n * (m * (X + ‖x - s‖)) := pl.low c0 (x - s) _ fun i => by
    have e : (A *ᵥ (x - s)) i = -(b i - (A *ᵥ x) i) := by rw [mulVec_sub, hs]; simp
    rw [e, abs_neg]
    refine res _ (fun j => ?_) (X0.trans (le_add_of_nonneg_right (norm_nonneg _))) i
    have h1 := norm_le_pi_norm (x - s) j
    have h2 := hX j
    have h3 := abs_add_le (s j) ((x - s) j)
    have e : s j + (x - s) j = x j := by simp
    rw [e] at h3
    rw [Real.norm_eq_abs] at h1
    linarith
  have cn : 0 < c / n := div_pos c0 n0
  have kz : ‖x - s‖ ≤ ldTol n * (m * (X + ‖x - s‖)) / (c / n) := (pi_norm_le_iff_of_nonneg (by positivity)).2 fun i => by
    rw [Real.norm_eq_abs, le_div_iff₀ cn, mul_comm]; exact key i
  have q : n * ldTol n * (m / c) ≤ 1 / 4 := by
    rw [← mul_div_assoc, div_le_iff₀ c0]
    have := w.cond
    linarith
  have e : ldTol n * (m * (X + ‖x - s‖)) / (c / n) = n * ldTol n * (m / c) * X + n * ldTol n * (m / c) * ‖x - s‖ := by field_simp
  rw [e] at kz
  have k2 : n * ldTol n * (m / c) * ‖x - s‖ ≤ 1 / 4 * ‖x - s‖ := mul_le_mul_of_nonneg_right q (norm_nonneg _)
  have k3 : 0 ≤ n * ldTol n * (m / c) * X := by positivity
  intro i
  have := norm_le_pi_norm (x - s) i
  rw [Real.norm_eq_abs, Pi.sub_apply] at this
  linarith

omit [Machine] in
/-- C149: nothing above the diagonal is read, in whatever arithmetic. -/
theorem C149_lower_triangle {α : Type} [Add α] [Sub α] [Mul α] [Div α] [Neg α] [Flt α] (A B : Matrix (Fin n) (Fin n) α) (b : Fin n → α)
    (h : ∀ i j, j ≤ i → A i j = B i j) : eigenLdlt A b = eigenLdlt B b := by
  have el : lowerOf A = lowerOf B := by
    ext i j
    simp only [lowerOf, of_apply]
    split_ifs with c
    · exact h i j c
    · exact h j i (not_le.1 c).le
  have ed : (fun i => A i i) = fun i => B i i := funext fun i => h i i le_rfl
  unfold eigenLdlt
  rw [ed]
  cases n with
  | zero => rfl
  | succ n => rw [ldltGo, ldltGo, el]

/-- a system with an off-diagonal coupling -/
def ldA : Matrix (Fin 2) (Fin 2) ℝ := !![2, 1; 1, 3]

example : Posed ldA ![1, 4] 3 1 2 4 where
  size := by norm_num
  size_le := by norm_num
  sym := by ext i j; fin_cases i <;> fin_cases j <;> rfl
  pos v := by
    simp [ldA, dotProduct, mulVec, Fin.sum_univ_two]
    nlinarith [sq_nonneg (v 0 + v 1), sq_nonneg (v 1)]
  diag i := by fin_cases i <;> norm_num [ldA]
  rhs i := by fin_cases i <;> norm_num
  le_c := by norm_num
  m_le := by norm_num
  le_β := by norm_num
  le_κ := by norm_num
  κ_le := by norm_num
  ratio := by norm_num
  grow := by norm_num
  cond := by unfold ldTol; norm_num

end NavFuse.Props
