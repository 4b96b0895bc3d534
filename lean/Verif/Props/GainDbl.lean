import Verif.Props.SolversDbl

/-! # The Kalman gain in double precision

`P Hᵀ (H P Hᵀ + R)⁻¹` with every operation on doubles and the inverse as Eigen computes it. -/

namespace NavFuse.Props
open Matrix Kalman Spec
variable [Machine] {r : ℝ → ℝ} {n m : ℕ}

omit [Machine] in
/-- the innovation covariance does not shrink vectors by more than the noise floor -/
theorem innovation_low {P : Matrix (Fin n) (Fin n) ℝ} {H : Matrix (Fin m) (Fin n) ℝ} {R : Matrix (Fin m) (Fin m) ℝ} {ρ : ℝ} (m0 : 0 < m) (ρ0 : 0 < ρ)
    (hP : ∀ v : Fin n → ℝ, 0 ≤ v ⬝ᵥ (P *ᵥ v)) (hR : ∀ v : Fin m → ℝ, ρ * (v ⬝ᵥ v) ≤ v ⬝ᵥ (R *ᵥ v)) : Low (H * P * Hᵀ + R) (ρ / m) := by
  intro z T hT i
  have n0 : (0 : ℝ) < m := by exact_mod_cast m0
  have T0 : 0 ≤ T := (abs_nonneg _).trans (hT i)
  have q1 : ρ * (z ⬝ᵥ z) ≤ z ⬝ᵥ ((H * P * Hᵀ + R) *ᵥ z) := by
    rw [add_mulVec, dotProduct_add]
    have : z ⬝ᵥ ((H * P * Hᵀ) *ᵥ z) = (Hᵀ *ᵥ z) ⬝ᵥ (P *ᵥ (Hᵀ *ᵥ z)) := by
      rw [← mulVec_mulVec, ← mulVec_mulVec, dotProduct_mulVec, ← mulVec_transpose]
    have := hP (Hᵀ *ᵥ z)
    have := hR z
    linarith
  have q2 : z ⬝ᵥ ((H * P * Hᵀ + R) *ᵥ z) ≤ m * (‖z‖ * T) := by
    refine (le_abs_self _).trans ((Finset.abs_sum_le_sum_abs _ _).trans ((Finset.sum_le_card_nsmul _ _ (‖z‖ * T) fun k _ => ?_).trans (le_of_eq (by simp))))
    rw [abs_mul]
    exact mul_le_mul (norm_le_pi_norm z k) (hT k) (abs_nonneg _) (norm_nonneg z)
  have q3 : ‖z‖ * ‖z‖ ≤ z ⬝ᵥ z := by
    have : ∀ k, |z k| ≤ Real.sqrt (z ⬝ᵥ z) := fun k => by
      rw [← Real.sqrt_sq_eq_abs]
      refine Real.sqrt_le_sqrt ?_
      rw [_root_.sq]
      exact Finset.single_le_sum (f := fun k => z k * z k) (fun k _ => mul_self_nonneg (z k)) (Finset.mem_univ k)
    have h1 : ‖z‖ ≤ Real.sqrt (z ⬝ᵥ z) := (pi_norm_le_iff_of_nonneg (Real.sqrt_nonneg _)).2 this
    have h2 : 0 ≤ z ⬝ᵥ z := Finset.sum_nonneg fun k _ => mul_self_nonneg (z k)
    have := mul_le_mul h1 h1 (norm_nonneg z) (Real.sqrt_nonneg _)
    rwa [Real.mul_self_sqrt h2] at this
  have q4 : ρ * ‖z‖ ≤ m * T := by
    rcases (norm_nonneg z).eq_or_lt with h0 | h0
    · rw [← h0, mul_zero]; positivity
    · have : ρ * (‖z‖ * ‖z‖) ≤ m * (‖z‖ * T) := (mul_le_mul_of_nonneg_left q3 ρ0.le).trans (q1.trans q2)
      by_contra hh
      push Not at hh
      nlinarith
  have q5 := norm_le_pi_norm z i
  rw [Real.norm_eq_abs] at q5
  rw [div_mul_eq_mul_div, div_le_iff₀ n0, mul_comm T]
  exact (mul_le_mul_of_nonneg_left q5 ρ0.le).trans q4

/-- a matrix of equal entries -/
def constM (a b : ℕ) (c : ℝ) : Matrix (Fin a) (Fin b) ℝ := of fun _ _ => c

omit [Machine] in
theorem constM_mul (a b c : ℕ) (x y : ℝ) : constM a b x * constM b c y = constM a c (b * (x * y)) := by
  ext i j; simp [constM, mul_apply]

omit [Machine] in
theorem dM_const {a b : ℕ} {A : Matrix (Fin a) (Fin b) ℝ} {c : ℝ} (hA : ∀ i j, |A i j| ≤ c) : MRl (dM A : Matrix _ _ (Dbl r)) A 0 (constM a b c) :=
  fun i j => Rl.exact (hA i j)

omit [Machine] in
theorem mul_entry_le {a b c : ℕ} {A : Matrix (Fin a) (Fin b) ℝ} {B : Matrix (Fin b) (Fin c) ℝ} {x y : ℝ} (hA : ∀ i j, |A i j| ≤ x) (hB : ∀ i j, |B i j| ≤ y)
    (i : Fin a) (j : Fin c) : |(A * B) i j| ≤ b * (x * y) := by
  rw [mul_apply]
  refine (Finset.abs_sum_le_sum_abs _ _).trans ((Finset.sum_le_card_nsmul _ _ (x * y) fun k _ => ?_).trans (le_of_eq (by simp)))
  rw [abs_mul]
  exact mul_le_mul (hA i k) (hB k j) (abs_nonneg _) ((abs_nonneg _).trans (hA i k))

omit [Machine] in
theorem mulVec_entry_le {a b : ℕ} {A : Matrix (Fin a) (Fin b) ℝ} {v : Fin b → ℝ} {x y : ℝ} (hA : ∀ i j, |A i j| ≤ x) (hv : ∀ j, |v j| ≤ y) (i : Fin a) :
    |(A *ᵥ v) i| ≤ b * (x * y) := by
  rw [mulVec, dotProduct]
  refine (Finset.abs_sum_le_sum_abs _ _).trans ((Finset.sum_le_card_nsmul _ _ (x * y) fun k _ => ?_).trans (le_of_eq (by simp)))
  rw [abs_mul]
  exact mul_le_mul (hA i k) (hv k) (abs_nonneg _) ((abs_nonneg _).trans (hA i k))

/-- a measurement update whose noise is not negligible: entries of `P`, `H` and `R` at most `p`, `η` and `ρ₁`, the noise at least `ρ` in every direction -/
structure Noisy (P : Matrix (Fin n) (Fin n) ℝ) (H : Matrix (Fin m) (Fin n) ℝ) (R : Matrix (Fin m) (Fin m) ℝ) (p η ρ ρ₁ : ℝ) : Prop where
  states : 0 < n
  states_le : n ≤ 1000
  meas : 0 < m
  meas_le : m ≤ 30
  cov : ∀ v : Fin n → ℝ, 0 ≤ v ⬝ᵥ (P *ᵥ v)
  noise : ∀ v : Fin m → ℝ, ρ * (v ⬝ᵥ v) ≤ v ⬝ᵥ (R *ᵥ v)
  P_le : ∀ i j, |P i j| ≤ p
  H_le : ∀ i j, |H i j| ≤ η
  R_le : ∀ i j, |R i j| ≤ ρ₁
  le_p : 1e-20 ≤ p
  le_η : 1e-20 ≤ η
  le_ρ : 1e-16 ≤ ρ
  η_le : η ≤ 1e20
  p_le : p ≤ 1e20
  size : n ^ 2 * (η ^ 2 * p) + ρ₁ ≤ 1e18
  /-- the innovation covariance is well enough conditioned -/
  cond : (n ^ 2 * (η ^ 2 * p) + ρ₁) * (16 * m ^ 3 * luTol m + (8 * n + 12) * m ^ 2 / 2 ^ 52) ≤ ρ

/-- largest entry of the innovation covariance -/
noncomputable def innovMax (n : ℕ) (p η ρ₁ : ℝ) : ℝ := n ^ 2 * (η ^ 2 * p) + ρ₁

/-- accuracy of the gain relative to `m n η p / ρ`, with `κ = s / ρ` the ratio of the innovation covariance to the noise -/
noncomputable def gainTol (n m : ℕ) (κ : ℝ) : ℝ :=
  16 * m ^ 2 * (n + m + 2) / 2 ^ 52 + 2 * m ^ 2 * luTol m * (1 + 16 * m ^ 3 * κ) + 2 * m ^ 4 * ((4 * n + 6) / 2 ^ 52) * κ

/-- C148: in double precision, with Eigen's inverse, the Kalman gain is finite and within `m n η p / ρ · gainTol n m (s/ρ)` of `P Hᵀ (H P Hᵀ + R)⁻¹`. -/
theorem C148_gain (h : Rounds53 r) {P : Matrix (Fin n) (Fin n) ℝ} {H : Matrix (Fin m) (Fin n) ℝ} {R : Matrix (Fin m) (Fin m) ℝ} {p η ρ ρ₁ : ℝ}
    (w : Noisy P H R p η ρ ρ₁) : ∃ K : Matrix (Fin n) (Fin m) ℝ, gainC LinSolver.eigen (dM P) (dM H) (dM R : Matrix _ _ (Dbl r)) = dM K
      ∧ (∀ i j, |K i j| ≤ 16 * m ^ 3 * n * η * p / ρ)
      ∧ ∀ i j, |K i j - (P * Hᵀ * (H * P * Hᵀ + R)⁻¹) i j| ≤ m * n * η * p / ρ * gainTol n m (innovMax n p η ρ₁ / ρ) := by
  have n0 : (0 : ℝ) < n := by exact_mod_cast w.states
  have n1 : (1 : ℝ) ≤ n := by exact_mod_cast w.states
  have n2 : (n : ℝ) ≤ 1000 := by exact_mod_cast w.states_le
  have m0 : (0 : ℝ) < m := by exact_mod_cast w.meas
  have m1 : (1 : ℝ) ≤ m := by exact_mod_cast w.meas
  have m2 : (m : ℝ) ≤ 30 := by exact_mod_cast w.meas_le
  have p0 : 0 < p := lt_of_lt_of_le (by norm_num) w.le_p
  have η0 : 0 < η := lt_of_lt_of_le (by norm_num) w.le_η
  have ρ0 : 0 < ρ := lt_of_lt_of_le (by norm_num) w.le_ρ
  have ρρ : ρ ≤ ρ₁ := by
    let k : Fin m := ⟨0, w.meas⟩
    have h1 := w.noise (Pi.single k 1)
    simp only [dotProduct_single, mul_one, Pi.single_eq_same, single_dotProduct, one_mul, mulVec_single_one, col_apply] at h1
    exact h1.trans ((le_abs_self _).trans (w.R_le k k))
  set s := innovMax n p η ρ₁ with hs
  have es : n * (n * (η * p) * η) + ρ₁ = s := by rw [hs, innovMax]; ring
  have s0 : 0 ≤ n ^ 2 * (η ^ 2 * p) := by positivity
  have sρ : ρ ≤ s := by rw [hs, innovMax]; linarith
  have s18 : s ≤ 1e18 := w.size
  have sp : 0 < s := ρ0.trans_le sρ
  have ρ18 : ρ ≤ 1e18 := sρ.trans s18
  have pη : (1e-40 : ℝ) ≤ η * p := le_trans (by norm_num) (mul_le_mul w.le_η w.le_p (by norm_num) η0.le)
  have pη' : η * p ≤ 1e40 := (mul_le_mul w.η_le w.p_le p0.le (by norm_num)).trans (by norm_num)
  have npη : (1e-40 : ℝ) ≤ n * (η * p) := pη.trans (le_mul_of_one_le_left (by positivity) n1)
  have npη' : n * (η * p) ≤ 1e43 := (mul_le_mul n2 pη' (by positivity) (by norm_num)).trans (by norm_num)
  have nη : (1e-60 : ℝ) ≤ n * (η * p) * η := le_trans (by norm_num) (mul_le_mul npη w.le_η (by norm_num) (by positivity))
  -- the innovation covariance
  have hHP := (dM_const (r := r) w.H_le).mmul h (dM_const (r := r) w.P_le) (fun _ _ _ => le_trans (by norm_num) pη)
    (fun i j => by rw [constM_mul]; exact npη'.trans (by norm_num)) (by have := w.states_le; omega)
  rw [constM_mul] at hHP
  have hHPH := hHP.mmul h (dM_const (r := r) w.H_le).tr (fun _ _ _ => le_trans (by norm_num) nη)
    (fun i j => by
      have : (constM m n (n * (η * p)) * (constM m n η)ᵀ) i j = n * (n * (η * p) * η) := congrFun (congrFun (constM_mul m n m (n * (η * p)) η) i) j
      rw [this]; exact le_trans (by linarith) (s18.trans (by norm_num))) (by have := w.states_le; omega)
  have eT : constM m n (n * (η * p)) * (constM m n η)ᵀ = constM m m (n * (n * (η * p) * η)) := constM_mul m n m (n * (η * p)) η
  rw [eT] at hHPH
  have hS := hHPH.madd h ((dM_const (r := r) w.R_le).mono (Nat.zero_le _))
    (fun i j => by
      show (1e-250 : ℝ) ≤ n * (n * (η * p) * η) + ρ₁
      rw [es]; exact le_trans (by norm_num) (w.le_ρ.trans sρ))
    (fun i j => by
      show n * (n * (η * p) * η) + ρ₁ ≤ 1e199
      rw [es]; exact s18.trans (by norm_num)) (by have := w.states_le; omega)
  choose Ŝ eŜ dŜ using fun i j => (hS i j).near
  have eŜ' : madd (mmul (mmul (dM H) (dM P)) (mtr (dM H))) (dM R) = (dM (of Ŝ) : Matrix _ _ (Dbl r)) := by ext i j; exact eŜ i j
  have hg : gr (0 + 0 + 1 + n + 0 + 1 + n + 1) - 1 ≤ (4 * n + 6) / 2 ^ 52 := by
    have := gr_le (k := 0 + 0 + 1 + n + 0 + 1 + n + 1) (by have := w.states_le; omega)
    push_cast at this
    have e : (4 * (n : ℝ) + 6) / 2 ^ 52 = (0 + 0 + 1 + n + 0 + 1 + n + 1) / 2 ^ 51 := by ring
    rw [e]; linarith
  set δ := (4 * n + 6) / 2 ^ 52 * s with hδ
  have δ0 : 0 ≤ δ := by positivity
  set S := H * P * Hᵀ + R with hSdef
  have dS : ∀ i j, |of Ŝ i j - S i j| ≤ δ := fun i j => by
    refine (dŜ i j).trans ?_
    have : (constM m m (n * (n * (η * p) * η)) + constM m m ρ₁) i j = s := es
    rw [this]
    exact mul_le_mul_of_nonneg_right hg sp.le
  have mS : ∀ i j, |S i j| ≤ s := fun i j => by
    have := (hS i j).mag
    have e : (constM m m (n * (n * (η * p) * η)) + constM m m ρ₁) i j = s := es
    rwa [e] at this
  have δs : δ ≤ s := by
    rw [hδ]
    refine mul_le_of_le_one_left sp.le ?_
    rw [div_le_one (by positivity)]
    exact le_trans (by linarith : 4 * (n : ℝ) + 6 ≤ 4006) (by norm_num)
  have mŜ : ∀ i j, |of Ŝ i j| ≤ 2 * s := fun i j => by
    have h1 := abs_sub_abs_le_abs_sub (of Ŝ i j) (S i j)
    linarith [dS i j, mS i j]
  have tol0 : 0 ≤ luTol m := by unfold luTol; positivity
  have cond : s * (16 * m ^ 3 * luTol m + (8 * n + 12) * m ^ 2 / 2 ^ 52) ≤ ρ := w.cond
  have c1 : 2 * m ^ 2 * δ ≤ ρ := by
    have : 0 ≤ s * (16 * m ^ 3 * luTol m) := by positivity
    have e : 2 * m ^ 2 * δ = s * ((8 * n + 12) * m ^ 2 / 2 ^ 52) := by rw [hδ]; ring
    rw [e]; linarith
  have c2 : 16 * m ^ 3 * luTol m * s ≤ ρ := by
    have : 0 ≤ s * ((8 * n + 12) * m ^ 2 / 2 ^ 52) := by positivity
    linarith
  have lS : Low S (ρ / m) := innovation_low w.meas ρ0 w.cov w.noise
  have c3 : m * δ ≤ ρ / (2 * m) := by
    rw [le_div_iff₀ (by positivity)]; linarith
  have c4 : ρ / m = ρ / (2 * m) + ρ / (2 * m) := by field_simp; ring
  have c5 : 0 < ρ / (2 * m) := by positivity
  have lŜ : Low (of Ŝ) (ρ / (2 * m)) := (lS.perturb (by positivity) dS (by linarith)).mono (by linarith)
  have eB : 1 / (ρ / (2 * m)) = 2 * m / ρ := by rw [one_div_div]
  have wc : WellCond (of Ŝ) (2 * s) (2 * m / ρ) := by
    refine ⟨w.meas, w.meas_le, lŜ.regular c5, mŜ, fun i j => eB ▸ lŜ.inv_le c5 i j, ?_, ?_, ?_, ?_, ?_⟩
    · exact le_trans (by linarith : 2 * s ≤ 2 * 1e18) (by norm_num)
    · exact le_trans (by norm_num) (w.le_ρ.trans (by linarith))
    · rw [div_le_iff₀ ρ0]
      have : (1e18 : ℝ) * 1e-16 ≤ 1e18 * ρ := mul_le_mul_of_nonneg_left w.le_ρ (by norm_num)
      refine le_trans ?_ this
      norm_num; linarith
    · rw [le_div_iff₀ ρ0]
      have : (1e-20 : ℝ) * ρ ≤ 1e-20 * 1e18 := mul_le_mul_of_nonneg_left ρ18 (by norm_num)
      refine this.trans ?_
      norm_num; linarith
    · have : 4 * luTol m * m ^ 2 * (2 * s * (2 * m / ρ)) = 16 * m ^ 3 * luTol m * s / ρ := by field_simp; ring
      rw [this, div_le_one ρ0]; exact c2
  obtain ⟨Y, eY, mY, -, dY⟩ := C147_accurate h (of Ŝ) wc
  have mY' : ∀ i j, |Y i j| ≤ 8 * m ^ 2 / ρ := fun i j => (mY i j).trans (le_of_eq (by ring))
  -- the product with the inverse
  have y0 : (1e-20 : ℝ) ≤ 8 * m ^ 2 / ρ := by
    rw [le_div_iff₀ ρ0]
    have : (1e-20 : ℝ) * ρ ≤ 1e-20 * 1e18 := mul_le_mul_of_nonneg_left ρ18 (by norm_num)
    refine this.trans ?_
    have : (1 : ℝ) ≤ m ^ 2 := one_le_pow₀ m1
    norm_num; linarith
  have y1 : 8 * m ^ 2 / ρ ≤ 1e20 := by
    rw [div_le_iff₀ ρ0]
    have : (1e20 : ℝ) * 1e-16 ≤ 1e20 * ρ := mul_le_mul_of_nonneg_left w.le_ρ (by norm_num)
    refine le_trans ?_ this
    have : (m : ℝ) ^ 2 ≤ 30 ^ 2 := pow_le_pow_left₀ m0.le m2 2
    norm_num at this ⊢; linarith
  have hPH := (dM_const (r := r) w.P_le).mmul h (dM_const (r := r) w.H_le).tr (fun _ _ _ => by
      show (1e-250 : ℝ) ≤ p * η
      rw [mul_comm]; exact le_trans (by norm_num) pη)
    (fun i j => by
      have : (constM n n p * (constM m n η)ᵀ) i j = n * (p * η) := congrFun (congrFun (constM_mul n n m p η) i) j
      rw [this, mul_comm p]; exact npη'.trans (by norm_num)) (by have := w.states_le; omega)
  have eT2 : constM n n p * (constM m n η)ᵀ = constM n m (n * (p * η)) := constM_mul n n m p η
  rw [eT2, mul_comm p] at hPH
  have hK := hPH.mmul h (dM_const (r := r) mY') (fun _ _ _ => by
      show (1e-250 : ℝ) ≤ n * (η * p) * (8 * m ^ 2 / ρ)
      exact le_trans (by norm_num) (mul_le_mul npη y0 (by norm_num) (by positivity)))
    (fun i j => by
      rw [constM_mul]
      show (m : ℝ) * (n * (η * p) * (8 * m ^ 2 / ρ)) ≤ 1e199
      exact (mul_le_mul m2 (mul_le_mul npη' y1 (by positivity) (by norm_num)) (by positivity) (by norm_num)).trans (by norm_num))
    (by have := w.states_le; have := w.meas_le; omega)
  rw [constM_mul] at hK
  choose K eK dK using fun i j => (hK i j).near
  refine ⟨of K, ?_, fun i j => ?_, fun i j => ?_⟩
  · have : gainC LinSolver.eigen (dM P) (dM H) (dM R : Matrix _ _ (Dbl r)) = mmul (mmul (dM P) (mtr (dM H))) (luInverse (dM (of Ŝ))) := by
      rw [gainC, eŜ']; rfl
    rw [this, eY]
    ext i j
    exact eK i j
  · have := Rl.val_le (dK i j) (hK i j).mag
    refine this.trans ((mul_le_mul_of_nonneg_right (gr_le_two (by have := w.states_le; have := w.meas_le; omega)) (hK i j).M_nonneg).trans (le_of_eq ?_))
    show 2 * (m * (n * (η * p) * (8 * m ^ 2 / ρ))) = _
    ring
  · have dI : ∀ i j, |Y i j - S⁻¹ i j| ≤ 2 * m ^ 2 / ρ * (luTol m * (1 + 16 * m ^ 3 * (s / ρ))) + 2 * m ^ 4 / ρ * (((4 * n + 6) / 2 ^ 52) * (s / ρ)) := fun i j => by
      have h1 := dY i j
      have e1 : m * (2 * m / ρ) * (luTol m * (1 + 4 * m ^ 2 * (2 * s * (2 * m / ρ)))) = 2 * m ^ 2 / ρ * (luTol m * (1 + 16 * m ^ 3 * (s / ρ))) := by ring
      rw [e1] at h1
      have uS := lS.regular (by positivity)
      have uŜ := lŜ.regular c5
      have e2 : (of Ŝ)⁻¹ - S⁻¹ = (of Ŝ)⁻¹ * (S - of Ŝ) * S⁻¹ := by
        rw [mul_sub, sub_mul, nonsing_inv_mul _ uŜ, one_mul, Matrix.mul_assoc, mul_nonsing_inv _ uS, mul_one]
      have h2 : |((of Ŝ)⁻¹ - S⁻¹) i j| ≤ m * (m * (2 * m / ρ * δ) * (m / ρ)) := by
        rw [e2]
        refine mul_entry_le (mul_entry_le (fun i j => eB ▸ lŜ.inv_le c5 i j) fun i j => ?_) (fun i j => ?_) i j
        · rw [Matrix.sub_apply, abs_sub_comm]; exact dS i j
        · have := lS.inv_le (by positivity) i j
          rwa [one_div_div] at this
      have e3 : m * (m * (2 * m / ρ * δ) * (m / ρ)) = 2 * m ^ 4 / ρ * (((4 * n + 6) / 2 ^ 52) * (s / ρ)) := by rw [hδ]; ring
      rw [e3, Matrix.sub_apply] at h2
      have := abs_add_le (Y i j - (of Ŝ)⁻¹ i j) ((of Ŝ)⁻¹ i j - S⁻¹ i j)
      rw [sub_add_sub_cancel] at this
      linarith
    have k1 : |of K i j - (P * Hᵀ * Y) i j| ≤ 2 * (n + m + 2) / 2 ^ 52 * (m * (n * (η * p) * (8 * m ^ 2 / ρ))) := by
      have q0 : 0 ≤ m * (n * (η * p) * (8 * m ^ 2 / ρ)) := by positivity
      refine (dK i j).trans (mul_le_mul_of_nonneg_right ?_ q0)
      have := gr_le (k := 0 + 0 + 1 + n + 0 + 1 + m) (by have := w.states_le; have := w.meas_le; omega)
      push_cast at this
      have e : 2 * ((n : ℝ) + m + 2) / 2 ^ 52 = (0 + 0 + 1 + n + 0 + 1 + m) / 2 ^ 51 := by ring
      rw [e]; linarith
    have k2 : |(P * Hᵀ * (Y - S⁻¹)) i j| ≤ m * (n * (p * η)
        * (2 * m ^ 2 / ρ * (luTol m * (1 + 16 * m ^ 3 * (s / ρ))) + 2 * m ^ 4 / ρ * (((4 * n + 6) / 2 ^ 52) * (s / ρ)))) :=
      mul_entry_le (mul_entry_le w.P_le fun i j => w.H_le j i) (fun i j => by rw [Matrix.sub_apply]; exact dI i j) i j
    rw [Matrix.mul_sub, Matrix.sub_apply] at k2
    have k3 := abs_add_le (of K i j - (P * Hᵀ * Y) i j) ((P * Hᵀ * Y) i j - (P * Hᵀ * S⁻¹) i j)
    rw [sub_add_sub_cancel] at k3
    refine (k3.trans (add_le_add k1 k2)).trans (le_of_eq ?_)
    rw [gainTol]
    ring

/-- C148: a measurement update in double precision with Eigen's inverse.  The call succeeds; every number of the new estimate and covariance is finite; the
estimate differs from the exact Kalman update by the rounding of the last steps plus the error of the gain times the innovation, and the covariance from the
exact one by the rounding plus a term of second order in the error of the gain. -/
theorem C148_update (h : Rounds53 r) {P : Matrix (Fin n) (Fin n) ℝ} {H : Matrix (Fin m) (Fin n) ℝ} {R : Matrix (Fin m) (Fin m) ℝ} {p η ρ ρ₁ : ℝ}
    (w : Noisy P H R p η ρ ρ₁) (hP : P.IsSymm) (hR : R.IsSymm) (x : Fin n → ℝ) (z : Fin m → ℝ) (hx : ∀ i, |x i| ≤ 1e30) (hz : ∀ i, |z i| ≤ 1e30)
    (hη : η ≤ 1e10) (hk : 16 * m ^ 3 * n * η * p / ρ ≤ 1e20) :
    ∃ (K : Matrix (Fin n) (Fin m) ℝ) (y : Fin n → ℝ) (Y : Matrix (Fin n) (Fin n) ℝ),
      filterUpdate LinSolver.eigen ⟨n, dV x⟩ ⟨n, n, dM P⟩ ⟨m, dV z⟩ ⟨m, n, dM H⟩ ⟨m, m, (dM R : Matrix _ _ (Dbl r))⟩ ⟨n, dV x⟩ ⟨n, n, dM P⟩
        = .ok (true, ⟨n, dV y⟩, ⟨n, n, dM Y⟩)
      ∧ (∀ i j, |K i j| ≤ 16 * m ^ 3 * n * η * p / ρ)
      ∧ (∀ i j, |K i j - (P * Hᵀ * (H * P * Hᵀ + R)⁻¹) i j| ≤ m * n * η * p / ρ * gainTol n m (innovMax n p η ρ₁ / ρ))
      ∧ (let G := P * Hᵀ * (H * P * Hᵀ + R)⁻¹
         let ε := m * n * η * p / ρ * gainTol n m (innovMax n p η ρ₁ / ρ)
         let M := (Gained.update m z H R K).mags (mgV x, mgM P)
         (∀ i, |y i - (x + G *ᵥ (z - H *ᵥ x)) i| ≤ (2 * m + 2 * n + 7 : ℕ) / 2 ^ 51 * M.1 i + ε * ∑ l, |(z - H *ᵥ x) l|)
          ∧ ∀ i j, |Y i j - ((1 - G * H) * P : Matrix (Fin n) (Fin n) ℝ) i j| ≤ (2 * m + 2 * n + 7 : ℕ) / 2 ^ 51 * M.2 i j + m ^ 2 * ε ^ 2 * innovMax n p η ρ₁) := by
  obtain ⟨K, eK, mK, dK⟩ := C148_gain h w
  have n0 : (0 : ℝ) < n := by exact_mod_cast w.states
  have n1 : (1 : ℝ) ≤ n := by exact_mod_cast w.states
  have n2 : (n : ℝ) ≤ 1000 := by exact_mod_cast w.states_le
  have m0 : (0 : ℝ) < m := by exact_mod_cast w.meas
  have m1 : (1 : ℝ) ≤ m := by exact_mod_cast w.meas
  have m2 : (m : ℝ) ≤ 30 := by exact_mod_cast w.meas_le
  have p0 : 0 < p := lt_of_lt_of_le (by norm_num) w.le_p
  have η0 : 0 < η := lt_of_lt_of_le (by norm_num) w.le_η
  have ρ0 : 0 < ρ := lt_of_lt_of_le (by norm_num) w.le_ρ
  have le20 : ∀ {a b : ℕ} {A : Matrix (Fin a) (Fin b) ℝ} {c : ℝ}, (∀ i j, |A i j| ≤ c) → (1e-50 : ℝ) ≤ c → ∀ i j, mgM A i j ≤ c := fun hA hc i j => max_le (hA i j) hc
  have gK : ∀ i j, mgM K i j ≤ 1e20 := le20 (fun i j => (mK i j).trans hk) (by norm_num)
  have gH : ∀ i j, mgM H i j ≤ 1e10 := le20 (fun i j => (w.H_le i j).trans hη) (by norm_num)
  have gP : ∀ i j, mgM P i j ≤ 1e20 := le20 (fun i j => (w.P_le i j).trans w.p_le) (by norm_num)
  have ρ₁18 : ρ₁ ≤ 1e18 := by have := w.size; have : 0 ≤ (n : ℝ) ^ 2 * (η ^ 2 * p) := by positivity
                              linarith
  have gR : ∀ i j, mgM R i j ≤ 1e18 := le20 (fun i j => (w.R_le i j).trans ρ₁18) (by norm_num)
  have gx : ∀ i, mgV x i ≤ 1e30 := fun i => max_le (hx i) (by norm_num)
  have gz : ∀ i, mgV z i ≤ 1e30 := fun i => max_le (hz i) (by norm_num)
  have ab : ∀ {a b : ℕ} (A : Matrix (Fin a) (Fin b) ℝ) i j, |mgM A i j| = mgM A i j := fun A i j => abs_of_nonneg (le_trans (by norm_num) (mgM_floor A i j))
  have abv : ∀ {a : ℕ} (v : Fin a → ℝ) i, |mgV v i| = mgV v i := fun v i => abs_of_nonneg (le_trans (by norm_num) (mgV_floor v i))
  have nn : (n : ℝ) * (1e10 * 1e30) ≤ 1000 * (1e10 * 1e30) := mul_le_mul_of_nonneg_right n2 (by norm_num)
  have v1 : ∀ l, |(mgV z + mgM H *ᵥ mgV x) l| ≤ 1e45 := fun l => by
    rw [Pi.add_apply]
    have h1 := mulVec_entry_le (fun i j => (ab H i j).trans_le (gH i j)) (fun i => (abv x i).trans_le (gx i)) l
    have h2 := (abv z l).trans_le (gz l)
    refine (abs_add_le _ _).trans ((add_le_add h2 (h1.trans nn)).trans (by norm_num))
  have cx : ∀ i, ((Gained.update m z H R K).mags (mgV x, mgM P)).1 i ≤ 1e100 := fun i => by
    show (mgV x + mgM K *ᵥ (mgV z + mgM H *ᵥ mgV x)) i ≤ _
    rw [Pi.add_apply]
    have h1 := (le_abs_self _).trans (mulVec_entry_le (fun i j => (ab K i j).trans_le (gK i j)) v1 i)
    have h2 : (m : ℝ) * (1e20 * 1e45) ≤ 30 * (1e20 * 1e45) := mul_le_mul_of_nonneg_right m2 (by norm_num)
    exact (add_le_add (gx i) (h1.trans h2)).trans (by norm_num)
  have A1 : ∀ i j, |(1 + mgM K * mgM H : Matrix (Fin n) (Fin n) ℝ) i j| ≤ 1e32 := fun i j => by
    rw [Matrix.add_apply]
    have h1 := mul_entry_le (fun i j => (ab K i j).trans_le (gK i j)) (fun i j => (ab H i j).trans_le (gH i j)) i j
    have h2 : (m : ℝ) * (1e20 * 1e10) ≤ 30 * (1e20 * 1e10) := mul_le_mul_of_nonneg_right m2 (by norm_num)
    have h3 : |(1 : Matrix (Fin n) (Fin n) ℝ) i j| ≤ 1 := by rw [one_apply]; split_ifs <;> simp
    exact (abs_add_le _ _).trans ((add_le_add h3 (h1.trans h2)).trans (by norm_num))
  have cP : ∀ i j, ((Gained.update m z H R K).mags (mgV x, mgM P)).2 i j ≤ 1e100 := fun i j => by
    show ((1 + mgM K * mgM H) * mgM P * (1 + mgM K * mgM H)ᵀ + mgM K * mgM R * (mgM K)ᵀ : Matrix (Fin n) (Fin n) ℝ) i j ≤ _
    rw [Matrix.add_apply]
    have h1 := (le_abs_self _).trans (mul_entry_le (mul_entry_le A1 fun i j => (ab P i j).trans_le (gP i j)) (fun i j => A1 j i : ∀ i j, |(1 + mgM K * mgM H : Matrix (Fin n) (Fin n) ℝ)ᵀ i j| ≤ 1e32) i j)
    have h2 := (le_abs_self _).trans (mul_entry_le (mul_entry_le (fun i j => (ab K i j).trans_le (gK i j)) fun i j => (ab R i j).trans_le (gR i j))
      (fun i j => (ab K j i).trans_le (gK j i) : ∀ i j, |(mgM K)ᵀ i j| ≤ 1e20) i j)
    have h3 : (n : ℝ) * (n * (1e32 * 1e20) * 1e32) ≤ 1000 * (1000 * (1e32 * 1e20) * 1e32) :=
      mul_le_mul n2 (mul_le_mul_of_nonneg_right (mul_le_mul_of_nonneg_right n2 (by norm_num)) (by norm_num)) (by positivity) (by norm_num)
    have h4 : (m : ℝ) * (m * (1e20 * 1e18) * 1e20) ≤ 30 * (30 * (1e20 * 1e18) * 1e20) :=
      mul_le_mul m2 (mul_le_mul_of_nonneg_right (mul_le_mul_of_nonneg_right m2 (by norm_num)) (by norm_num)) (by positivity) (by norm_num)
    exact (add_le_add (h1.trans h3) (h2.trans h4)).trans (by norm_num)
  have hc : 2 * m + 2 * n + 7 ≤ 10 ^ 15 := by have := w.states_le; have := w.meas_le; omega
  obtain ⟨y', Y', e, a, b, -, -⟩ := exec_rl h LinSolver.eigen (.update m z H R K) (dV_rl x) (dM_rl P) (mgV_floor x) (mgM_floor P) (by rw [zero_add]; exact hc) eK w.meas cx cP
  rw [zero_add] at a b
  choose y ey dy using fun i => (a i).near
  choose Y eY dY using fun i j => (b i j).near
  have hgr := gr_le hc
  have uS : IsUnit (H * P * Hᵀ + R).det := (innovation_low w.meas ρ0 w.cov w.noise).regular (by positivity)
  refine ⟨K, y, of Y, ?_, mK, dK, fun i => ?_, fun i j => ?_⟩
  · have e1 : y' = dV y := funext ey
    have e2 : Y' = dM (of Y) := by ext i j; exact eY i j
    rw [← e1, ← e2]
    exact e
  · have h1 : |y i - (x + K *ᵥ (z - H *ᵥ x)) i| ≤ (2 * m + 2 * n + 7 : ℕ) / 2 ^ 51 * ((Gained.update m z H R K).mags (mgV x, mgM P)).1 i :=
      (dy i).trans (mul_le_mul_of_nonneg_right (by show gr (2 * m + 2 * n + 7) - 1 ≤ _; linarith) (a i).M_nonneg)
    have h2 : |(x + K *ᵥ (z - H *ᵥ x)) i - (x + (P * Hᵀ * (H * P * Hᵀ + R)⁻¹) *ᵥ (z - H *ᵥ x)) i|
        ≤ m * n * η * p / ρ * gainTol n m (innovMax n p η ρ₁ / ρ) * ∑ l, |(z - H *ᵥ x) l| := by
      rw [Pi.add_apply, Pi.add_apply, add_sub_add_left_eq_sub, mulVec, mulVec, ← sub_dotProduct, dotProduct, Finset.mul_sum]
      refine (Finset.abs_sum_le_sum_abs _ _).trans (Finset.sum_le_sum fun l _ => ?_)
      rw [abs_mul]
      exact mul_le_mul_of_nonneg_right (dK i l) (abs_nonneg _)
    have h3 := abs_add_le (y i - (x + K *ᵥ (z - H *ᵥ x)) i) ((x + K *ᵥ (z - H *ᵥ x)) i - (x + (P * Hᵀ * (H * P * Hᵀ + R)⁻¹) *ᵥ (z - H *ᵥ x)) i)
    rw [sub_add_sub_cancel] at h3
    exact h3.trans (add_le_add h1 h2)
  · have hPs : Pᵀ = P := hP
    have hSs : (KA.innov P H R)ᵀ = KA.innov P H R := by
      have hRs : Rᵀ = R := hR
      simp only [KA.innov, transpose_add, transpose_mul, transpose_transpose, hPs, hRs, Matrix.mul_assoc]
    have h1 : |Y i j - (KA.joseph P H R K) i j| ≤ (2 * m + 2 * n + 7 : ℕ) / 2 ^ 51 * ((Gained.update m z H R K).mags (mgV x, mgM P)).2 i j :=
      (dY i j).trans (mul_le_mul_of_nonneg_right (by show gr (2 * m + 2 * n + 7) - 1 ≤ _; linarith) (b i j).M_nonneg)
    have h2 : KA.joseph P H R K - (1 - KA.gain P H R * H) * P = (K - KA.gain P H R) * KA.innov P H R * (K - KA.gain P H R)ᵀ := by
      rw [← KA.joseph_short hPs hSs uS, KA.joseph_opt hPs hSs uS, KA.joseph_gap hPs hSs uS K, add_sub_cancel_left]
    have ms : ∀ i j, |KA.innov P H R i j| ≤ innovMax n p η ρ₁ := fun i j => by
      rw [KA.innov, Matrix.add_apply]
      have q := mul_entry_le (mul_entry_le w.H_le w.P_le) (fun i j => w.H_le j i : ∀ i j, |Hᵀ i j| ≤ η) i j
      have q2 := (abs_add_le _ _).trans (add_le_add q (w.R_le i j))
      refine q2.trans (le_of_eq ?_)
      rw [innovMax]; ring
    have dG : ∀ i j, |(K - KA.gain P H R) i j| ≤ m * n * η * p / ρ * gainTol n m (innovMax n p η ρ₁ / ρ) := dK
    have h3 := mul_entry_le (B := (K - KA.gain P H R)ᵀ) (mul_entry_le dG ms) (fun i j => dG j i) i j
    rw [← h2, Matrix.sub_apply] at h3
    have h4 := abs_add_le (Y i j - (KA.joseph P H R K) i j) ((KA.joseph P H R K) i j - ((1 - KA.gain P H R * H) * P : Matrix (Fin n) (Fin n) ℝ) i j)
    rw [sub_add_sub_cancel] at h4
    refine h4.trans (add_le_add h1 (h3.trans (le_of_eq ?_)))
    ring

omit [Machine] in
theorem noisy_eg : Noisy (1 : Matrix (Fin 2) (Fin 2) ℝ) (!![1, 2] : Matrix (Fin 1) (Fin 2) ℝ) (1 : Matrix (Fin 1) (Fin 1) ℝ) 1 2 1 1 := by
  refine ⟨by norm_num, by norm_num, by norm_num, by norm_num, fun v => ?_, fun v => ?_, fun i j => ?_, fun i j => ?_, fun i j => ?_, by norm_num, by norm_num, by norm_num,
    by norm_num, by norm_num, by norm_num, by unfold luTol; norm_num⟩
  · rw [one_mulVec]; exact Finset.sum_nonneg fun k _ => mul_self_nonneg (v k)
  · rw [one_mulVec, one_mul]
  · rw [one_apply]; split_ifs <;> simp
  · fin_cases i; fin_cases j <;> simp
  · rw [one_apply]; split_ifs <;> simp

/-- two states, one measurement: the error of the gain is below `10⁻¹⁰` -/
example (h : Rounds53 r) (P : Matrix (Fin 2) (Fin 2) ℝ) (H : Matrix (Fin 1) (Fin 2) ℝ) (R : Matrix (Fin 1) (Fin 1) ℝ) (hP : P = 1) (hH : H = !![1, 2]) (hR : R = 1) :
    ∃ K : Matrix (Fin 2) (Fin 1) ℝ, gainC LinSolver.eigen (dM P) (dM H) (dM R : Matrix _ _ (Dbl r)) = dM K
      ∧ ∀ i j, |K i j - (P * Hᵀ * (H * P * Hᵀ + R)⁻¹) i j| ≤ 1e-10 := by
  subst hP hH hR
  obtain ⟨K, e, -, hK⟩ := C148_gain h noisy_eg
  refine ⟨K, e, fun i j => (hK i j).trans ?_⟩
  unfold gainTol innovMax luTol
  norm_num

/-- the remaining hypotheses of `C148_update` -/
example : (1 : Matrix (Fin 2) (Fin 2) ℝ).IsSymm ∧ (1 : Matrix (Fin 1) (Fin 1) ℝ).IsSymm ∧ (2 : ℝ) ≤ 1e10 ∧ (16 * (1 : ℕ) ^ 3 * (2 : ℕ) * 2 * 1 / 1 : ℝ) ≤ 1e20 :=
  ⟨transpose_one, transpose_one, by norm_num, by norm_num⟩

end NavFuse.Props
