import Verif.Lemmas.RoundCycle

/-! # Property C154: the Kalman filter in double precision over runs of any length

The computed run (all operations on doubles, the inverse as Eigen computes it) is compared with the exact Kalman filter on the same numbers.  The distance
does not grow with the number of cycles. -/

namespace NavFuse.Props
open Matrix Kalman Spec KA
variable [Machine] {r : ℝ → ℝ} {n m : ℕ} {φ η q b ρ ρ₁ X Z N : ℝ}

/-- the textbook cycle: update with the gain `P Hᵀ (H P Hᵀ + R)⁻¹`, then prediction -/
noncomputable def Cyc.kalman (c : Cyc n m) (s : (Fin n → ℝ) × Matrix (Fin n) (Fin n) ℝ) : (Fin n → ℝ) × Matrix (Fin n) (Fin n) ℝ :=
  let G := s.2 * c.Hᵀ * (c.H * s.2 * c.Hᵀ + c.R)⁻¹
  (c.F *ᵥ (s.1 + G *ᵥ (c.z - c.H *ᵥ s.1)), c.F * ((1 - G * c.H) * s.2) * c.Fᵀ + c.Q)

/-- models within bounds: process noise at least `q` and measurement noise at least `ρ` in every direction -/
structure Cyc.Fits (c : Cyc n m) (φ η q ρ ρ₁ Z : ℝ) : Prop where
  F_le : ∀ i j, |c.F i j| ≤ φ
  H_le : ∀ i j, |c.H i j| ≤ η
  R_le : ∀ i j, |c.R i j| ≤ ρ₁
  z_le : ∀ i, |c.z i| ≤ Z
  Q_symm : c.Q.IsSymm
  R_symm : c.R.IsSymm
  Q_ge : ∀ v : Fin n → ℝ, q * (v ⬝ᵥ v) ≤ v ⬝ᵥ (c.Q *ᵥ v)
  R_ge : ∀ v : Fin m → ℝ, ρ * (v ⬝ᵥ v) ≤ v ⬝ᵥ (c.R *ᵥ v)

/-- along the exact run the variances stay below `b`, the estimate below `X` and the innovations below `N` -/
def Along (b X N : ℝ) : List (Cyc n m) → (Fin n → ℝ) × Matrix (Fin n) (Fin n) ℝ → Prop
  | [], s => (∀ v, v ⬝ᵥ (s.2 *ᵥ v) ≤ b * (v ⬝ᵥ v)) ∧ ∀ i, |s.1 i| ≤ X
  | c :: cs, s => (∀ v, v ⬝ᵥ (s.2 *ᵥ v) ≤ b * (v ⬝ᵥ v)) ∧ (∀ i, |s.1 i| ≤ X) ∧ (∀ l, |(c.z - c.H *ᵥ s.1) l| ≤ N) ∧ Along b X N cs (c.kalman s)

/-- rounding errors of one cycle in an entry of the covariance -/
noncomputable def lrErr (n m : ℕ) (φ η b ρ ρ₁ : ℝ) : ℝ := cycErr n m φ b (updMag n m (gainMax n m η (4 * b) ρ) η (4 * b) ρ₁)

/-- asymmetry of the computed covariance, relative to the variances -/
noncomputable def lrAsym (n m : ℕ) (φ η q b ρ ρ₁ : ℝ) : ℝ := 8 * (n * lrErr n m φ η b ρ ρ₁) * b / q ^ 2

/-- error of the computed gain for a given covariance -/
noncomputable def lrGain (n m : ℕ) (η b ρ ρ₁ : ℝ) : ℝ := m * n * η * (4 * b) / ρ * gainTol n m (innovMax n (4 * b) η ρ₁ / ρ)

/-- change of the gain with the covariance: entries of the covariance at most `p` and changed by at most `δ` -/
noncomputable def gainShift (n m : ℕ) (η ρ p δ : ℝ) : ℝ := m * (n * (n * ((1 + m * (m * (n * (p * η) * (m / ρ)) * η)) * δ) * η) * (m / ρ))

/-- variance lost through the error of the gain -/
noncomputable def lrLoss (n m : ℕ) (φ η q b ρ ρ₁ : ℝ) : ℝ :=
  let γ := lrGain n m η b ρ ρ₁ + gainShift n m η ρ (4 * b) (lrAsym n m φ η q b ρ ρ₁ * (2 * b))
  n * (m * (m * (n * (φ * γ) * innovMax n (4 * b) η ρ₁) * (n * (φ * γ))))

/-- relative error of the computed variances -/
noncomputable def lrVar (n m : ℕ) (φ η q b ρ ρ₁ : ℝ) : ℝ := b * (n * lrErr n m φ η b ρ ρ₁ + lrLoss n m φ η q b ρ ρ₁) / q ^ 2

/-- error that one cycle adds to the estimate -/
noncomputable def lrStep (n m : ℕ) (φ η q b ρ ρ₁ X Z N : ℝ) : ℝ :=
  n * (φ * (m * ((lrGain n m η b ρ ρ₁ + gainShift n m η ρ b (lrVar n m φ η q b ρ ρ₁ * b + lrAsym n m φ η q b ρ ρ₁ * (2 * b))) * N)))
    + estErr n m φ (estMag n m (gainMax n m η (4 * b) ρ) η (2 * X) Z)

/-- error of the computed estimate -/
noncomputable def lrEst (n m : ℕ) (φ η q b ρ ρ₁ X Z N : ℝ) : ℝ := 16 * (b / q) * Real.sqrt (n * b / q) * lrStep n m φ η q b ρ ρ₁ X Z N

/-- side conditions: sizes, a well-conditioned innovation covariance, and errors below the variances -/
structure LongRun (n m : ℕ) (φ η q b ρ ρ₁ X Z N : ℝ) : Prop where
  states : 0 < n
  states_le : n ≤ 1000
  meas : 0 < m
  meas_le : m ≤ 30
  le_φ : 1 ≤ φ
  le_η : 1e-12 ≤ η
  η_le : η ≤ 1e20
  q_pos : 0 < q
  q_le : q ≤ b
  le_b : 1e-12 ≤ b
  b_le : b ≤ 1e19
  le_ρ : 1e-16 ≤ ρ
  ρ_le : ρ ≤ ρ₁
  size : n ^ 2 * (η ^ 2 * (4 * b)) + ρ₁ ≤ 1e18
  cond : (n ^ 2 * (η ^ 2 * (4 * b)) + ρ₁) * (16 * m ^ 3 * luTol m + (8 * n + 12) * m ^ 2 / 2 ^ 52) ≤ ρ
  asym : lrAsym n m φ η q b ρ ρ₁ ≤ 1
  var : lrVar n m φ η q b ρ ρ₁ ≤ 1 / 2
  le_X : 1e-50 ≤ X
  le_Z : 1e-50 ≤ Z
  N_nonneg : 0 ≤ N
  X_le : n * (φ * (2 * estMag n m (gainMax n m η (4 * b) ρ) η (2 * X) Z)) ≤ 1e100
  est : lrEst n m φ η q b ρ ρ₁ X Z N ≤ X

omit [Machine] in
theorem kalman_ric (c : Cyc n m) (x : Fin n → ℝ) {P : Matrix (Fin n) (Fin n) ℝ} (hP : IsCov P) (hR : IsPosCov c.R) :
    c.kalman (x, P) = (c.F *ᵥ (x + gain P c.H c.R *ᵥ (c.z - c.H *ᵥ x)), ric c.F c.Q c.H c.R P) := by
  have hP' := isCov_iff.1 hP
  have hS := innov_pd hP' c.H (isPosCov_iff.1 hR)
  rw [ric, joseph_short (psd_tr hP') (psd_tr hS.posSemidef) (pd_det hS)]
  rfl

omit [Machine] in
theorem ops_kalman {L : LinSolver ℝ} (hL : L.Correct) (c : Cyc n m) (x : Fin n → ℝ) {P : Matrix (Fin n) (Fin n) ℝ} (hP : IsCov P) (hR : IsPosCov c.R)
    (os : List (FilterOp n)) : runFilter L (c.ops ++ os) (⟨n, x⟩, ⟨n, n, P⟩) = runFilter L os (⟨n, (c.kalman (x, P)).1⟩, ⟨n, n, (c.kalman (x, P)).2⟩) := by
  rw [kalman_ric c x hP hR]
  simp [Cyc.ops, runFilter, FilterOp.exec, update_R hL x (isCov_iff.1 hP) c.z c.H (isPosCov_iff.1 hR) x P, predict_R, osimp, ric]

/-- the distance of a computed state `(x', P')` from an exact one, as it is kept along a run -/
structure Kept (n m : ℕ) (φ η q b ρ ρ₁ X Z N : ℝ) (x : Fin n → ℝ) (P : Matrix (Fin n) (Fin n) ℝ) (x' : Fin n → ℝ) (P' : Matrix (Fin n) (Fin n) ℝ) : Prop where
  cov : IsCov P
  var : ∀ v, |quad P' v - quad P v| ≤ lrVar n m φ η q b ρ ρ₁ * quad P v
  skew : SkewLe P' (lrAsym n m φ η q b ρ ρ₁)
  est : ∀ u, |u ⬝ᵥ (x' - x)| ≤ 8 * b / q * (lrStep n m φ η q b ρ ρ₁ X Z N * Real.sqrt (2 * n / q)) * Real.sqrt (quad P' u)

section
variable {x x' : Fin n → ℝ} {P P' : Matrix (Fin n) (Fin n) ℝ}

omit [Machine] in
theorem LongRun.err_nonneg (w : LongRun n m φ η q b ρ ρ₁ X Z N) : 0 ≤ lrErr n m φ η b ρ ρ₁ ∧ 0 ≤ lrGain n m η b ρ ρ₁ ∧ 0 ≤ innovMax n (4 * b) η ρ₁ := by
  have b0 : 0 < b := lt_of_lt_of_le (by norm_num) w.le_b
  have η0 : 0 < η := lt_of_lt_of_le (by norm_num) w.le_η
  have φ0 : 0 < φ := lt_of_lt_of_le (by norm_num) w.le_φ
  have ρ0 : 0 < ρ := lt_of_lt_of_le (by norm_num) w.le_ρ
  have ρ10 : 0 < ρ₁ := ρ0.trans_le w.ρ_le
  have l0 : 0 ≤ luTol m := by unfold luTol; positivity
  refine ⟨?_, ?_, ?_⟩
  · unfold lrErr cycErr updMag gainMax; positivity
  · unfold lrGain gainTol innovMax; positivity
  · unfold innovMax; positivity

omit [Machine] in
theorem LongRun.tol_nonneg (w : LongRun n m φ η q b ρ ρ₁ X Z N) :
    0 ≤ lrAsym n m φ η q b ρ ρ₁ ∧ 0 ≤ lrLoss n m φ η q b ρ ρ₁ ∧ 0 ≤ lrVar n m φ η q b ρ ρ₁ ∧ 0 ≤ lrStep n m φ η q b ρ ρ₁ X Z N := by
  obtain ⟨e0, g0, i0⟩ := w.err_nonneg
  have b0 : 0 < b := lt_of_lt_of_le (by norm_num) w.le_b
  have η0 : 0 < η := lt_of_lt_of_le (by norm_num) w.le_η
  have φ0 : 0 < φ := lt_of_lt_of_le (by norm_num) w.le_φ
  have ρ0 : 0 < ρ := lt_of_lt_of_le (by norm_num) w.le_ρ
  have X0 : 0 < X := lt_of_lt_of_le (by norm_num) w.le_X
  have Z0 : 0 < Z := lt_of_lt_of_le (by norm_num) w.le_Z
  have N0 := w.N_nonneg
  have q0 := w.q_pos
  have a0 : 0 ≤ lrAsym n m φ η q b ρ ρ₁ := by unfold lrAsym; positivity
  have l0 : 0 ≤ lrLoss n m φ η q b ρ ρ₁ := by
    have : 0 ≤ gainShift n m η ρ (4 * b) (lrAsym n m φ η q b ρ ρ₁ * (2 * b)) := by unfold gainShift; positivity
    unfold lrLoss; positivity
  have v0 : 0 ≤ lrVar n m φ η q b ρ ρ₁ := by unfold lrVar; positivity
  refine ⟨a0, l0, v0, ?_⟩
  have : 0 ≤ gainShift n m η ρ b (lrVar n m φ η q b ρ ρ₁ * b + lrAsym n m φ η q b ρ ρ₁ * (2 * b)) := by unfold gainShift; positivity
  unfold lrStep estErr estMag gainMax; positivity

omit [Machine] in
/-- what is kept bounds the computed state -/
theorem Kept.bounds (w : LongRun n m φ η q b ρ ρ₁ X Z N) (k : Kept n m φ η q b ρ ρ₁ X Z N x P x' P') (hb : ∀ v, quad P v ≤ b * (v ⬝ᵥ v)) :
    (∀ v, quad P v / 2 ≤ quad P' v) ∧ (∀ v, quad P' v ≤ 2 * b * (v ⬝ᵥ v)) ∧ (∀ i j, |skw P' i j| ≤ lrAsym n m φ η q b ρ ρ₁ * (2 * b)) ∧ (∀ i j, |P' i j| ≤ 4 * b)
      ∧ (∀ i j, |P i j| ≤ b) ∧ (∀ i j, |P' i j - P i j| ≤ lrVar n m φ η q b ρ ρ₁ * b + lrAsym n m φ η q b ρ ρ₁ * (2 * b))
      ∧ ∀ i, |x' i - x i| ≤ lrEst n m φ η q b ρ ρ₁ X Z N := by
  obtain ⟨a0, -, v0, s0⟩ := w.tol_nonneg
  have b0 : 0 < b := lt_of_lt_of_le (by norm_num) w.le_b
  have q0 := w.q_pos
  have P0 : ∀ v, 0 ≤ quad P v := k.cov.2
  have lo : ∀ v, quad P v / 2 ≤ quad P' v := fun v => by
    have h1 := (abs_le.1 (k.var v)).1
    have h2 := mul_le_mul_of_nonneg_right w.var (P0 v)
    linarith
  have hi : ∀ v, quad P' v ≤ 2 * b * (v ⬝ᵥ v) := fun v => by
    have h1 := (abs_le.1 (k.var v)).2
    have h2 := mul_le_mul_of_nonneg_right w.var (P0 v)
    have h3 := hb v
    have h4 := mul_nonneg b0.le (vv_nonneg v)
    linarith
  have P'0 : ∀ v, 0 ≤ quad P' v := fun v => le_trans (by have := P0 v; linarith) (lo v)
  have sk := skw_entry_le (by positivity) hi a0 k.skew
  have symP_self : symP P = P := by
    have : Pᵀ = P := k.cov.1
    ext i j; simp [symP, this]; ring
  refine ⟨lo, hi, sk, fun i j => ?_, fun i j => ?_, fun i j => ?_, fun i => ?_⟩
  · refine (entry_le (by positivity) P'0 hi a0 k.skew i j).trans ?_
    have := mul_le_mul_of_nonneg_right w.asym b0.le
    linarith
  · have := sym_entry_le P0 hb i j
    rwa [symP_self] at this
  · have e : P' - P = symP (P' - P) + skw P' := by
      conv_lhs => rw [← sym_add_skw (P' - P)]
      congr 1
      have : Pᵀ = P := k.cov.1
      ext i j; simp [skw, this]
    have h1 := sym_small (D := P' - P) (c := lrVar n m φ η q b ρ ρ₁ * b) (fun v => by
      rw [quad_minus]
      refine (k.var v).trans ((mul_le_mul_of_nonneg_left (hb v) v0).trans (le_of_eq (by ring)))) i j
    rw [← Matrix.sub_apply, e, Matrix.add_apply]
    exact (abs_add_le _ _).trans (add_le_add h1 (sk i j))
  · have h1 := k.est (Pi.single i 1)
    rw [single_one_dotProduct, Pi.sub_apply] at h1
    have h2 : Real.sqrt (quad P' (Pi.single i 1)) ≤ Real.sqrt (2 * b) := Real.sqrt_le_sqrt (by simpa using hi (Pi.single i 1))
    refine (h1.trans (mul_le_mul_of_nonneg_left h2 (by positivity))).trans (le_of_eq ?_)
    have e : Real.sqrt (2 * n / q) * Real.sqrt (2 * b) = 2 * Real.sqrt (n * b / q) := by
      have e2 : (2 : ℝ) = Real.sqrt (2 ^ 2) := by rw [Real.sqrt_sq (by norm_num)]
      rw [← Real.sqrt_mul (by positivity)]
      nth_rewrite 3 [e2]
      rw [← Real.sqrt_mul (by positivity)]
      congr 1; ring
    rw [lrEst]
    calc _ = 8 * b / q * lrStep n m φ η q b ρ ρ₁ X Z N * (Real.sqrt (2 * n / q) * Real.sqrt (2 * b)) := by ring
      _ = _ := by rw [e]; ring

/-- one cycle keeps the distance -/
theorem Kept.step (h : Rounds53 r) (w : LongRun n m φ η q b ρ ρ₁ X Z N) (k : Kept n m φ η q b ρ ρ₁ X Z N x P x' P') (c : Cyc n m) (hc : c.Fits φ η q ρ ρ₁ Z)
    (hb : ∀ v, quad P v ≤ b * (v ⬝ᵥ v)) (hx : ∀ i, |x i| ≤ X) (hN : ∀ l, |(c.z - c.H *ᵥ x) l| ≤ N) (hb' : ∀ v, quad (c.kalman (x, P)).2 v ≤ b * (v ⬝ᵥ v)) :
    ∃ y Y, (∀ gs, runD LinSolver.eigen (c.calls ++ gs) (⟨n, dV x'⟩, ⟨n, n, (dM P' : Matrix _ _ (Dbl r))⟩) = runD LinSolver.eigen gs (⟨n, dV y⟩, ⟨n, n, dM Y⟩))
      ∧ Kept n m φ η q b ρ ρ₁ X Z N (c.kalman (x, P)).1 (c.kalman (x, P)).2 y Y := by
  obtain ⟨lo, hi, sk, P'4, Pb, dP, dx⟩ := k.bounds w hb
  obtain ⟨e0, g0, i0⟩ := w.err_nonneg
  obtain ⟨a0, l0, v0, s0⟩ := w.tol_nonneg
  have b0 : 0 < b := lt_of_lt_of_le (by norm_num) w.le_b
  have q0 := w.q_pos
  have ρ0 : 0 < ρ := lt_of_lt_of_le (by norm_num) w.le_ρ
  have η0 : 0 < η := lt_of_lt_of_le (by norm_num) w.le_η
  have φ0 : 0 < φ := lt_of_lt_of_le (by norm_num) w.le_φ
  have n0 : (0 : ℝ) < n := by exact_mod_cast w.states
  have n1 : (1 : ℝ) ≤ n := by exact_mod_cast w.states
  have m1 : (1 : ℝ) ≤ m := by exact_mod_cast w.meas
  have P0 : ∀ v, 0 ≤ quad P v := k.cov.2
  have P'0 : ∀ v, 0 ≤ quad P' v := fun v => le_trans (by have := P0 v; linarith) (lo v)
  have hRp : IsPosCov c.R := ⟨hc.R_symm, fun v hv => lt_of_lt_of_le (mul_pos ρ0 (by
    rcases (vv_nonneg v).eq_or_lt with h0 | h0
    · exact absurd (dotProduct_self_eq_zero.1 h0.symm) hv
    · exact h0)) (hc.R_ge v)⟩
  have hRc : IsCov c.R := isCov_iff.2 (isPosCov_iff.1 hRp).posSemidef
  rw [kalman_ric c x k.cov hRp] at hb' ⊢
  simp only at hb' ⊢
  -- the process noise is below the exact covariance
  have hQb : ∀ v, quad c.Q v ≤ b * (v ⬝ᵥ v) := fun v => by
    refine le_trans ?_ (hb' v)
    have h1 := quad_cycle c.F c.Q P 0 c.H c.R (gain P c.H c.R) v
    rw [add_zero] at h1
    have h2 : quad (ric c.F c.Q c.H c.R P) v = _ := h1
    have h5 : quad (0 : Matrix (Fin n) (Fin n) ℝ) v = 0 := by simp [quad]
    rw [h2, h5]
    have h3 := P0 ((1 - gain P c.H c.R * c.H)ᵀ *ᵥ (c.Fᵀ *ᵥ v))
    have h4 : 0 ≤ quad c.R ((gain P c.H c.R)ᵀ *ᵥ (c.Fᵀ *ᵥ v)) := hRc.2 _
    linarith
  have hQ0 : ∀ v, 0 ≤ quad c.Q v := fun v => (mul_nonneg q0.le (vv_nonneg v)).trans (hc.Q_ge v)
  have Qb : ∀ i j, |c.Q i j| ≤ b := fun i j => by
    have := sym_entry_le hQ0 hQb i j
    have e : symP c.Q = c.Q := by
      have : c.Qᵀ = c.Q := hc.Q_symm
      ext i j; simp [symP, this]; ring
    rwa [e] at this
  have noisy : Noisy P' c.H c.R (4 * b) η ρ ρ₁ := {
    states := w.states, states_le := w.states_le, meas := w.meas, meas_le := w.meas_le, cov := P'0, noise := hc.R_ge, P_le := P'4, H_le := hc.H_le, R_le := hc.R_le,
    le_p := le_trans (by norm_num) (show (1e-12 : ℝ) ≤ 4 * b by linarith [w.le_b]), le_η := le_trans (by norm_num) w.le_η, le_ρ := w.le_ρ, η_le := w.η_le,
    p_le := by linarith [w.b_le], size := w.size, cond := w.cond }
  have x'X : ∀ i, |x' i| ≤ 2 * X := fun i => by
    have h1 := (dx i).trans w.est
    have h2 := hx i
    have h3 := abs_sub_abs_le_abs_sub (x' i) (x i)
    linarith
  have gm : 1e-50 ≤ gainMax n m η (4 * b) ρ := by
    have ρ18 : ρ ≤ 1e18 := by
      have h1 := w.size
      have h2 := w.ρ_le
      have : 0 ≤ (n : ℝ) ^ 2 * (η ^ 2 * (4 * b)) := by positivity
      linarith
    rw [gainMax, le_div_iff₀ ρ0]
    have h1 : (1e-50 : ℝ) * ρ ≤ 1e-50 * 1e18 := mul_le_mul_of_nonneg_left ρ18 (by norm_num)
    have h2 : (1 : ℝ) * 1e-12 * (4 * 1e-12) ≤ 16 * m ^ 3 * n * η * (4 * b) := by
      have q1 : (1 : ℝ) ≤ m ^ 3 := one_le_pow₀ m1
      have q2 : (1 : ℝ) * 1 ≤ m ^ 3 * n := mul_le_mul q1 n1 (by norm_num) (by positivity)
      have q3 : (1 : ℝ) ≤ 16 * m ^ 3 * n := by linarith
      have q4 := w.le_η
      have q5 := w.le_b
      exact mul_le_mul (mul_le_mul q3 q4 (by norm_num) (by positivity)) (by linarith) (by norm_num) (by positivity)
    exact h1.trans (le_trans (by norm_num) h2)
  have eq1 : 8 * (n * lrErr n m φ η b ρ ρ₁) * b ≤ q ^ 2 := by
    have := w.asym
    rwa [lrAsym, div_le_one (by positivity)] at this
  have ne8 : 8 * (n * lrErr n m φ η b ρ ρ₁) ≤ q := by
    by_contra hh
    push Not at hh
    have h1 : q * q ≤ q * b := mul_le_mul_of_nonneg_left w.q_le q0.le
    have h2 : q * b < 8 * (n * lrErr n m φ η b ρ ρ₁) * b := mul_lt_mul_of_pos_right hh b0
    nlinarith
  have c1 : n * (n * (φ * (2 * updMag n m (gainMax n m η (4 * b) ρ) η (4 * b) ρ₁)) * φ) + b ≤ 1e100 := by
    set M := updMag n m (gainMax n m η (4 * b) ρ) η (4 * b) ρ₁ with hM
    have ρ10 : 0 < ρ₁ := ρ0.trans_le w.ρ_le
    have M0 : 0 ≤ M := by rw [hM]; unfold updMag gainMax; positivity
    set T := n * (n * (φ * (2 * M)) * φ) + b with hT
    have T0 : 0 ≤ T := by positivity
    have h1 : (2 * n + 3) / 2 ^ 51 * T ≤ lrErr n m φ η b ρ ρ₁ := by
      rw [lrErr, cycErr, ← hM, ← hT]
      have : 0 ≤ (2 * m + 2 * n + 7 : ℝ) / 2 ^ 51 * (n * (n * (φ * M) * φ)) := by positivity
      linarith
    have h2 : 1 / 2 ^ 51 * T ≤ (2 * n + 3) / 2 ^ 51 * T := mul_le_mul_of_nonneg_right (by
      refine div_le_div_of_nonneg_right ?_ (by norm_num); linarith) T0
    have h3 : lrErr n m φ η b ρ ρ₁ ≤ n * lrErr n m φ η b ρ ρ₁ := le_mul_of_one_le_left e0 n1
    have h4 := w.q_le
    have h5 := w.b_le
    have h6 : 1 / 2 ^ 51 * T ≤ 1e19 := by linarith
    have h7 : T ≤ 1e19 * 2 ^ 51 := by
      rw [one_div, inv_mul_le_iff₀ (by norm_num)] at h6; linarith
    exact h7.trans (by norm_num)
  obtain ⟨K, y, Y, run, -, dK, dy, dY⟩ := cycle_dbl h c noisy hc.F_le Qb x'X hc.z_le w.le_φ (le_trans (by norm_num) w.le_b) (by linarith [w.le_X]) w.le_Z gm
    (le_trans (by norm_num) (w.le_ρ.trans w.ρ_le)) c1 w.X_le
  refine ⟨y, Y, run, ?_⟩
  set E := Y - (c.F * joseph P' c.H c.R K * c.Fᵀ + c.Q) with hE
  have eY : Y = c.F * joseph P' c.H c.R K * c.Fᵀ + c.Q + E := by rw [hE]; abel
  have Ee : ∀ i j, |E i j| ≤ lrErr n m φ η b ρ ρ₁ := fun i j => by rw [hE, Matrix.sub_apply]; exact dY i j
  have he : n * lrErr n m φ η b ρ ρ₁ ≤ q / 2 := by linarith
  have hX0 := sym_isCov P'0
  have qX : ∀ v, 0 ≤ quad (symP P') v := hX0.2
  -- the computed gain against the best one for the symmetrised covariance
  have gX : ∀ i j, |(K - gain (symP P') c.H c.R) i j| ≤ lrGain n m η b ρ ρ₁ + gainShift n m η ρ (4 * b) (lrAsym n m φ η q b ρ ρ₁ * (2 * b)) := fun i j => by
    have h1 := gain_near (A := P') (B := symP P') (D := skw P') w.meas ρ0 P'0 qX hc.R_ge (p := 4 * b) (fun i j => (sym_entry_le P'0 hi i j).trans (by linarith)) hc.H_le
      (by nth_rewrite 2 [← sym_add_skw P']; abel) sk i j
    have h2 := abs_add_le (K i j - gain P' c.H c.R i j) (gain P' c.H c.R i j - gain (symP P') c.H c.R i j)
    rw [sub_add_sub_cancel] at h2
    exact h2.trans (add_le_add (dK i j) h1)
  have iX : ∀ i j, |innov (symP P') c.H c.R i j| ≤ innovMax n (4 * b) η ρ₁ := fun i j => by
    rw [innov, Matrix.add_apply]
    have h1 := mul_entry_le (B := c.Hᵀ) (mul_entry_le hc.H_le (fun i j => (sym_entry_le P'0 hi i j).trans (by linarith : 2 * b ≤ 4 * b))) (fun i j => hc.H_le j i) i j
    refine ((abs_add_le _ _).trans (add_le_add h1 (hc.R_le i j))).trans (le_of_eq ?_)
    rw [innovMax]; ring
  have s1 : lrVar n m φ η q b ρ ρ₁ ≤ 1 := w.var.trans (by norm_num)
  have V := var_step (F := c.F) (K := K) (g := lrLoss n m φ η q b ρ ρ₁) hRp hc.Q_ge q0 b0 v0 s1 Ee k.cov P'0 k.var hb' (fun v => loss_le hc.F_le gX iX v) l0 e0
  have eV : (1 - q / b) * lrVar n m φ η q b ρ ρ₁ + (n * lrErr n m φ η b ρ ρ₁ + lrLoss n m φ η q b ρ ρ₁) / q = lrVar n m φ η q b ρ ρ₁ := by
    rw [lrVar]; field_simp; ring
  rw [eV, ← eY] at V
  have cR : IsCov (ric c.F c.Q c.H c.R P) := ric_isCov ⟨hc.Q_symm, hQ0⟩ hRp k.cov
  have Y2 : ∀ v, quad Y v ≤ 2 * b * (v ⬝ᵥ v) := fun v => by
    have h1 := (abs_le.1 (V v)).2
    have h2 : lrVar n m φ η q b ρ ρ₁ * quad (ric c.F c.Q c.H c.R P) v ≤ 1 * quad (ric c.F c.Q c.H c.R P) v := mul_le_mul_of_nonneg_right s1 (cR.2 v)
    have h3 := hb' v
    linarith
  have Y2' := Y2
  rw [eY] at Y2'
  have S := skew_step hc.Q_symm hRc hc.Q_ge q0 w.q_le a0 Ee he e0 P'0 k.skew Y2'
  have eS : (1 - q / (4 * b)) * lrAsym n m φ η q b ρ ρ₁ + 2 * (n * lrErr n m φ η b ρ ρ₁) / q = lrAsym n m φ η q b ρ ρ₁ := by
    rw [lrAsym]; field_simp; ring
  rw [eS, ← eY] at S
  refine ⟨cR, V, S, fun u => ?_⟩
  -- the estimate
  set G := gain P c.H c.R with hG
  set ν := c.z - c.H *ᵥ x with hν
  set f := y - c.F *ᵥ (x' + K *ᵥ (c.z - c.H *ᵥ x')) with hf
  have gP : ∀ i j, |(K - G) i j| ≤ lrGain n m η b ρ ρ₁ + gainShift n m η ρ b (lrVar n m φ η q b ρ ρ₁ * b + lrAsym n m φ η q b ρ ρ₁ * (2 * b)) := fun i j => by
    have h1 := gain_near (A := P') (B := P) (D := P' - P) w.meas ρ0 P'0 P0 hc.R_ge Pb hc.H_le rfl dP i j
    have h2 := abs_add_le (K i j - gain P' c.H c.R i j) (gain P' c.H c.R i j - gain P c.H c.R i j)
    rw [sub_add_sub_cancel] at h2
    exact h2.trans (add_le_add (dK i j) h1)
  have ha : ∀ i, |(c.F *ᵥ ((K - G) *ᵥ ν) + f) i| ≤ lrStep n m φ η q b ρ ρ₁ X Z N := fun i => by
    rw [Pi.add_apply]
    exact (abs_add_le _ _).trans (add_le_add (mulVec_entry_le hc.F_le (mulVec_entry_le gP hN) i) (dy i))
  have D := est_step hRc hc.Q_ge q0 w.q_le Ee he P'0 Y2' (w := 8 * b / q * (lrStep n m φ η q b ρ ρ₁ X Z N * Real.sqrt (2 * n / q))) (by positivity) s0 k.est ha u
  rw [← eY] at D
  have ed : y - c.F *ᵥ (x + G *ᵥ ν) = (c.F * (1 - K * c.H)) *ᵥ (x' - x) + (c.F *ᵥ ((K - G) *ᵥ ν) + f) := by
    have e1 : x' + K *ᵥ (c.z - c.H *ᵥ x') - (x + G *ᵥ ν) = (1 - K * c.H) *ᵥ (x' - x) + (K - G) *ᵥ ν := by
      rw [hν]
      simp only [sub_mulVec, one_mulVec, mulVec_sub, ← mulVec_mulVec]
      abel
    have e2 : c.F *ᵥ (x' + K *ᵥ (c.z - c.H *ᵥ x')) - c.F *ᵥ (x + G *ᵥ ν) = c.F *ᵥ ((1 - K * c.H) *ᵥ (x' - x)) + c.F *ᵥ ((K - G) *ᵥ ν) := by
      rw [← mulVec_sub, e1, mulVec_add]
    rw [← mulVec_mulVec, ← add_assoc, ← e2, hf]
    abel
  rw [ed]
  refine D.trans (le_of_eq ?_)
  congr 1
  field_simp
  ring
end

/-- C154. A Kalman filter whose process noise is at least `q` and whose variances stay below `b` (in every direction), run in double precision in any rounding
mode with Eigen's inverse, through any number of cycles with models that may change from cycle to cycle.  All calls succeed and all numbers are finite.
Compared with the exact filter on the same numbers the computed variances are within the fraction `lrVar`, the covariance is symmetric up to `4 b lrAsym`, and the
estimate is within `lrEst`.  None of these bounds depends on the number of cycles. -/
theorem C154_long_run (h : Rounds53 r) (w : LongRun n m φ η q b ρ ρ₁ X Z N) {L : LinSolver ℝ} (hL : L.Correct) (cs : List (Cyc n m))
    (hc : ∀ c ∈ cs, c.Fits φ η q ρ ρ₁ Z) (x : Fin n → ℝ) (P : Matrix (Fin n) (Fin n) ℝ) (hP : IsCov P) (al : Along b X N cs (x, P)) :
    ∃ (y y' : Fin n → ℝ) (Y Y' : Matrix (Fin n) (Fin n) ℝ),
      runD LinSolver.eigen (cs.flatMap Cyc.calls) (⟨n, dV x⟩, ⟨n, n, (dM P : Matrix _ _ (Dbl r))⟩) = .ok (⟨n, dV y⟩, ⟨n, n, dM Y⟩)
      ∧ runFilter L (cs.flatMap Cyc.ops) (⟨n, x⟩, ⟨n, n, P⟩) = .ok (⟨n, y'⟩, ⟨n, n, Y'⟩)
      ∧ (y', Y') = cs.foldl (fun s c => c.kalman s) (x, P) ∧ IsCov Y'
      ∧ (∀ i, |y i - y' i| ≤ lrEst n m φ η q b ρ ρ₁ X Z N)
      ∧ (∀ v, |v ⬝ᵥ (Y *ᵥ v) - v ⬝ᵥ (Y' *ᵥ v)| ≤ lrVar n m φ η q b ρ ρ₁ * (v ⬝ᵥ (Y' *ᵥ v)))
      ∧ (∀ i j, |Y i j - Y j i| ≤ 4 * b * lrAsym n m φ η q b ρ ρ₁)
      ∧ ∀ i j, |Y i j - Y' i j| ≤ b * (lrVar n m φ η q b ρ ρ₁ + 2 * lrAsym n m φ η q b ρ ρ₁) := by
  obtain ⟨a0, -, v0, s0⟩ := w.tol_nonneg
  have b0 : 0 < b := lt_of_lt_of_le (by norm_num) w.le_b
  have q0 := w.q_pos
  have ρ0 : 0 < ρ := lt_of_lt_of_le (by norm_num) w.le_ρ
  have start : Kept n m φ η q b ρ ρ₁ X Z N x P x P :=
    ⟨hP, fun v => by rw [sub_self, abs_zero]; exact mul_nonneg v0 (hP.2 v), fun u v => by
      rw [skw_symm hP.1, zero_mulVec, dotProduct_zero, abs_zero]; positivity, fun u => by
      rw [sub_self, dotProduct_zero, abs_zero]; positivity⟩
  suffices H : ∀ (cs : List (Cyc n m)) (x : Fin n → ℝ) (P : Matrix (Fin n) (Fin n) ℝ) (x' : Fin n → ℝ) (P' : Matrix (Fin n) (Fin n) ℝ),
      (∀ c ∈ cs, c.Fits φ η q ρ ρ₁ Z) → Along b X N cs (x, P) → Kept n m φ η q b ρ ρ₁ X Z N x P x' P' →
      ∃ (y : Fin n → ℝ) (Y : Matrix (Fin n) (Fin n) ℝ),
        runD LinSolver.eigen (cs.flatMap Cyc.calls) (⟨n, dV x'⟩, ⟨n, n, (dM P' : Matrix _ _ (Dbl r))⟩) = .ok (⟨n, dV y⟩, ⟨n, n, dM Y⟩)
        ∧ runFilter L (cs.flatMap Cyc.ops) (⟨n, x⟩, ⟨n, n, P⟩)
          = .ok (⟨n, (cs.foldl (fun s c => c.kalman s) (x, P)).1⟩, ⟨n, n, (cs.foldl (fun s c => c.kalman s) (x, P)).2⟩)
        ∧ Kept n m φ η q b ρ ρ₁ X Z N (cs.foldl (fun s c => c.kalman s) (x, P)).1 (cs.foldl (fun s c => c.kalman s) (x, P)).2 y Y
        ∧ ∀ v, quad (cs.foldl (fun s c => c.kalman s) (x, P)).2 v ≤ b * (v ⬝ᵥ v) by
    obtain ⟨y, Y, e1, e2, k, hb⟩ := H cs x P x P hc al start
    obtain ⟨-, -, sk, -, -, dP, dx⟩ := k.bounds w hb
    refine ⟨y, _, Y, _, e1, e2, rfl, k.cov, dx, k.var, fun i j => ?_, fun i j => (dP i j).trans (le_of_eq (by ring))⟩
    have e : Y i j - Y j i = 2 * skw Y i j := by simp [skw]
    rw [e, abs_mul, abs_of_pos (by norm_num : (0 : ℝ) < 2)]
    linarith [sk i j]
  intro cs
  induction cs with
  | nil => exact fun x P x' P' _ al k => ⟨x', P', rfl, rfl, k, al.1⟩
  | cons c cs ih =>
    intro x P x' P' hc al k
    obtain ⟨a1, a2, a3, a4⟩ := al
    have fc := hc c (by simp)
    have hRp : IsPosCov c.R := ⟨fc.R_symm, fun v hv => lt_of_lt_of_le (mul_pos ρ0 (by
      rcases (vv_nonneg v).eq_or_lt with h0 | h0
      · exact absurd (dotProduct_self_eq_zero.1 h0.symm) hv
      · exact h0)) (fc.R_ge v)⟩
    have hb' : ∀ v, quad (c.kalman (x, P)).2 v ≤ b * (v ⬝ᵥ v) := by
      cases cs with
      | nil => exact a4.1
      | cons d ds => exact a4.1
    obtain ⟨y, Y, run, k'⟩ := k.step h w c fc a1 a2 a3 hb'
    obtain ⟨u, U, e1, e2, k'', hb⟩ := ih (c.kalman (x, P)).1 (c.kalman (x, P)).2 y Y (fun d hd => hc d (by simp [hd])) a4 k'
    refine ⟨u, U, ?_, ?_, k'', hb⟩
    · rw [List.flatMap_cons, run, e1]
    · rw [List.flatMap_cons, ops_kalman hL c x k.cov hRp, e2]
      rfl

/-! ## A case: a random walk, measured directly, both with unit noise -/

/-- one cycle with the measurement `z` -/
def walk (z : ℝ) : Cyc 1 1 := ⟨1, 1, 1, 1, fun _ => z⟩

omit [Machine] in
theorem walk_fits {z : ℝ} (hz : |z| ≤ 1) : (walk z).Fits 1 1 1 1 1 1 := by
  have h1 : ∀ i j, |(1 : Matrix (Fin 1) (Fin 1) ℝ) i j| ≤ 1 := fun i j => by rw [one_apply]; split_ifs <;> simp
  exact ⟨h1, h1, h1, fun _ => hz, transpose_one, transpose_one, fun v => by rw [walk, one_mulVec, one_mul], fun v => by rw [walk, one_mulVec, one_mul]⟩

omit [Machine] in
theorem walk_kalman (z : ℝ) (x : Fin 1 → ℝ) (P : Matrix (Fin 1) (Fin 1) ℝ) :
    ((walk z).kalman (x, P)).1 0 = x 0 + P 0 0 / (P 0 0 + 1) * (z - x 0) ∧ ((walk z).kalman (x, P)).2 0 0 = (1 - P 0 0 / (P 0 0 + 1)) * P 0 0 + 1 := by
  constructor
  · simp [Cyc.kalman, walk, mulVec, dotProduct, mul_apply, div_eq_mul_inv]
  · simp [Cyc.kalman, walk, mul_apply, div_eq_mul_inv]

omit [Machine] in
theorem walk_along (zs : List ℝ) (hz : ∀ z ∈ zs, |z| ≤ 1) (x : Fin 1 → ℝ) (P : Matrix (Fin 1) (Fin 1) ℝ) (hx : |x 0| ≤ 1) (p0 : 0 ≤ P 0 0) (p2 : P 0 0 ≤ 2) :
    Along 2 1 2 (zs.map walk) (x, P) := by
  induction zs generalizing x P with
  | nil =>
    refine ⟨fun v => ?_, fun i => by fin_cases i; exact hx⟩
    simp only [dotProduct, mulVec, Finset.univ_unique, Fin.default_eq_zero, Finset.sum_singleton]
    nlinarith [mul_self_nonneg (v 0)]
  | cons z zs ih =>
    have hz0 := abs_le.1 (hz z (by simp))
    have hx0 := abs_le.1 hx
    refine ⟨fun v => ?_, fun i => by fin_cases i; exact hx, fun l => ?_, ?_⟩
    · simp only [dotProduct, mulVec, Finset.univ_unique, Fin.default_eq_zero, Finset.sum_singleton]
      nlinarith [mul_self_nonneg (v 0)]
    · have e : ((walk z).z - (walk z).H *ᵥ x) l = z - x 0 := by fin_cases l; simp [walk]
      show |((walk z).z - (walk z).H *ᵥ x) l| ≤ 2
      rw [e, abs_le]
      constructor <;> linarith
    · obtain ⟨e1, e2⟩ := walk_kalman z x P
      have g0 : 0 ≤ P 0 0 / (P 0 0 + 1) := by positivity
      have g1 : P 0 0 / (P 0 0 + 1) ≤ 1 := by rw [div_le_one (by linarith)]; linarith
      have g2 : (1 - P 0 0 / (P 0 0 + 1)) * P 0 0 = P 0 0 / (P 0 0 + 1) := by field_simp; ring
      refine ih (fun y hy => hz y (by simp [hy])) ((walk z).kalman (x, P)).1 ((walk z).kalman (x, P)).2 ?_ ?_ ?_
      · rw [e1, abs_le]
        constructor <;> nlinarith
      · rw [e2, g2]; linarith
      · rw [e2, g2]; linarith

omit [Machine] in
theorem walk_bounds : lrErr 1 1 1 1 2 1 1 ≤ 1.4e-9 ∧ lrGain 1 1 1 2 1 1 ≤ 2e-11 ∧ lrAsym 1 1 1 1 1 2 1 1 ≤ 2.25e-8 ∧ lrVar 1 1 1 1 1 2 1 1 ≤ 3e-9
    ∧ lrStep 1 1 1 1 1 2 1 1 1 1 2 ≤ 6e-7 ∧ 0 ≤ lrStep 1 1 1 1 1 2 1 1 1 1 2 := by
  have e : lrErr 1 1 1 1 2 1 1 ≤ 1.4e-9 := by unfold lrErr cycErr updMag gainMax; norm_num
  have g : lrGain 1 1 1 2 1 1 ≤ 2e-11 := by unfold lrGain gainTol innovMax luTol; norm_num
  have g0 : 0 ≤ lrGain 1 1 1 2 1 1 := by unfold lrGain gainTol innovMax luTol; norm_num
  have e0 : 0 ≤ lrErr 1 1 1 1 2 1 1 := by unfold lrErr cycErr updMag gainMax; norm_num
  have a : lrAsym 1 1 1 1 1 2 1 1 ≤ 2.25e-8 := by unfold lrAsym; norm_num; linarith
  have a0 : 0 ≤ lrAsym 1 1 1 1 1 2 1 1 := by unfold lrAsym; norm_num; linarith
  have l : lrLoss 1 1 1 1 1 2 1 1 ≤ 1e-11 := by
    unfold lrLoss gainShift innovMax
    norm_num
    nlinarith
  have l0 : 0 ≤ lrLoss 1 1 1 1 1 2 1 1 := by
    unfold lrLoss gainShift innovMax
    norm_num
    nlinarith
  have v : lrVar 1 1 1 1 1 2 1 1 ≤ 3e-9 := by unfold lrVar; norm_num; linarith
  have v0 : 0 ≤ lrVar 1 1 1 1 1 2 1 1 := by unfold lrVar; norm_num; linarith
  refine ⟨e, g, a, v, ?_, ?_⟩
  all_goals
    unfold lrStep gainShift estErr estMag gainMax
    norm_num
    linarith

omit [Machine] in
theorem walk_est : lrEst 1 1 1 1 1 2 1 1 1 1 2 ≤ 3e-5 := by
  obtain ⟨-, -, -, -, h, h0⟩ := walk_bounds
  have s : Real.sqrt (((1 : ℕ) : ℝ) * 2 / 1) ≤ 1.42 := by rw [Real.sqrt_le_left (by norm_num)]; norm_num
  have h2 := mul_le_mul_of_nonneg_left s (show (0 : ℝ) ≤ 16 * (2 / 1) by norm_num)
  rw [lrEst]
  calc _ ≤ 16 * (2 / 1) * 1.42 * lrStep 1 1 1 1 1 2 1 1 1 1 2 := mul_le_mul_of_nonneg_right h2 h0
    _ ≤ _ := by linarith

omit [Machine] in
theorem walk_longRun : LongRun 1 1 1 1 1 2 1 1 1 1 2 := by
  obtain ⟨-, -, a, v, -, -⟩ := walk_bounds
  refine ⟨by norm_num, by norm_num, by norm_num, by norm_num, by norm_num, by norm_num, by norm_num, by norm_num, by norm_num, by norm_num, by norm_num, by norm_num,
    le_refl _, by norm_num, by unfold luTol; norm_num, a.trans (by norm_num), v.trans (by norm_num), by norm_num, by norm_num, by norm_num,
    by unfold estMag gainMax; norm_num, walk_est.trans (by norm_num)⟩

/-- C154 for a random walk that is measured directly: after any number of measurements between -1 and 1, in any rounding mode, the computed estimate is within
`3·10⁻⁵` and the computed variance within `3·10⁻⁹` of its value of those of the exact filter. -/
theorem C154_random_walk (h : Rounds53 r) (zs : List ℝ) (hz : ∀ z ∈ zs, |z| ≤ 1) (x : Fin 1 → ℝ) (P : Matrix (Fin 1) (Fin 1) ℝ) (hx : |x 0| ≤ 1) (p0 : 0 ≤ P 0 0)
    (p2 : P 0 0 ≤ 2) :
    ∃ (y y' : Fin 1 → ℝ) (Y Y' : Matrix (Fin 1) (Fin 1) ℝ),
      runD LinSolver.eigen ((zs.map walk).flatMap Cyc.calls) (⟨1, dV x⟩, ⟨1, 1, (dM P : Matrix _ _ (Dbl r))⟩) = .ok (⟨1, dV y⟩, ⟨1, 1, dM Y⟩)
      ∧ runFilter LinSolver.exact ((zs.map walk).flatMap Cyc.ops) (⟨1, x⟩, ⟨1, 1, P⟩) = .ok (⟨1, y'⟩, ⟨1, 1, Y'⟩)
      ∧ |y 0 - y' 0| ≤ 3e-5 ∧ |Y 0 0 - Y' 0 0| ≤ 3e-9 * Y' 0 0 := by
  have hP : IsCov P := ⟨by ext i j; fin_cases i; fin_cases j; rfl, fun v => by
    simp only [dotProduct, mulVec, Finset.univ_unique, Fin.default_eq_zero, Finset.sum_singleton]
    nlinarith [mul_self_nonneg (v 0), mul_nonneg p0 (mul_self_nonneg (v 0))]⟩
  obtain ⟨y, y', Y, Y', e1, e2, -, c, d1, d2, -, -⟩ := C154_long_run h walk_longRun LinSolver.exact_correct (zs.map walk)
    (fun c hc => by obtain ⟨z, hz', rfl⟩ := List.mem_map.1 hc; exact walk_fits (hz z hz')) x P hP (walk_along zs hz x P hx p0 p2)
  refine ⟨y, y', Y, Y', e1, e2, (d1 0).trans walk_est, ?_⟩
  have := d2 fun _ => 1
  simp only [dotProduct, mulVec, Finset.univ_unique, Fin.default_eq_zero, Finset.sum_singleton, mul_one, one_mul] at this
  have Y0 : 0 ≤ Y' 0 0 := by
    have := c.2 fun _ => 1
    simpa only [dotProduct, mulVec, Finset.univ_unique, Fin.default_eq_zero, Finset.sum_singleton, mul_one, one_mul] using this
  exact this.trans (mul_le_mul_of_nonneg_right walk_bounds.2.2.2.1 Y0)

example (h : Rounds53 r) (k : ℕ) : ∃ (y y' : Fin 1 → ℝ) (Y Y' : Matrix (Fin 1) (Fin 1) ℝ),
    runD LinSolver.eigen (((List.replicate k (1 / 2)).map walk).flatMap Cyc.calls) (⟨1, dV 0⟩, ⟨1, 1, (dM 1 : Matrix _ _ (Dbl r))⟩) = .ok (⟨1, dV y⟩, ⟨1, 1, dM Y⟩)
      ∧ runFilter LinSolver.exact (((List.replicate k (1 / 2)).map walk).flatMap Cyc.ops) (⟨1, 0⟩, ⟨1, 1, 1⟩) = .ok (⟨1, y'⟩, ⟨1, 1, Y'⟩)
      ∧ |y 0 - y' 0| ≤ 3e-5 ∧ |Y 0 0 - Y' 0 0| ≤ 3e-9 * Y' 0 0 :=
  C154_random_walk h _ (fun z hz => by rw [List.eq_of_mem_replicate hz]; norm_num [abs_of_pos]) 0 1 (by norm_num) (by simp) (by simp)

end NavFuse.Props
