import Verif.Props.KalmanScalarDbl
import Verif.Props.Init

/-! # Property C142 (continued): the azimuth update of fine alignment in double precision -/

namespace NavFuse.Props.AlignDbl
open Matrix Kalman Spec NavFuse.Init NavFuse.Props NavFuse.Props.Align
variable [Machine] {r : ℝ → ℝ}

/-- magnitudes of the measurement matrix -/
noncomputable def mHz : Matrix (Fin 1) (Fin 8) ℝ := of fun _ j => if j = 2 then 1 else 1e-50

omit [Machine] in
theorem sum_mHz : ∑ j, mHz 0 j ≤ 2 := by
  simp [mHz, Fin.sum_univ_eight, Fin.ext_iff]
  norm_num

/-- magnitudes of the covariance -/
noncomputable def mPz (q p : ℝ) : Matrix (Fin 8) (Fin 8) ℝ := of fun i j => if i = 2 ∧ j = 2 then q else p

omit [Machine] in
theorem mHz_nonneg (i : Fin 1) (j : Fin 8) : 1e-50 ≤ mHz i j ∧ mHz i j ≤ 1 := by
  rw [mHz, of_apply]; split_ifs <;> norm_num

omit [Machine] in
theorem hph_le {q p : ℝ} (hp : 0 ≤ p) : (mHz * mPz q p * mHzᵀ) 0 0 ≤ q + 64e-50 * p := by
  have e : (mHz * mPz q p * mHzᵀ) 0 0 = ∑ j, ∑ i, mHz 0 i * mPz q p i j * mHz 0 j := by
    rw [Matrix.mul_apply]
    refine Finset.sum_congr rfl fun j _ => ?_
    rw [Matrix.mul_apply, Finset.sum_mul]
    rfl
  rw [e]
  have t : ∀ i j, mHz 0 i * mPz q p i j * mHz 0 j ≤ (if i = 2 then if j = 2 then q else 0 else 0) + 1e-50 * p := by
    intro i j
    simp only [mHz, mPz, of_apply]
    by_cases hi : i = 2 <;> by_cases hj : j = 2 <;> simp [hi, hj] <;> nlinarith
  refine (Finset.sum_le_sum fun j _ => Finset.sum_le_sum fun i _ => t i j).trans (le_of_eq ?_)
  simp only [Finset.sum_add_distrib, Finset.sum_ite_eq', Finset.mem_univ, if_true, Finset.sum_const, Finset.card_univ, Fintype.card_fin, nsmul_eq_mul]
  norm_num
  ring

omit [Machine] in
/-- a row of a product -/
theorem row_le {a b c : ℕ} {A : Matrix (Fin a) (Fin b) ℝ} {B : Matrix (Fin b) (Fin c) ℝ} {s t : ℝ} (hA : ∀ i j, 0 ≤ A i j) (hs : ∀ i, ∑ j, A i j ≤ s)
    (ht : 0 ≤ t) (hB : ∀ i j, B i j ≤ t) (i : Fin a) (j : Fin c) : (A * B) i j ≤ s * t := by
  rw [Matrix.mul_apply]
  refine (Finset.sum_le_sum fun l _ => mul_le_mul_of_nonneg_left (hB l j) (hA i l)).trans ?_
  rw [← Finset.sum_mul]
  exact mul_le_mul_of_nonneg_right (hs i) ht

/-- C142. The azimuth update of fine alignment in double precision, with Eigen's inverse: with covariance entries up to `p`, states and azimuth residual up to `X`, and gains up to
`G` (`p ≤ G S`, `S` the innovation variance), the call succeeds in every rounding mode, all numbers are finite, the state differs from the exact update by at most `10⁻¹² G X` and the
covariance by at most `4·10⁻¹² G² (p + σ² Δt)`. -/
theorem C142_azimuth (h : Rounds53 r) (az dt est σ : ℝ) (x : Fin 8 → ℝ) (P : Matrix (Fin 8) (Fin 8) ℝ) (hP : IsCov P) (p X G : ℝ)
    (hp : 1e-20 ≤ p ∧ p ≤ 1e20) (hX : 1e-20 ≤ X ∧ X ≤ 1e20) (hG : 1 ≤ G ∧ G ≤ 1e20) (hd : 1e-10 ≤ dt ∧ dt ≤ 1e10) (hσ : 1e-10 ≤ σ ∧ σ ≤ 1e10)
    (bP : ∀ i j, |P i j| ≤ p) (bx : ∀ i, |x i| ≤ X) (bz : |az - est| ≤ X) (hg : p ≤ G * (P 2 2 + σ ^ 2 * dt)) (xo : Fin 8 → Dbl r)
    (Po : Matrix (Fin 8) (Fin 8) (Dbl r)) :
    ∃ (y : Fin 8 → ℝ) (Y : Matrix (Fin 8) (Fin 8) ℝ),
      fineAlignmentAzimuthUpdate LinSolver.eigen (.fin az : Dbl r) (.fin dt) (.fin est) (.fin σ) ⟨8, dV x⟩ ⟨8, 8, dM P⟩ ⟨8, xo⟩ ⟨8, 8, Po⟩
        = .ok (true, ⟨8, dV y⟩, ⟨8, 8, dM Y⟩)
      ∧ (∀ i, |y i - (x i + P i 2 / (P 2 2 + σ ^ 2 * dt) * (az - est - x 2))| ≤ 1e-12 * (G * X))
      ∧ ∀ i j, |Y i j - (P i j - P i 2 * P 2 j / (P 2 2 + σ ^ 2 * dt))| ≤ 4e-12 * (G ^ 2 * (p + σ ^ 2 * dt)) := by
  have P22 : 0 ≤ P 2 2 := by simpa [Pi.single_apply] using hP.2 (Pi.single 2 1)
  set ρ := σ ^ 2 * dt with hρ
  have hρ' : σ * σ * dt = ρ := by rw [hρ, sq]
  have ρ1 : 1e-30 ≤ ρ := by
    rw [← hρ', mul_assoc]
    exact floor_mul hσ.1 (floor_mul (s := 1e-20) hσ.1 hd.1 (by norm_num) (by norm_num) (by norm_num)) (by norm_num) (by norm_num) (by norm_num)
  have pσ : 0 < σ := lt_of_lt_of_le (by norm_num) hσ.1
  have pd : 0 < dt := lt_of_lt_of_le (by norm_num) hd.1
  have pp : 0 < p := lt_of_lt_of_le (by norm_num) hp.1
  have pX : 0 < X := lt_of_lt_of_le (by norm_num) hX.1
  have σσ1 : 1e-20 ≤ σ * σ := floor_mul hσ.1 hσ.1 (by norm_num) (by norm_num) (by norm_num)
  have σσ2 : σ * σ ≤ 1e20 := (mul_le_mul hσ.2 hσ.2 pσ.le (by norm_num)).trans (by norm_num)
  have ρ2 : ρ ≤ 1e30 := by
    rw [← hρ']
    exact (mul_le_mul σσ2 hd.2 pd.le (by norm_num)).trans (by norm_num)
  have pρ : 0 < ρ := lt_of_lt_of_le (by norm_num) ρ1
  -- the exact update
  obtain ⟨x', P', e, hx', hP', -⟩ := C61_azimuth LinSolver.exact_correct az dt est σ x P x P hP pd pσ.ne'
  rw [azimuth_eq, update_fit] at e
  set R : Matrix (Fin 1) (Fin 1) ℝ := diagonal ![σ * σ * dt] with hR
  have R00 : R 0 0 = ρ := hρ'
  have eg : gainC LinSolver.exact P hAz R = P * hAzᵀ * (hAz * P * hAzᵀ + R)⁻¹ := by
    simp only [gainC, rsimp]; rfl
  rw [eg] at e
  simp only [rsimp] at e
  obtain ⟨ex, eP⟩ : x + (P * hAzᵀ * (hAz * P * hAzᵀ + R)⁻¹) *ᵥ (![az - est] - hAz *ᵥ x) = x' ∧
      (1 - P * hAzᵀ * (hAz * P * hAzᵀ + R)⁻¹ * hAz) * P * (1 - P * hAzᵀ * (hAz * P * hAzᵀ + R)⁻¹ * hAz)ᵀ
        + P * hAzᵀ * (hAz * P * hAzᵀ + R)⁻¹ * R * (P * hAzᵀ * (hAz * P * hAzᵀ + R)⁻¹)ᵀ = P' := by
    injection e with e; injection e with _ e; injection e with e1 e2; injection e1 with _ e1; injection e2 with _ _ e2; exact ⟨e1, e2⟩
  have hSm : (hAz * P * hAzᵀ + R) 0 0 = P 2 2 + ρ := by
    rw [Matrix.add_apply, az_right, az_left, R00]
  set S := P 2 2 + ρ with hS
  have S1 : 1e-30 ≤ S := by linarith
  have pS : 0 < S := lt_of_lt_of_le (by norm_num) S1
  have P22p : P 2 2 ≤ p := (le_abs_self _).trans (bP 2 2)
  -- magnitudes
  set q := max (P 2 2) 1e-50 with hq
  have q1 : 1e-50 ≤ q := le_max_right _ _
  have q2 : q ≤ P 2 2 + 1e-50 := max_le (le_add_of_nonneg_right (by norm_num)) (le_add_of_nonneg_left P22)
  have q3 : q ≤ p := max_le P22p (le_trans (by norm_num) hp.1)
  have mP1 : ∀ i j, 1e-50 ≤ mPz q p i j := fun i j => by
    rw [mPz, of_apply]; split_ifs
    · exact q1
    · exact le_trans (by norm_num) hp.1
  have mP2 : ∀ i j, mPz q p i j ≤ p := fun i j => by
    rw [mPz, of_apply]; split_ifs
    · exact q3
    · exact le_rfl
  have RP : MRl (dM P : Matrix _ _ (Dbl r)) P 0 (mPz q p) := fun i j => Rl.exact (by
    rw [mPz, of_apply]; split_ifs with hij
    · rw [hij.1, hij.2, abs_of_nonneg P22]; exact le_max_left _ _
    · exact bP i j)
  have Rx : VRl (dV x : _ → Dbl r) x 0 (fun _ => X) := fun i => Rl.exact (bx i)
  have RH : MRl (!![Flt.lit 0, Flt.lit 0, Flt.lit 1, Flt.lit 0, Flt.lit 0, Flt.lit 0, Flt.lit 0, Flt.lit 0] : Matrix (Fin 1) (Fin 8) (Dbl r)) hAz 0 mHz := by
    intro i j
    fin_cases i
    fin_cases j
    all_goals first | exact Rl.one h | exact (Rl.zero h).le (by norm_num [mHz, Fin.ext_iff])
  have Rz' : VRl (![.fin az - .fin est] : _ → Dbl r) ![az - est] 2 (fun _ => X) := by
    intro i
    fin_cases i
    show Rl (Dbl.rd r (XR.fin az - XR.fin est)) (az - est) 2 X
    rw [XR.fin_sub]
    exact (Rl.round h (k := 0) (v := az - est) (by simp [gr]) bz (le_trans (by norm_num) hX.1) (hX.2.trans (by norm_num)) (by norm_num)).mono (by norm_num)
  have RR : MRl (!![.fin σ * .fin σ * .fin dt] : Matrix (Fin 1) (Fin 1) (Dbl r)) R 2 (of fun _ _ => ρ) := by
    intro i j
    fin_cases i; fin_cases j
    show Rl (.fin σ * .fin σ * .fin dt) (R 0 0) 2 ρ
    have a1 := (Rl.exact (r := r) (abs_of_pos pσ).le).mul h (Rl.exact (r := r) (abs_of_pos pσ).le) (le_trans (by norm_num) σσ1) (σσ2.trans (by norm_num)) (by norm_num)
    have a2 := a1.mul h (Rl.exact (r := r) (abs_of_pos pd).le) (by rw [hρ']; exact le_trans (by norm_num) ρ1) (by rw [hρ']; exact ρ2.trans (by norm_num)) (by norm_num)
    rw [hρ'] at a2
    rw [R00]
    exact a2
  have mH0 : ∀ i j, 0 ≤ mHz i j := fun i j => le_trans (by norm_num) (mHz_nonneg i j).1
  have bPH : ∀ i, (mPz q p * mHzᵀ) i 0 ≤ 2 * p := fun i => by
    rw [Matrix.mul_apply]
    refine (Finset.sum_le_sum fun l _ => mul_le_mul_of_nonneg_right (mP2 i l) (mH0 0 l)).trans ?_
    rw [← Finset.mul_sum]
    have := mul_le_mul_of_nonneg_left sum_mHz pp.le
    linarith
  have bS := hph_le (q := q) pp.le
  have bSR : (mHz * mPz q p * mHzᵀ + of fun _ _ => ρ : Matrix (Fin 1) (Fin 1) ℝ) 0 0 ≤ q + 64e-50 * p + ρ := by
    rw [Matrix.add_apply, of_apply]; linarith
  set MK := gainBd (mPz q p) mHz ((hAz * P * hAzᵀ + R) 0 0) with hMK
  have MK0 : ∀ i j, 0 ≤ MK i j := fun i j => le_trans (by norm_num) (le_max_right _ _)
  have MK2 : ∀ i j, MK i j ≤ 2 * G := fun i j => by
    rw [hMK, gainBd, of_apply, hSm]
    refine max_le ?_ (by linarith [hG.1])
    rw [div_le_iff₀ pS]
    linarith [bPH i]
  have pG : 0 < G := by linarith [hG.1]
  set A : Matrix (Fin 8) (Fin 8) ℝ := 1 + MK * mHz with hA
  have KH0 : ∀ i j, 0 ≤ (MK * mHz) i j := fun i j => by
    rw [Matrix.mul_apply]; exact Finset.sum_nonneg fun l _ => mul_nonneg (MK0 i l) (mH0 l j)
  have A0 : ∀ i j, 0 ≤ A i j := fun i j => by
    rw [hA, Matrix.add_apply, Matrix.one_apply]; split_ifs <;> linarith [KH0 i j]
  have As : ∀ i, ∑ j, A i j ≤ 5 * G := fun i => by
    have e1 : ∑ j, A i j = 1 + MK i 0 * ∑ j, mHz 0 j := by
      simp only [hA, Matrix.add_apply, Finset.sum_add_distrib, Matrix.one_apply, Finset.sum_ite_eq, Finset.mem_univ, if_true, Matrix.mul_apply, Fin.sum_univ_one,
        Finset.mul_sum]
    rw [e1]
    have := mul_le_mul (MK2 i 0) sum_mHz (Finset.sum_nonneg fun j _ => mH0 0 j) (by linarith)
    linarith [hG.1]
  have bAP := row_le A0 As pp.le mP2
  have bAPA : ∀ i j, (A * mPz q p * Aᵀ) i j ≤ 25 * (G ^ 2 * p) := fun i j => by
    rw [Matrix.mul_apply]
    refine (Finset.sum_le_sum fun l _ => mul_le_mul_of_nonneg_right (bAP i l) (A0 j l)).trans ?_
    rw [← Finset.mul_sum]
    have := mul_le_mul_of_nonneg_left (As j) (by positivity : 0 ≤ 5 * G * p)
    refine this.trans (le_of_eq (by ring))
  have bKRK : ∀ i j, (MK * (of fun _ _ => ρ : Matrix (Fin 1) (Fin 1) ℝ) * MKᵀ) i j ≤ 4 * (G ^ 2 * ρ) := fun i j => by
    rw [Matrix.mul_apply, Fin.sum_univ_one, Matrix.mul_apply, Fin.sum_univ_one]
    show MK i 0 * ρ * MK j 0 ≤ _
    have h1 := mul_le_mul_of_nonneg_right (MK2 i 0) pρ.le
    have h2 := mul_le_mul h1 (MK2 j 0) (MK0 j 0) (by positivity)
    refine h2.trans (le_of_eq (by ring))
  have bcP : ∀ i j, (A * mPz q p * Aᵀ + MK * (of fun _ _ => ρ : Matrix (Fin 1) (Fin 1) ℝ) * MKᵀ : Matrix (Fin 8) (Fin 8) ℝ) i j ≤ 25 * (G ^ 2 * (p + ρ)) := fun i j => by
    rw [Matrix.add_apply]
    have : 0 ≤ G ^ 2 * ρ := by positivity
    linarith [bAPA i j, bKRK i j]
  have bcx : ∀ i, ((fun _ => X) + MK *ᵥ ((fun _ => X) + mHz *ᵥ fun _ => X) : Fin 8 → ℝ) i ≤ 7 * (G * X) := fun i => by
    have e1 : ((fun _ => X) + MK *ᵥ ((fun _ => X) + mHz *ᵥ fun _ => X) : Fin 8 → ℝ) i = X + MK i 0 * (X + (∑ j, mHz 0 j) * X) := by
      simp only [Pi.add_apply, mulVec, dotProduct, Fin.sum_univ_one, Finset.sum_mul]
    rw [e1]
    have h1 : X + (∑ j, mHz 0 j) * X ≤ 3 * X := by nlinarith [sum_mHz]
    have h2 := mul_le_mul (MK2 i 0) h1 (add_nonneg pX.le (mul_nonneg (Finset.sum_nonneg fun j _ => mH0 0 j) pX.le)) (by linarith)
    nlinarith [hG.1]
  have G2 : G ^ 2 ≤ 1e40 := by
    have := pow_le_pow_left₀ pG.le hG.2 2
    exact this.trans (by norm_num)
  have GX2 : G * X ≤ 1e40 := (mul_le_mul hG.2 hX.2 pX.le (by norm_num)).trans (by norm_num)
  have GP2 : G ^ 2 * (p + ρ) ≤ 1e80 := by
    have := mul_le_mul G2 (add_le_add hp.2 ρ2) (by positivity) (by norm_num)
    exact this.trans (by norm_num)
  have hk2 : q + 64e-50 * p + ρ ≤ 2 * S := by
    have h1 : p ≤ 1e20 * S := hg.trans (mul_le_mul_of_nonneg_right hG.2 pS.le)
    norm_num at h1 S1 q2 ⊢
    linarith
  obtain ⟨y, Y, e', a, b⟩ := scalar_rl h (k := 2) (κ := 2) RP Rx RH Rz' RR mP1 (fun _ => le_trans (by norm_num) hX.1) (fun i j => (mHz_nonneg i j).1)
    (fun _ => le_trans (by norm_num) hX.1) (fun _ _ => le_trans (by norm_num) ρ1)
    (by rw [hSm]; exact le_trans (by norm_num) S1) (by rw [hSm]; push_cast; exact bSR.trans hk2)
    (bSR.trans (by linarith [hp.2])) (fun i => (bPH i).trans (by linarith [hp.2]))
    (fun i => (bcx i).trans (by linarith)) (fun i j => (bcP i j).trans (by linarith)) (by norm_num) xo Po
  refine ⟨y, Y, ?_, fun i => ?_, fun i j => ?_⟩
  · simp only [fineAlignmentAzimuthUpdate, ne_eq, not_true_eq_false, or_self, if_false]
    rw [e']
    simp [osimp]
  · rw [← hx' i, ← ex]
    refine (a i).trans ((mul_le_mul_of_nonneg_left (bcx i) (by positivity)).trans ?_)
    rw [← mul_assoc]
    exact mul_le_mul_of_nonneg_right (by norm_num) (mul_pos pG pX).le
  · rw [← hP' i j, ← eP]
    refine (b i j).trans ((mul_le_mul_of_nonneg_left (bcP i j) (by positivity)).trans ?_)
    rw [← mul_assoc]
    exact mul_le_mul_of_nonneg_right (by norm_num) (by positivity)

omit [Machine] in
/-- unit covariance, an azimuth residual of a quarter radian, measured to a hundredth -/
example : IsCov (1 : Matrix (Fin 8) (Fin 8) ℝ) ∧ (∀ i j, |(1 : Matrix (Fin 8) (Fin 8) ℝ) i j| ≤ 1) ∧ (∀ i : Fin 8, |(fun _ => 1 / 2 : Fin 8 → ℝ) i| ≤ 1)
    ∧ |(1 / 2 : ℝ) - 1 / 4| ≤ 1 ∧ (1 : ℝ) ≤ 1 * ((1 : Matrix (Fin 8) (Fin 8) ℝ) 2 2 + (1 / 100) ^ 2 * 1) := by
  refine ⟨?_, fun i j => ?_, fun i => by norm_num, by norm_num [abs_le], by rw [Matrix.one_apply_eq]; norm_num⟩
  · exact isCov_iff.mpr Matrix.PosSemidef.one
  · rw [Matrix.one_apply]; split_ifs <;> norm_num

end NavFuse.Props.AlignDbl
