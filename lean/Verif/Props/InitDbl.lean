import Verif.Props.InitSens
import Verif.Lemmas.RoundAlign

/-! # Property C141: coarse alignment in double precision -/

namespace NavFuse.Props.AlignDbl
open Matrix NavFuse.Init NavFuse.Props.Align NavFuse.Spec NavFuse.XR
variable [Machine] {r : ℝ → ℝ}

theorem coarse_near (h : Rounds53 r) (lat wE g : ℝ) (hw : 1e-20 ≤ wE ∧ wE ≤ 1e20) (hg : 1e-20 ≤ g ∧ g ≤ 1e20) (hc : 1e-10 ≤ |Real.cos lat|) (a w : V3 ℝ)
    (ha : ∀ i, |a i| ≤ 2 * g) (hω : ∀ i, |w i| ≤ 2 * wE) :
    ∃ X : M3 ℝ, coarseAttitudeAlignment (.fin lat : Dbl r) (.fin wE) (.fin g) (dv a) (dv w) = (true, dm X)
      ∧ ∀ i j, |X i j - ((rA lat wE g)⁻¹ * rB a w) i j| ≤ 1.6e-13 / |Real.cos lat| := by
  have pc : 0 < |Real.cos lat| := lt_of_lt_of_le (by norm_num) hc
  have c1 := Real.abs_cos_le_one lat
  have ic1 : 1 ≤ 1 / |Real.cos lat| := by rw [le_div_iff₀ pc]; linarith
  have key := coarse_rz (r := r) lat wE g h hw hg hc a w ha hω
  choose X hX1 hX2 using fun i j => (key i j).rl.near
  refine ⟨of X, ?_, fun i j => (hX2 i j).trans ?_⟩
  · rw [show coarseAttitudeAlignment (.fin lat : Dbl r) (.fin wE) (.fin g) (dv a) (dv w)
      = (true, (coarseAttitudeAlignment (.fin lat : Dbl r) (.fin wE) (.fin g) (dv a) (dv w)).2) from rfl]
    congr 1
    ext i j
    exact hX1 i j
  · have h1 : gr 43 - 1 ≤ 43 / 2 ^ 51 := by have := gr_le (k := 43) (by norm_num); push_cast at this; linarith
    have h2 : (![4 / |Real.cos lat|, 8 / |Real.cos lat|, 2] : V3 ℝ) i ≤ 8 * (1 / |Real.cos lat|) := by
      fin_cases i
      · show 4 / |Real.cos lat| ≤ _
        rw [div_eq_mul_one_div]; linarith
      · show 8 / |Real.cos lat| ≤ _
        rw [div_eq_mul_one_div]
      · show (2 : ℝ) ≤ _
        linarith
    have h3 : 0 ≤ gr 43 - 1 := by linarith [one_le_gr 43]
    refine (mul_le_mul h1 h2 ((key i j).rl.M_nonneg) (by positivity)).trans ?_
    rw [div_eq_mul_one_div 1.6e-13, ← mul_assoc]
    exact mul_le_mul_of_nonneg_right (by norm_num) (by positivity)

/-- C141. Coarse alignment in double precision, for every rounding, every order of summation and every faithful `sin` and `cos`: away from the poles
(`|cos lat| ≥ 10⁻¹⁰`) and with readings of at most twice the length of the true vectors, the returned matrix is finite and every entry is within
`1.6·10⁻¹³ / |cos lat|` of what the same function returns in exact arithmetic. The 3x3 inverse loses no accuracy, however differently scaled gravity and Earth rate are. -/
theorem C141_rounding (h : Rounds53 r) (lat wE g : ℝ) (hw : 1e-20 ≤ wE ∧ wE ≤ 1e20) (hg : 1e-20 ≤ g ∧ g ≤ 1e20) (hc : 1e-10 ≤ |Real.cos lat|)
    (a w : V3 ℝ) (ha : ∀ i, |a i| ≤ 2 * g) (hω : ∀ i, |w i| ≤ 2 * wE) :
    ∃ X Y : M3 ℝ, coarseAttitudeAlignment (.fin lat : Dbl r) (.fin wE) (.fin g) (dv a) (dv w) = (true, dm X)
      ∧ coarseAttitudeAlignment (fin lat) (fin wE) (fin g) (finV a) (finV w) = (true, finM Y)
      ∧ ∀ i j, |X i j - Y i j| ≤ 1.6e-13 / |Real.cos lat| := by
  have pw : 0 < wE := lt_of_lt_of_le (by norm_num) hw.1
  have pg : 0 < g := lt_of_lt_of_le (by norm_num) hg.1
  have pc : 0 < |Real.cos lat| := lt_of_lt_of_le (by norm_num) hc
  obtain ⟨X, e, b⟩ := coarse_near h lat wE g hw hg hc a w ha hω
  exact ⟨X, _, e, coarse_X lat wE g a w pg.ne' pw.ne' (abs_pos.1 pc), b⟩

omit [Machine] in
theorem len3_le_of {v : V3 ℝ} {c : ℝ} (hc : 0 ≤ c) (h : ∀ i, |v i| ≤ c) : len3 v ≤ 2 * c := by
  rw [len3]
  refine Real.sqrt_le_iff.2 ⟨by linarith, ?_⟩
  have h0 := sq_le_sq' (abs_le.1 (h 0)).1 (abs_le.1 (h 0)).2
  have h1 := sq_le_sq' (abs_le.1 (h 1)).1 (abs_le.1 (h 1)).2
  have h2 := sq_le_sq' (abs_le.1 (h 2)).1 (abs_le.1 (h 2)).2
  nlinarith

/-- C141. The complete error budget of coarse alignment. A vehicle at rest with body-to-NED rotation `R`, whose accelerometer readings are wrong by `δa` and gyroscope readings by
`δw` (at most as long as gravity and Earth rate; this includes the rounding of the readings themselves): the matrix computed in double precision differs from `R` by the
sensor error bounds of C116 plus `3.2·10⁻¹³ / |cos lat|` in each row. -/
theorem C141_error_budget (h : Rounds53 r) (R : M3 ℝ) (hR : IsRot R) (lat wE g : ℝ) (hw : 1e-20 ≤ wE ∧ wE ≤ 1e20) (hg : 1e-20 ≤ g ∧ g ≤ 1e20)
    (hc : 1e-10 ≤ |Real.cos lat|) (δa δw : V3 ℝ) (hδa : len3 δa ≤ g) (hδw : len3 δw ≤ wE) :
    ∃ X : M3 ℝ, coarseAttitudeAlignment (.fin lat : Dbl r) (.fin wE) (.fin g) (dv (Rᵀ *ᵥ restForce g + δa)) (dv (Rᵀ *ᵥ earthRate lat wE + δw))
        = (true, dm X)
      ∧ len3 (X 2 - R 2) ≤ len3 δa / g + 3.2e-13 / |Real.cos lat|
      ∧ len3 (X 0 - R 0) ≤ len3 δw / (wE * |Real.cos lat|) + |Real.tan lat| * len3 δa / g + 3.2e-13 / |Real.cos lat|
      ∧ len3 (X 1 - R 1) ≤ len3 δw / (wE * |Real.cos lat|) + len3 δa / (g * |Real.cos lat|) + len3 δa * len3 δw / (g * wE * |Real.cos lat|)
          + 3.2e-13 / |Real.cos lat| := by
  have pw : 0 < wE := lt_of_lt_of_le (by norm_num) hw.1
  have pg : 0 < g := lt_of_lt_of_le (by norm_num) hg.1
  have pc : 0 < |Real.cos lat| := lt_of_lt_of_le (by norm_num) hc
  have lf : len3 (Rᵀ *ᵥ restForce g) = g := by
    rw [cross_mulVec_rot hR, len3]
    simp [restForce, Real.sqrt_sq pg.le]
  have lω : len3 (Rᵀ *ᵥ earthRate lat wE) = wE := by
    rw [cross_mulVec_rot hR, len3]
    have : (earthRate lat wE 0) ^ 2 + (earthRate lat wE 1) ^ 2 + (earthRate lat wE 2) ^ 2 = wE ^ 2 := by
      simp [Align.earthRate]; linear_combination wE ^ 2 * Real.sin_sq_add_cos_sq lat
    rw [this, Real.sqrt_sq pw.le]
  obtain ⟨X, e, b⟩ := coarse_near h lat wE g hw hg hc (Rᵀ *ᵥ restForce g + δa) (Rᵀ *ᵥ earthRate lat wE + δw)
    (fun i => (le_len3 _ i).trans ((len3_add _ _).trans (by rw [lf]; linarith))) (fun i => (le_len3 _ i).trans ((len3_add _ _).trans (by rw [lω]; linarith)))
  obtain ⟨Y, e', b2, b0, b1, -⟩ := C116_alignment_errors R hR lat wE g pg pw (abs_pos.1 pc) δa δw
  rw [coarse_X lat wE g _ _ pg.ne' pw.ne' (abs_pos.1 pc)] at e'
  have hY : (rA lat wE g)⁻¹ * rB (Rᵀ *ᵥ restForce g + δa) (Rᵀ *ᵥ earthRate lat wE + δw) = Y := by
    ext i j
    exact (fin_inj _ _).1 (congrFun (congrFun (congrArg Prod.snd e') i) j)
  rw [hY] at b
  have hrow : ∀ i, len3 (X i - R i) ≤ len3 (Y i - R i) + 3.2e-13 / |Real.cos lat| := fun i => by
    have h1 : X i - R i = (Y i - R i) + (X i - Y i) := by abel
    rw [h1]
    have h2 := len3_le_of (v := X i - Y i) (by positivity) (fun j => b i j)
    refine (len3_add _ _).trans (add_le_add le_rfl (h2.trans (le_of_eq ?_)))
    rw [← mul_div_assoc]; norm_num
  refine ⟨X, e, (hrow 2).trans (by rw [b2]), (hrow 0).trans (by linarith), (hrow 1).trans (by linarith)⟩

/-- 45 degrees north, all three angles, accelerometers wrong by a milli-g, gyroscopes by a thousandth of the Earth's rate -/
example : IsRot (bodyToNed 0.1 0.2 0.3) ∧ ((1e-20 : ℝ) ≤ 7.292115e-5 ∧ (7.292115e-5 : ℝ) ≤ 1e20) ∧ ((1e-20 : ℝ) ≤ 9.8 ∧ (9.8 : ℝ) ≤ 1e20)
    ∧ 1e-10 ≤ |Real.cos (Real.pi / 4)| ∧ len3 (![0.0098, 0, 0] : V3 ℝ) ≤ 9.8 ∧ len3 (![0, 7.3e-8, 0] : V3 ℝ) ≤ 7.292115e-5 := by
  refine ⟨((isRot_rotZ _).mul (isRot_rotY _)).mul (isRot_rotX _), by norm_num, by norm_num, ?_, ?_, ?_⟩
  · rw [Real.cos_pi_div_four, abs_of_nonneg (by positivity)]
    have : (1 : ℝ) ≤ √2 := Real.one_le_sqrt.2 (by norm_num)
    linarith
  · rw [len3]; simp; rw [Real.sqrt_sq (by norm_num)]; norm_num
  · rw [len3]; simp; rw [Real.sqrt_sq (by norm_num)]; norm_num

end NavFuse.Props.AlignDbl
