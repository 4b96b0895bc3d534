import Verif.Lemmas.NavEval

/-! # Navigation utilities: C39–C42, C44 -/

set_option linter.unusedSectionVars false
set_option linter.unusedSimpArgs false

namespace NavFuse.Props
open Matrix Spec Gravity XR NavUtils Filter Topology

section anyScalar
variable {α : Type} [Add α] [Sub α] [Mul α] [Div α] [Neg α] [Flt α]

/-- C39, every arithmetic: the matrix has literal zeros on the diagonal, and of each pair of mirrored entries one is the other with its sign
bit flipped. -/
theorem C39_antisymmetric (v : V3 α) : ∃ S, skewSymmetric v = (true, S) ∧ (∀ i, S i i = Flt.lit 0) ∧
    ∀ i j, i ≠ j → S i j = -S j i ∨ S j i = -S i j := by
  refine ⟨_, rfl, ?_, ?_⟩
  · intro i; fin_cases i <;> rfl
  · intro i j h; fin_cases i <;> fin_cases j <;> simp at h ⊢

/-- C40: the two size checks are exact. The call succeeds when both state vectors have six entries; otherwise it returns false and leaves
the output as it was. No index or size error is possible. -/
theorem C40_sizes (ykm1 yk : DVec α) (dt : α) (dVN gN : V3 α) :
    (ykm1.n = 6 ∧ yk.n = 6 → ∃ y : Fin 6 → α, strapdownRk4 ykm1 dt dVN gN yk = .ok (true, ⟨6, y⟩)) ∧
    (¬(ykm1.n = 6 ∧ yk.n = 6) → strapdownRk4 ykm1 dt dVN gN yk = .ok (false, yk)) := by
  constructor
  · rintro ⟨h1, h2⟩
    obtain ⟨n, y⟩ := ykm1; obtain ⟨m, y0⟩ := yk
    simp only at h1 h2; subst h1; subst h2
    exact ⟨_, rk4_eval dVN gN dt y y0⟩
  · intro h
    unfold strapdownRk4
    by_cases h1 : ykm1.n = 6
    · have h2 : yk.n ≠ 6 := fun h2 => h ⟨h1, h2⟩
      simp [h1, h2]
    · simp [h1]
end anyScalar

/-- C39: the matrix multiplies like the cross product, for every pair of vectors. -/
theorem C39_cross_product (v w : V3 ℝ) : (skewSymmetric v).2 *ᵥ w = v ⨯₃ w := by
  simp only [skewSymmetric, rsimp]
  ext i; fin_cases i <;> simp [mulVec, dotProduct, Fin.sum_univ_three, crossProduct] <;> ring

/-- C39: it is antisymmetric and linear in the vector. -/
theorem C39_linear (u v : V3 ℝ) (s : ℝ) : ((skewSymmetric v).2)ᵀ = -(skewSymmetric v).2 ∧
    (skewSymmetric (u + s • v)).2 = (skewSymmetric u).2 + s • (skewSymmetric v).2 := by
  simp only [skewSymmetric, rsimp]
  constructor <;> (ext i j; fin_cases i <;> fin_cases j <;> simp <;> ring)

/-- C40: for every state, step, delta-velocity and gravity the new state is the classical Runge-Kutta step for the navigation equations with
specific force `dVN / dt`. -/
theorem C40_classical_rk4 (y y0 : Fin 6 → ℝ) (dt : ℝ) (dVN gN : V3 ℝ) :
    strapdownRk4 ⟨6, y⟩ dt dVN gN ⟨6, y0⟩ = .ok (true, ⟨6, rk4 (navRates (dt⁻¹ • dVN) gN) dt y⟩) := by
  rw [rk4_eval, rk4_R]

/-- The four states at which `strapdownRk4` evaluates the dynamics are regular. -/
def StagesRegular (F : (Fin 6 → ℝ) → Fin 6 → ℝ) (dt : ℝ) (y : Fin 6 → ℝ) : Prop :=
  let k1 := F y
  let k2 := F (y + (dt / 2) • k1)
  let k3 := F (y + (dt / 2) • k2)
  let ok (z : Fin 6 → ℝ) := RegularPos (z 0) (z 2)
  ok y ∧ ok (y + (dt / 2) • k1) ∧ ok (y + (dt / 2) • k2) ∧ ok (y + dt • k3)

theorem half_step (dt : ℝ) (k : Fin 6 → ℝ) (y : Fin 6 → ℝ) :
    vadd (finV y) (vdiv (vsmul (fin dt) (finV k)) (fin 2)) = finV (y + (dt / 2) • k) := by
  rw [X_vsmul, X_vdiv _ _ two_ne_zero, X_vadd, smul_smul, div_eq_inv_mul]

/-- C40, with NaN and infinities in the picture: for a nonzero step whose four stages are regular the result is finite, and is the
Runge-Kutta step. -/
theorem C40_finite (y : Fin 6 → ℝ) (y0 : Fin 6 → XR) (dt : ℝ) (dVN gN : V3 ℝ) (hdt : dt ≠ 0)
    (hr : StagesRegular (navRates (dt⁻¹ • dVN) gN) dt y) :
    strapdownRk4 ⟨6, finV y⟩ (fin dt) (finV dVN) (finV gN) ⟨6, y0⟩
      = .ok (true, ⟨6, finV (rk4 (navRates (dt⁻¹ • dVN) gN) dt y)⟩) := by
  obtain ⟨h1, h2, h3, h4⟩ := hr
  rw [rk4_eval, ← rk4_R]
  simp only [rk4G, xsimp, rsimp]
  rw [dyn_X _ _ _ _ hdt h1, dyn_R, half_step, dyn_X _ _ _ _ hdt h2, dyn_R, half_step, dyn_X _ _ _ _ hdt h3, dyn_R,
    X_vsmul, X_vsmul, X_vsmul, X_vadd, dyn_X _ _ _ _ hdt h4, dyn_R, X_vsmul,
    fin_div _ _ (by norm_num), fin_div _ _ (by norm_num), X_vsmul, X_vsmul, X_vsmul, X_vsmul, X_vadd, X_vadd, X_vadd, X_vadd]
  simp only [dyn_R, smul_smul, show (2 : ℝ)⁻¹ * dt = dt / 2 by ring]

theorem regular_of_surface {lat h : ℝ} (hc : Real.cos lat ≠ 0) (hh : 0 ≤ h) : RegularPos lat h :=
  ⟨hc, (add_pos_of_pos_of_nonneg (meridian_pos lat) hh).ne', (add_pos_of_pos_of_nonneg (primeVertical_pos lat) hh).ne'⟩

theorem climb_rates (h v : ℝ) : navRates 0 ![0, -(2 * earthRate * v), 0] ![0, 0, h, 0, 0, v] = ![0, 0, -v, 0, 0, 0] := by
  ext i; fin_cases i <;> simp [navRates, posRates, velRates, earthVec, transportVec, crossProduct]

theorem climb_stage (h v c : ℝ) : (![0, 0, h, 0, 0, v] : Fin 6 → ℝ) + c • ![0, 0, -v, 0, 0, 0] = ![0, 0, h - c * v, 0, 0, v] := by
  ext i; fin_cases i <;> simp; ring

/-- A vehicle climbing at 10 m/s from the equator, with a force balancing the Coriolis acceleration, meets the hypotheses. -/
example : StagesRegular (navRates ((1 : ℝ)⁻¹ • 0) ![0, -(2 * earthRate * -10), 0]) 1 ![0, 0, 100, 0, 0, -10] := by
  simp only [StagesRegular, smul_zero, climb_rates, climb_stage, Matrix.cons_val]
  refine ⟨?_, ?_, ?_, ?_⟩ <;> exact regular_of_surface (by simp) (by norm_num)

/-! C41: consistency. -/

theorem rk4_consistent {n : ℕ} (F : (Fin n → ℝ) → Fin n → ℝ) (y : Fin n → ℝ) (hF : ContinuousAt F y) :
    Tendsto (fun dt : ℝ => dt⁻¹ • (rk4 F dt y - y)) (𝓝[≠] 0) (𝓝 (F y)) := by
  have hid : Tendsto (fun dt : ℝ => dt) (𝓝[≠] (0 : ℝ)) (𝓝 0) := tendsto_nhdsWithin_of_tendsto_nhds tendsto_id
  have hhalf : Tendsto (fun dt : ℝ => dt / 2) (𝓝[≠] (0 : ℝ)) (𝓝 0) := by simpa using hid.div_const 2
  have step : ∀ (c : ℝ → ℝ) (k : ℝ → Fin n → ℝ), Tendsto c (𝓝[≠] (0 : ℝ)) (𝓝 0) → Tendsto k (𝓝[≠] (0 : ℝ)) (𝓝 (F y)) →
      Tendsto (fun dt => F (y + c dt • k dt)) (𝓝[≠] (0 : ℝ)) (𝓝 (F y)) := by
    intro c k hc hk
    have : Tendsto (fun dt => y + c dt • k dt) (𝓝[≠] (0 : ℝ)) (𝓝 y) := by
      simpa using tendsto_const_nhds.add (hc.smul hk)
    exact hF.tendsto.comp this
  have h1 : Tendsto (fun _ : ℝ => F y) (𝓝[≠] (0 : ℝ)) (𝓝 (F y)) := tendsto_const_nhds
  have h2 := step _ _ hhalf h1
  have h3 := step _ _ hhalf h2
  have h4 := step _ _ hid h3
  have hs := (((h1.add (h2.const_smul (2 : ℝ))).add (h3.const_smul (2 : ℝ))).add h4).const_smul (1 / 6 : ℝ)
  have he : (1 / 6 : ℝ) • (F y + (2 : ℝ) • F y + (2 : ℝ) • F y + F y) = F y := by
    ext i; simp; ring
  rw [he] at hs
  refine hs.congr' ?_
  filter_upwards [self_mem_nhdsWithin] with dt hdt
  have hdt : dt ≠ 0 := hdt
  ext i
  simp only [rk4, Pi.smul_apply, Pi.add_apply, Pi.sub_apply, smul_eq_mul]
  field_simp
  ring

theorem continuousAt_navRates (s g : Fin 3 → ℝ) (y : Fin 6 → ℝ) (hr : RegularPos (y 0) (y 2)) : ContinuousAt (navRates s g) y := by
  have hw : ∀ φ, Real.sqrt (1 - ecc2 * Real.sin φ ^ 2) ≠ 0 := fun φ => (Real.sqrt_pos.2 (w_pos φ)).ne'
  have hM : Continuous meridian := by
    unfold meridian
    exact Continuous.div₀ (by fun_prop) (by fun_prop) (fun φ => pow_ne_zero _ (hw φ))
  have hN : Continuous primeVertical := by
    unfold primeVertical
    exact Continuous.div₀ (by fun_prop) (by fun_prop) hw
  have hc : ∀ i, ContinuousAt (fun y : Fin 6 → ℝ => y i) y := fun i => (continuous_apply i).continuousAt
  have h0 := hc 0; have h2 := hc 2; have h3 := hc 3; have h4 := hc 4; have h5 := hc 5
  have hsin : ContinuousAt (fun y : Fin 6 → ℝ => Real.sin (y 0)) y := (Real.continuous_sin.comp (continuous_apply 0)).continuousAt
  have hcos : ContinuousAt (fun y : Fin 6 → ℝ => Real.cos (y 0)) y := (Real.continuous_cos.comp (continuous_apply 0)).continuousAt
  have hM' : ContinuousAt (fun y : Fin 6 → ℝ => meridian (y 0)) y := (hM.comp (continuous_apply 0)).continuousAt
  have hN' : ContinuousAt (fun y : Fin 6 → ℝ => primeVertical (y 0)) y := (hN.comp (continuous_apply 0)).continuousAt
  have hlat : ContinuousAt (fun y : Fin 6 → ℝ => y 3 / (meridian (y 0) + y 2)) y :=
    ContinuousAt.div₀ h3 (hM'.add h2) hr.merid
  have hlon : ContinuousAt (fun y : Fin 6 → ℝ => y 4 / ((primeVertical (y 0) + y 2) * Real.cos (y 0))) y :=
    ContinuousAt.div₀ h4 ((hN'.add h2).mul hcos) (mul_ne_zero hr.prime hr.pole)
  rw [continuousAt_pi]
  intro i
  have hk : ∀ c : ℝ, ContinuousAt (fun _ : Fin 6 → ℝ => c) y := fun c => continuousAt_const
  fin_cases i <;>
    simp [navRates, posRates, velRates, earthVec, transportVec, crossProduct]
  · exact hlat
  · exact hlon
  · exact h5.neg
  · exact (hk _).sub (((hlat.mul h5).neg).sub (((((hk 2).mul ((hk _).mul hsin)).neg).add (hlon.mul hsin).neg).mul h4))
  · exact (hk _).sub (((((hk 2).mul ((hk _).mul hsin)).neg.add (hlon.mul hsin).neg).mul h3).sub
      ((((hk 2).mul ((hk _).mul hcos)).add (hlon.mul hcos)).mul h5))
  · exact (hk _).sub (((((hk 2).mul ((hk _).mul hcos)).add (hlon.mul hcos)).mul h4).add (hlat.mul h3))

/-- C41: shrink the time step at fixed specific force `s`. The change of state per unit time made by `strapdownRk4` tends to the navigation
equations, at every regular state. -/
theorem C41_consistent (y : Fin 6 → ℝ) (s g : V3 ℝ) (hr : RegularPos (y 0) (y 2)) (yk : ℝ → Fin 6 → ℝ)
    (hyk : ∀ dt, strapdownRk4 ⟨6, y⟩ dt (dt • s) g ⟨6, yk 0⟩ = .ok (true, ⟨6, yk dt⟩)) :
    Tendsto (fun dt => dt⁻¹ • (yk dt - y)) (𝓝[≠] 0) (𝓝 (navRates s g y)) := by
  refine (rk4_consistent (navRates s g) y (continuousAt_navRates s g y hr)).congr' ?_
  filter_upwards [self_mem_nhdsWithin] with dt hdt
  have h := hyk dt
  rw [C40_classical_rk4, smul_smul, inv_mul_cancel₀ hdt, one_smul] at h
  injection h with h
  injection h with _ h
  injection h with _ h
  rw [h]

/-- A vehicle at 45 degrees of latitude, and the outputs the integrator produces for it, meet the hypotheses. -/
example : RegularPos (Real.pi / 4) 1000 ∧ ∀ (y : Fin 6 → ℝ) (s g : V3 ℝ), ∃ yk : ℝ → Fin 6 → ℝ,
    ∀ dt, strapdownRk4 ⟨6, y⟩ dt (dt • s) g ⟨6, yk 0⟩ = .ok (true, ⟨6, yk dt⟩) :=
  ⟨regular_of_surface (by rw [Real.cos_pi_div_four]; positivity) (by norm_num), fun _ _ _ => ⟨_, fun _ => C40_classical_rk4 _ _ _ _ _⟩⟩

/-! C42: a stationary navigator. -/

theorem stationary_rates (p g : V3 ℝ) : navRates (-g) g ![p 0, p 1, p 2, 0, 0, 0] = 0 := by
  ext i; fin_cases i <;> simp [navRates, posRates, velRates, crossProduct]

theorem stationary_step (p g : V3 ℝ) (dt : ℝ) : rk4 (navRates (-g) g) dt ![p 0, p 1, p 2, 0, 0, 0] = ![p 0, p 1, p 2, 0, 0, 0] := by
  simp only [rk4, stationary_rates, smul_zero, add_zero]

/-- C42: zero velocity and a delta-velocity that cancels gravity. After any number of steps, of any nonzero sizes, position and velocity are
exactly what they were; NaN and infinities cannot occur. -/
theorem C42_stationary (p g : V3 ℝ) (hp : RegularPos (p 0) (p 2)) (dts : List ℝ) (hdt : ∀ dt ∈ dts, dt ≠ 0) :
    dts.foldlM (fun y dt => do
        let r ← strapdownRk4 y (fin dt) (finV (dt • -g)) (finV g) ⟨6, fun _ => nan⟩
        return r.2) (⟨6, finV ![p 0, p 1, p 2, 0, 0, 0]⟩ : DVec XR)
      = (.ok ⟨6, finV ![p 0, p 1, p 2, 0, 0, 0]⟩ : Out _) := by
  induction dts with
  | nil => rfl
  | cons dt dts ih =>
    have hd : dt ≠ 0 := hdt dt (by simp)
    have he : dt⁻¹ • dt • -g = -g := by rw [smul_smul, inv_mul_cancel₀ hd, one_smul]
    have hst : StagesRegular (navRates (dt⁻¹ • dt • -g) g) dt ![p 0, p 1, p 2, 0, 0, 0] := by
      rw [he]
      simp only [StagesRegular, stationary_rates, smul_zero, add_zero]
      exact ⟨hp, hp, hp, hp⟩
    rw [List.foldlM_cons, C40_finite _ _ _ _ _ hd hst, he, stationary_step]
    exact ih fun d hd => hdt d (by simp [hd])

/-- A navigator at rest on a mountain, updated at varying rates. -/
example : RegularPos ((![0.5, 1, 2000] : V3 ℝ) 0) ((![0.5, 1, 2000] : V3 ℝ) 2) ∧ ∀ dt ∈ [(0.01 : ℝ), 0.02], dt ≠ 0 := by
  simp only [Matrix.cons_val]
  refine ⟨regular_of_surface ?_ (by norm_num), by norm_num⟩
  exact (Real.cos_pos_of_le_one (by norm_num)).ne'

/-- C42 at exact reals needs no regularity and also covers any common right-hand-side gravity: one step is the identity. -/
theorem C42_stationary_real (p g : V3 ℝ) (dt : ℝ) (hdt : dt ≠ 0) (y0 : Fin 6 → ℝ) :
    strapdownRk4 ⟨6, ![p 0, p 1, p 2, 0, 0, 0]⟩ dt (dt • -g) g ⟨6, y0⟩ = .ok (true, ⟨6, ![p 0, p 1, p 2, 0, 0, 0]⟩) := by
  rw [C40_classical_rk4, smul_smul, inv_mul_cancel₀ hdt, one_smul, stationary_step]

/-! C44: zero time step. -/

theorem notfin_add {a : XR} (h : ¬a.Finite) (b : XR) : ¬(a + b).Finite := by
  rintro ⟨z, hz⟩
  cases a <;> cases b <;> first | exact h ⟨_, rfl⟩ | cases hz
theorem notfin_sub {a : XR} (h : ¬a.Finite) (b : XR) : ¬(a - b).Finite := by
  rintro ⟨z, hz⟩
  cases a <;> cases b <;> first | exact h ⟨_, rfl⟩ | cases hz
theorem zero_mul_notfin {a : XR} (h : ¬a.Finite) : fin 0 * a = nan := by
  cases a with
  | nan => simp only [xsimp]
  | pinf => simp only [xsimp]
  | ninf => simp only [xsimp]
  | fin x => exact absurd ⟨x, rfl⟩ h

/-- C44 fails: a step with `dt = 0` (two messages with the same time stamp) turns the whole state into NaN, whatever the state,
delta-velocity and gravity are — also for zero delta-velocity — and reports success. -/
theorem C44_zero_dt_fails (y y0 : Fin 6 → XR) (dVN gN : V3 XR) :
    strapdownRk4 ⟨6, y⟩ (fin 0) dVN gN ⟨6, y0⟩ = .ok (true, ⟨6, fun _ => nan⟩) := by
  have h1 : ∀ y, ∀ i : Fin 6, 3 ≤ i.val → vsmul (fin 0) (dynG dVN gN (fin 0) y) i = nan := by
    intro y i hi
    apply zero_mul_notfin
    have hd : ∀ j, ¬(vdiv dVN (fin 0) j).Finite := fun j => div_zero_not_finite _
    fin_cases i <;> simp at hi
    · exact notfin_sub (notfin_add (notfin_sub (notfin_add (hd 0) _) _) _) _
    · exact notfin_add (notfin_add (notfin_add (notfin_add (notfin_add (hd 1) _) _) _) _) _
    · exact notfin_sub (notfin_sub (notfin_sub (notfin_add (hd 2) _) _) _) _
  have h2 : ∀ y : Fin 6 → XR, (∀ i : Fin 6, 3 ≤ i.val → y i = nan) → ∀ i, dynG dVN gN (fin 0) y i = nan := by
    intro y hy i
    have e3 := hy 3 (by decide); have e4 := hy 4 (by decide); have e5 := hy 5 (by decide)
    fin_cases i <;> simp [dynG, e3, e4, e5, xsimp]
  rw [rk4_eval]
  suffices h : rk4G dVN gN (fin 0) y = fun _ => nan by rw [h]
  have hK2 : vsmul (fin 0) (dynG dVN gN (fin 0) (vadd y (vdiv (vsmul (fin 0) (dynG dVN gN (fin 0) y)) (Flt.lit 2)))) = fun _ => nan := by
    ext i
    rw [vsmul, h2, mul_nan]
    intro j hj
    rw [vadd, vdiv, h1 y j hj, nan_div, add_nan]
  simp only [rk4G]
  rw [hK2]
  ext i
  simp [vadd, vsmul, xsimp]

/-- C44, what does hold: with any nonzero time step and zero increments in free fall the state stays finite if the stages are regular
(`C40_finite`), and zero increments at rest with gravity zero leave it unchanged. -/
theorem C44_nonzero_dt_partial (p : V3 ℝ) (hp : RegularPos (p 0) (p 2)) (dt : ℝ) (hdt : dt ≠ 0) (y0 : Fin 6 → XR) :
    strapdownRk4 ⟨6, finV ![p 0, p 1, p 2, 0, 0, 0]⟩ (fin dt) (finV 0) (finV 0) ⟨6, y0⟩
      = .ok (true, ⟨6, finV ![p 0, p 1, p 2, 0, 0, 0]⟩) := by
  have h0 : navRates (dt⁻¹ • (0 : V3 ℝ)) 0 ![p 0, p 1, p 2, 0, 0, 0] = 0 := by
    have := stationary_rates p 0; simpa using this
  rw [C40_finite _ _ _ _ _ hdt]
  · rw [smul_zero] at h0
    simp only [rk4, smul_zero, h0, add_zero]
  · rw [smul_zero] at h0
    simp only [StagesRegular, smul_zero, h0, add_zero]; exact ⟨hp, hp, hp, hp⟩

end NavFuse.Props
