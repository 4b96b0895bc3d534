import Verif.Props.Order
import Verif.Props.StrapdownOde

/-! # Properties C104 and C105: accuracy of the complete navigation step

`Strapdown::integrate` feeds `strapdownRk4` with the velocity increment rotated with the attitude at the *end* of the step and with gravity at the
*start* of the step (C90, C101). For a constant body rate and a constant specific force in the body, the equations it is meant to solve are
`y' = navRates (X t *ᵥ f) (gravity at y) y`. -/

namespace NavFuse.Props
open Matrix Spec NavUtils Filter Topology Asymptotics

/-- gravity as computed by the code, at a navigation state -/
noncomputable def stateGravity (z : Fin 6 → ℝ) : V3 ℝ := (Gravity.gravityNed (z 0) (z 2)).2

/-- an acceleration, as a rate of change of the state -/
def accel (v : V3 ℝ) : Fin 6 → ℝ := ![0, 0, 0, v 0, v 1, v 2]

theorem navRates_shift (s s0 g g0 : V3 ℝ) (z : Fin 6 → ℝ) : navRates s g z = navRates s0 g0 z + accel (s - s0 + (g - g0)) := by
  ext i; fin_cases i <;> simp [navRates, velRates, accel] <;> ring

theorem hasDerivAt_accel {v : ℝ → V3 ℝ} {v' : V3 ℝ} {t : ℝ} (h : HasDerivAt v v' t) : HasDerivAt (fun t => accel (v t)) (accel v') t := by
  have hi := hasDerivAt_pi.1 h
  refine hasDerivAt_pi.2 fun i => ?_
  fin_cases i <;> simp [accel, hasDerivAt_const, hi]

theorem accel_zero : accel 0 = 0 := by ext i; fin_cases i <;> simp [accel]

/-- second-order comparison of the step with the motion -/
theorem nav_second (X : ℝ → M3 ℝ) (ω f : V3 ℝ) (hX : ∀ τ u, HasDerivAt (fun s => X s *ᵥ u) (X τ *ᵥ (ω ⨯₃ u)) τ)
    (y : ℝ → Fin 6 → ℝ) (hr : RegularPos (y 0 0) (y 0 2)) (hy : ∀ᶠ t in 𝓝 0, HasDerivAt y (navRates (X t *ᵥ f) (stateGravity (y t)) (y t)) t)
    (γ' : V3 ℝ) (hγ : HasDerivAt (fun t => stateGravity (y t)) γ' 0) :
    (fun h : ℝ => y 0 + h • Rk.incr (navRates (X h *ᵥ f) (stateGravity (y 0))) h (y 0) - y h
      - h ^ 2 • ((1 / 2 : ℝ) • accel (X 0 *ᵥ (ω ⨯₃ f) - γ'))) =o[𝓝 0] fun h : ℝ => h ^ 2 := by
  set F := navRates (X 0 *ᵥ f) (stateGravity (y 0)) with hF
  have hA := ((Rk.analyticAt_nav (X 0 *ᵥ f) (stateGravity (y 0)) (y 0) hr).differentiableAt).hasFDerivAt
  rw [← hF] at hA
  have hXf : HasDerivAt (fun t => X t *ᵥ f - X 0 *ᵥ f) (X 0 *ᵥ (ω ⨯₃ f)) 0 := by simpa using (hX 0 f).sub_const (X 0 *ᵥ f)
  -- the step
  have h1 := Rk.incr_deriv hA (hasDerivAt_accel hXf) (by simp [accel_zero])
  have e1 : ∀ h, Rk.incr (fun z => F z + accel (X h *ᵥ f - X 0 *ᵥ f)) h (y 0) = Rk.incr (navRates (X h *ᵥ f) (stateGravity (y 0))) h (y 0) := fun h => by
    congr 1; ext1 z; rw [navRates_shift (X h *ᵥ f) (X 0 *ᵥ f) _ (stateGravity (y 0)) z, sub_self, add_zero]
  simp only [e1] at h1
  have i0 : Rk.incr (navRates (X 0 *ᵥ f) (stateGravity (y 0))) 0 (y 0) = F (y 0) := by
    simp only [Rk.incr, zero_div, zero_smul, add_zero, ← hF]; module
  have h2 := hasDerivAt_iff_isLittleO_nhds_zero.1 h1
  simp only [zero_add, i0] at h2
  have h3 : (fun h : ℝ => h • (Rk.incr (navRates (X h *ᵥ f) (stateGravity (y 0))) h (y 0) - F (y 0)
      - h • ((1 / 2 : ℝ) • (fderiv ℝ F (y 0)) (F (y 0)) + accel (X 0 *ᵥ (ω ⨯₃ f))))) =o[𝓝 0] fun h : ℝ => h ^ 2 :=
    ((isBigO_refl (fun h : ℝ => h) (𝓝 0)).smul_isLittleO h2).congr_right fun h => by rw [smul_eq_mul, sq]
  -- the motion
  have hy0 := hy.self_of_nhds
  have hw : HasDerivAt (fun t => navRates (X t *ᵥ f) (stateGravity (y t)) (y t))
      ((fderiv ℝ F (y 0)) (F (y 0)) + accel (X 0 *ᵥ (ω ⨯₃ f) + γ')) 0 := by
    have := (hA.comp_hasDerivAt (0 : ℝ) hy0).add (hasDerivAt_accel (hXf.add (hγ.sub_const (stateGravity (y 0)))))
    refine (this.congr_of_eventuallyEq (Eventually.of_forall fun t => ?_))
    simp only [Pi.add_apply, Function.comp_apply, hF]
    exact navRates_shift _ _ _ _ _
  have h4 := Rk.curve_second hy hw
  have := h3.sub h4
  refine this.congr_left fun h => ?_
  have ea : ∀ a b : V3 ℝ, accel (a + b) = accel a + accel b := fun a b => by ext i; fin_cases i <;> simp [accel]
  have es : ∀ a b : V3 ℝ, accel (a - b) = accel a - accel b := fun a b => by ext i; fin_cases i <;> simp [accel]
  rw [ea, es]
  simp only [← hF]
  module

/-- C104. One step of length `dt` from the state `y 0` of the true motion, for a body turning at the constant rate `ω` with the constant specific
force `f`, fed to `strapdownRk4` in the way `integrate` does. The error of the step, divided by `dt²`, tends to half the difference of
the jerk `X(ω × f)` and the rate of change of gravity along the path, in the velocity components: although `strapdownRk4` has order four (C102),
the complete step has order one, and no more unless these two happen to cancel. -/
theorem C104_first_order (X : ℝ → M3 ℝ) (ω f : V3 ℝ) (hX : ∀ τ u, HasDerivAt (fun s => X s *ᵥ u) (X τ *ᵥ (ω ⨯₃ u)) τ)
    (y : ℝ → Fin 6 → ℝ) (hr : RegularPos (y 0 0) (y 0 2)) (hy : ∀ᶠ t in 𝓝 0, HasDerivAt y (navRates (X t *ᵥ f) (stateGravity (y t)) (y t)) t)
    (γ' : V3 ℝ) (hγ : HasDerivAt (fun t => stateGravity (y t)) γ' 0) (yk : ℝ → Fin 6 → ℝ)
    (hyk : ∀ dt, strapdownRk4 ⟨6, y 0⟩ dt (X dt *ᵥ (dt • f)) (Gravity.gravityNed (y 0 0) (y 0 2)).2 ⟨6, yk 0⟩ = .ok (true, ⟨6, yk dt⟩)) :
    Tendsto (fun dt : ℝ => (dt ^ 2)⁻¹ • (yk dt - y dt)) (𝓝[≠] 0)
      (𝓝 ((1 / 2 : ℝ) • ![0, 0, 0, (X 0 *ᵥ (ω ⨯₃ f) - γ') 0, (X 0 *ᵥ (ω ⨯₃ f) - γ') 1, (X 0 *ᵥ (ω ⨯₃ f) - γ') 2])) := by
  have h := (nav_second X ω f hX y hr hy γ' hγ).mono (nhdsWithin_le_nhds (s := {0}ᶜ))
  have h1 := h.tendsto_inv_smul_nhds_zero
  have h2 := h1.add_const ((1 / 2 : ℝ) • accel (X 0 *ᵥ (ω ⨯₃ f) - γ'))
  rw [zero_add] at h2
  refine h2.congr' ?_
  filter_upwards [self_mem_nhdsWithin] with dt hdt
  have hdt : dt ≠ 0 := hdt
  have h := hyk dt
  rw [C40_classical_rk4, mulVec_smul, smul_smul, inv_mul_cancel₀ hdt, one_smul] at h
  injection h with h
  injection h with _ h
  injection h with _ h
  rw [← h, Rk.rk4_incr]
  simp only [stateGravity]
  rw [smul_sub _ (_ - _), smul_smul ((dt ^ 2)⁻¹), inv_mul_cancel₀ (pow_ne_zero 2 hdt), one_smul, sub_add_cancel]

theorem contDiff_stateGravity (n : WithTop ℕ∞) : ContDiff ℝ n stateGravity := by
  have e : stateGravity = fun z => ![-8.08 * 1e-6 * (z 2 / 1000) * Real.sin (2 * z 0), 0, ellG (z 0) * altFactor (z 0) (z 2)] := by
    ext1 z; rw [stateGravity, gravity_R]
  have h0 : ContDiff ℝ n (fun z : Fin 6 → ℝ => z 0) := contDiff_apply ℝ ℝ (0 : Fin 6)
  have h2 : ContDiff ℝ n (fun z : Fin 6 → ℝ => z 2) := contDiff_apply ℝ ℝ (2 : Fin 6)
  rw [e, contDiff_pi]
  intro i
  fin_cases i
  · exact (contDiff_const.mul (h2.div_const 1000)).mul (contDiff_const.mul h0).sin
  · exact contDiff_const
  · refine ContDiff.mul ?_ ?_
    · unfold ellG
      refine ContDiff.div ((contDiff_const.mul (h0.cos.pow 2)).add (contDiff_const.mul (h0.sin.pow 2))) ?_ fun z => (Real.sqrt_pos.2 (ellG_den_pos _)).ne'
      exact ContDiff.sqrt ((contDiff_const.mul (h0.cos.pow 2)).add (contDiff_const.mul (h0.sin.pow 2))) fun z => (ellG_den_pos _).ne'
    · unfold altFactor
      exact (contDiff_const.sub ((contDiff_const.mul (contDiff_const.sub (contDiff_const.mul (h0.sin.pow 2)))).mul h2)).add
        ((contDiff_const.mul (h2.pow 2)).div_const _)

/-- a constant-rate attitude is smooth in time -/
theorem contDiff_attitude (X : ℝ → M3 ℝ) (ω f : V3 ℝ) (hω : ω ≠ 0) (hX : ∀ τ u, HasDerivAt (fun s => X s *ᵥ u) (X τ *ᵥ (ω ⨯₃ u)) τ) (n : WithTop ℕ∞) :
    ContDiff ℝ n (fun t => X t *ᵥ f) := by
  have e : (fun t => X t *ᵥ f) = fun t => X 0 *ᵥ turn ((len3 ω)⁻¹ • ω) (len3 ω * t) f := by
    ext1 t; exact attitude_ode_unique X ω hω hX t f
  have hθ : ContDiff ℝ n (fun t : ℝ => len3 ω * t) := contDiff_const.mul contDiff_id
  rw [e, contDiff_pi]
  intro i
  have : ∀ j, ContDiff ℝ n (fun t => turn ((len3 ω)⁻¹ • ω) (len3 ω * t) f j) := fun j => by
    simp only [turn, Pi.add_apply, Pi.smul_apply, smul_eq_mul]
    exact ((hθ.cos.mul contDiff_const).add (hθ.sin.mul contDiff_const)).add (((contDiff_const.sub hθ.cos).mul contDiff_const).mul contDiff_const)
  simp only [mulVec, dotProduct]
  exact ContDiff.sum fun j _ => contDiff_const.mul (this j)

theorem contDiffAt_motion (X : ℝ → M3 ℝ) (ω f : V3 ℝ) (hω : ω ≠ 0) (hX : ∀ τ u, HasDerivAt (fun s => X s *ᵥ u) (X τ *ᵥ (ω ⨯₃ u)) τ) (t : ℝ)
    (z : Fin 6 → ℝ) (hr : RegularPos (z 0) (z 2)) (n : WithTop ℕ∞) :
    ContDiffAt ℝ n (fun q : ℝ × (Fin 6 → ℝ) => navRates (X q.1 *ᵥ f) (stateGravity q.2) q.2) (t, z) :=
  Rk.contDiffAt_nav (x := (t, z)) (ContDiffAt.comp (t, z) (g := fun t => X t *ᵥ f) (contDiff_attitude X ω f hω hX n).contDiffAt contDiffAt_fst)
    (ContDiffAt.comp (t, z) (g := stateGravity) (contDiff_stateGravity n).contDiffAt contDiffAt_snd) contDiffAt_snd hr

/-- C104 applies to every regular state, attitude, body rate and specific force: there is a motion starting there, along which gravity is differentiable. -/
theorem exists_motion (X : ℝ → M3 ℝ) (ω f : V3 ℝ) (hω : ω ≠ 0) (hX : ∀ τ u, HasDerivAt (fun s => X s *ᵥ u) (X τ *ᵥ (ω ⨯₃ u)) τ)
    (y0 : Fin 6 → ℝ) (hr : RegularPos (y0 0) (y0 2)) : ∃ ε > 0, ∃ y : ℝ → Fin 6 → ℝ, y 0 = y0
      ∧ ∀ t ∈ Set.Ioo (-ε) ε, RegularPos (y t 0) (y t 2) ∧ HasDerivAt y (navRates (X t *ᵥ f) (stateGravity (y t)) (y t)) t := by
  have hs : ContDiffAt ℝ 1 (fun q : ℝ × (Fin 6 → ℝ) => ((1 : ℝ), navRates (X q.1 *ᵥ f) (stateGravity q.2) q.2)) ((0 : ℝ), y0) :=
    contDiffAt_const.prodMk (contDiffAt_motion X ω f hω hX 0 y0 hr 1)
  obtain ⟨α, h0, ε, hε, h⟩ := hs.exists_forall_mem_closedBall_exists_eq_forall_mem_Ioo_hasDerivAt₀ 0
  rw [zero_sub, zero_add] at h
  have h1 : ∀ t ∈ Set.Ioo (-ε) ε, HasDerivAt (fun t => (α t).1) 1 t := fun t ht => (h t ht).fst
  have h2 : ∀ t ∈ Set.Ioo (-ε) ε, HasDerivAt (fun t => (α t).2) (navRates (X (α t).1 *ᵥ f) (stateGravity (α t).2) (α t).2) t := fun t ht => (h t ht).snd
  have ht : ∀ t ∈ Set.Ioo (-ε) ε, (α t).1 = t := by
    intro t ht
    have := (convex_Ioo (-ε) ε).is_const_of_fderivWithin_eq_zero (𝕜 := ℝ) (f := fun t => (α t).1 - t)
      (fun t ht => ((h1 t ht).sub (hasDerivAt_id t)).differentiableAt.differentiableWithinAt)
      (fun t ht => by
        have := ((h1 t ht).sub (hasDerivAt_id t)).hasFDerivAt.hasFDerivWithinAt.fderivWithin (s := Set.Ioo (-ε) ε) (isOpen_Ioo.uniqueDiffWithinAt ht)
        rw [show (fun t => (α t).1 - t) = (fun t => (α t).1) - id from rfl, this]; ext; simp) ht (⟨by linarith, hε⟩ : (0 : ℝ) ∈ Set.Ioo (-ε) ε)
    simp only [h0, sub_zero] at this
    linarith
  have hc : ContinuousAt (fun t => (α t).2) 0 := (h2 0 ⟨by linarith, hε⟩).continuousAt
  have hreg : ∀ᶠ z in 𝓝 y0, RegularPos (z 0) (z 2) := by
    have c0 : ContinuousAt (fun z : Fin 6 → ℝ => z 0) y0 := (continuous_apply 0).continuousAt
    have c2 : ContinuousAt (fun z : Fin 6 → ℝ => z 2) y0 := (continuous_apply 2).continuousAt
    have cm : ContinuousAt (fun z : Fin 6 → ℝ => meridian (z 0)) y0 := (Rk.contDiff_meridian (n := 0) (contDiff_apply ℝ ℝ (0 : Fin 6)).contDiffAt).continuousAt
    have cp : ContinuousAt (fun z : Fin 6 → ℝ => primeVertical (z 0)) y0 := (Rk.contDiff_primeVertical (n := 0) (contDiff_apply ℝ ℝ (0 : Fin 6)).contDiffAt).continuousAt
    filter_upwards [(Real.continuous_cos.continuousAt.comp c0).eventually_ne hr.pole, (cm.add c2).eventually_ne hr.merid, (cp.add c2).eventually_ne hr.prime] with z a b c
    exact ⟨a, b, c⟩
  have hreg' : ∀ᶠ t in 𝓝 (0 : ℝ), RegularPos ((α t).2 0) ((α t).2 2) := hc.eventually (p := fun z => RegularPos (z 0) (z 2)) (by simp only [h0]; exact hreg)
  obtain ⟨δ, hδ, H⟩ := Metric.eventually_nhds_iff_ball.1 hreg'
  refine ⟨min ε δ, lt_min hε hδ, fun t => (α t).2, by simp only [h0], fun t htt => ⟨?_, ?_⟩⟩
  · refine H t ?_
    rw [Metric.mem_ball, Real.dist_0_eq_abs, abs_lt]
    exact ⟨(neg_le_neg (min_le_right ε δ)).trans_lt htt.1, htt.2.trans_le (min_le_right _ _)⟩
  · have hm : t ∈ Set.Ioo (-ε) ε := ⟨(neg_le_neg (min_le_left ε δ)).trans_lt htt.1, htt.2.trans_le (min_le_left _ _)⟩
    have := h2 t hm
    rw [ht t hm] at this
    exact this

example (X : ℝ → M3 ℝ) (ω f : V3 ℝ) (hω : ω ≠ 0) (hX : ∀ τ u, HasDerivAt (fun s => X s *ᵥ u) (X τ *ᵥ (ω ⨯₃ u)) τ)
    (y0 : Fin 6 → ℝ) (hr : RegularPos (y0 0) (y0 2)) : ∃ y : ℝ → Fin 6 → ℝ, y 0 = y0
      ∧ (∀ᶠ t in 𝓝 0, HasDerivAt y (navRates (X t *ᵥ f) (stateGravity (y t)) (y t)) t) ∧ ∃ γ', HasDerivAt (fun t => stateGravity (y t)) γ' 0 := by
  obtain ⟨ε, hε, y, h0, h⟩ := exists_motion X ω f hω hX y0 hr
  have hm : (0 : ℝ) ∈ Set.Ioo (-ε) ε := ⟨by linarith, hε⟩
  have hg := (((contDiff_stateGravity 1).differentiable (by simp)).differentiableAt.hasFDerivAt).comp_hasDerivAt (0 : ℝ) (h 0 hm).2
  exact ⟨y, h0, (isOpen_Ioo.mem_nhds hm : Set.Ioo (-ε) ε ∈ 𝓝 0) |> Filter.mem_of_superset <| fun t ht => (h t ht).2, _, hg⟩

/-- C104: the order is not better than one. From rest, with any attitude that is not degenerate, and with a specific force that is not along the axis
of rotation, the error of the step is at least a positive multiple of `dt²` for all small `dt`, for every motion starting there. -/
theorem C104_no_better (X : ℝ → M3 ℝ) (ω f : V3 ℝ) (hX : ∀ τ u, HasDerivAt (fun s => X s *ᵥ u) (X τ *ᵥ (ω ⨯₃ u)) τ) (hdet : (X 0).det ≠ 0)
    (hf : ω ⨯₃ f ≠ 0) (y : ℝ → Fin 6 → ℝ) (hr : RegularPos (y 0 0) (y 0 2))
    (hy : ∀ᶠ t in 𝓝 0, HasDerivAt y (navRates (X t *ᵥ f) (stateGravity (y t)) (y t)) t)
    (hrest : y 0 3 = 0 ∧ y 0 4 = 0 ∧ y 0 5 = 0) (yk : ℝ → Fin 6 → ℝ)
    (hyk : ∀ dt, strapdownRk4 ⟨6, y 0⟩ dt (X dt *ᵥ (dt • f)) (Gravity.gravityNed (y 0 0) (y 0 2)).2 ⟨6, yk 0⟩ = .ok (true, ⟨6, yk dt⟩)) :
    ∃ c > 0, ∀ᶠ dt in 𝓝[≠] (0 : ℝ), c * dt ^ 2 ≤ ‖yk dt - y dt‖ := by
  have hy0 := hy.self_of_nhds
  have hγ : HasDerivAt (fun t => stateGravity (y t)) 0 0 := by
    have hg := (((contDiff_stateGravity 1).differentiable (by simp)) (y 0)).hasFDerivAt
    have h1 := hg.comp_hasDerivAt (0 : ℝ) hy0
    have h2 : (fderiv ℝ stateGravity (y 0)) (navRates (X 0 *ᵥ f) (stateGravity (y 0)) (y 0)) = 0 := by
      set v := navRates (X 0 *ᵥ f) (stateGravity (y 0)) (y 0) with hv
      have v0 : v 0 = 0 := by simp [hv, navRates, posRates, hrest]
      have v2 : v 2 = 0 := by simp [hv, navRates, posRates, hrest]
      have hl : HasDerivAt (fun t : ℝ => y 0 + t • v) v 0 := by simpa using ((hasDerivAt_id (0 : ℝ)).smul_const v).const_add (y 0)
      have h3 : HasDerivAt (fun t : ℝ => stateGravity (y 0 + t • v)) ((fderiv ℝ stateGravity (y 0)) v) 0 :=
        HasFDerivAt.comp_hasDerivAt (0 : ℝ) (l := stateGravity) (f := fun t : ℝ => y 0 + t • v) (by simpa using hg) hl
      have h4 : (fun t : ℝ => stateGravity (y 0 + t • v)) = fun _ => stateGravity (y 0) := by
        ext1 t; simp [stateGravity, v0, v2]
      rw [h4] at h3
      exact h3.unique (hasDerivAt_const _ _)
    rw [h2] at h1
    exact h1
  have hlim := (C104_first_order X ω f hX y hr hy 0 hγ yk hyk).norm
  set w := (1 / 2 : ℝ) • ![0, 0, 0, (X 0 *ᵥ (ω ⨯₃ f) - 0) 0, (X 0 *ᵥ (ω ⨯₃ f) - 0) 1, (X 0 *ᵥ (ω ⨯₃ f) - 0) 2] with hw
  have hw0 : w ≠ 0 := by
    intro h0
    refine hf ?_
    have hz : X 0 *ᵥ (ω ⨯₃ f) = 0 := by
      have e3 := congrFun h0 3
      have e4 := congrFun h0 4
      have e5 := congrFun h0 5
      simp [hw] at e3 e4 e5
      ext i
      fin_cases i
      exacts [e3, e4, e5]
    by_contra hne
    exact hdet (Matrix.exists_mulVec_eq_zero_iff.1 ⟨_, hne, hz⟩)
  clear_value w
  have hpos : 0 < ‖w‖ := norm_pos_iff.2 hw0
  refine ⟨‖w‖ / 2, by positivity, ?_⟩
  filter_upwards [hlim.eventually_const_lt (show ‖w‖ / 2 < ‖w‖ by linarith), self_mem_nhdsWithin] with dt h hdt
  have hdt : dt ≠ 0 := hdt
  have h2 : 0 < dt ^ 2 := by positivity
  rw [norm_smul, norm_inv, Real.norm_of_nonneg h2.le] at h
  have := mul_lt_mul_of_pos_right h h2
  rw [inv_mul_eq_div, div_mul_cancel₀ _ h2.ne'] at this
  exact this.le

/-- such motions exist: a body turning about its third axis and pushed along its first, from rest at any regular position -/
example (X : ℝ → M3 ℝ) (hX : ∀ τ u, HasDerivAt (fun s => X s *ᵥ u) (X τ *ᵥ (![0, 0, 1] ⨯₃ u)) τ) (lat lon h : ℝ) (hr : RegularPos lat h) :
    (![0, 0, 1] ⨯₃ ![1, 0, 0] : V3 ℝ) ≠ 0 ∧ ∃ y : ℝ → Fin 6 → ℝ, y 0 = ![lat, lon, h, 0, 0, 0]
      ∧ ∀ᶠ t in 𝓝 0, HasDerivAt y (navRates (X t *ᵥ ![1, 0, 0]) (stateGravity (y t)) (y t)) t := by
  refine ⟨fun h0 => by simpa [cross_apply] using congrFun h0 1, ?_⟩
  obtain ⟨ε, hε, y, h0, h⟩ := exists_motion X ![0, 0, 1] ![1, 0, 0] (fun h0 => by simpa using congrFun h0 2) hX ![lat, lon, h, 0, 0, 0] hr
  have hm : (0 : ℝ) ∈ Set.Ioo (-ε) ε := ⟨by linarith, hε⟩
  exact ⟨y, h0, (isOpen_Ioo.mem_nhds hm : Set.Ioo (-ε) ε ∈ 𝓝 0) |> Filter.mem_of_superset <| fun t ht => (h t ht).2⟩

/-- C105. The complete navigation step converges: let `y` be a motion with constant body rate `ω` and constant body specific force `f` at regular positions on
an open interval around `[0, T]`. Repeat from `y 0` the step of C104 (attitude at the end of each step, gravity at the current position). There are a constant and a largest step below which all
six components, at every step up to the time `T`, are within the constant times the step of the true ones. -/
theorem C105_converges (a b T : ℝ) (ha : a < 0) (hT : 0 ≤ T) (hb : T < b) (X : ℝ → M3 ℝ) (ω f : V3 ℝ) (hω : ω ≠ 0)
    (hX : ∀ τ u, HasDerivAt (fun s => X s *ᵥ u) (X τ *ᵥ (ω ⨯₃ u)) τ) (y : ℝ → Fin 6 → ℝ)
    (hr : ∀ t ∈ Set.Ioo a b, RegularPos (y t 0) (y t 2)) (hy : ∀ t ∈ Set.Ioo a b, HasDerivAt y (navRates (X t *ᵥ f) (stateGravity (y t)) (y t)) t) :
    ∃ C, ∃ dt0 > 0, ∀ dt, 0 < dt → dt ≤ dt0 → ∀ Y : ℕ → Fin 6 → ℝ, Y 0 = y 0 →
      (∀ k : ℕ, ∃ old, strapdownRk4 ⟨6, Y k⟩ dt (X (k * dt + dt) *ᵥ (dt • f)) (Gravity.gravityNed (Y k 0) (Y k 2)).2 ⟨6, old⟩ = .ok (true, ⟨6, Y (k + 1)⟩)) →
      ∀ (k : ℕ), k * dt ≤ T → ∀ i, |Y k i - y (k * dt) i| ≤ C * dt := by
  have hsub : ∀ t ∈ Set.Icc 0 T, t ∈ Set.Ioo a b := fun t ht => ⟨ha.trans_le ht.1, ht.2.trans_lt hb⟩
  have hys : ContDiffOn ℝ 2 y (Set.Ioo a b) := Rk.solution_smooth (v := fun t z => navRates (X t *ᵥ f) (stateGravity z) z) hy 2 fun t ht =>
    contDiffAt_motion X ω f hω hX t (y t) (hr t ht) _
  have hyt : ∀ t ∈ Set.Ioo a b, ContDiffAt ℝ 2 y t := fun t ht => hys.contDiffAt (isOpen_Ioo.mem_nhds ht)
  have hinc : ∀ t ∈ Set.Ioo a b, ContDiffAt ℝ 2 (fun q : ℝ × ℝ × (Fin 6 → ℝ) => Rk.incr (navRates (X (q.1 + q.2.1) *ᵥ f) (stateGravity q.2.2)) q.2.1 q.2.2)
      (t, 0, y t) := fun t ht => by
    have h1 : ContDiffAt ℝ 2 (fun q : (ℝ × (Fin 6 → ℝ)) × (Fin 6 → ℝ) => navRates (X q.1.1 *ᵥ f) (stateGravity q.1.2) q.2) ((t, y t), y t) :=
      Rk.contDiffAt_nav (x := ((t, y t), y t)) (ContDiffAt.comp ((t, y t), y t) (g := fun t => X t *ᵥ f) (contDiff_attitude X ω f hω hX 2).contDiffAt contDiffAt_fst.fst)
        (ContDiffAt.comp ((t, y t), y t) (g := stateGravity) (contDiff_stateGravity 2).contDiffAt contDiffAt_fst.snd) contDiffAt_snd (hr t ht)
    have h2 := Rk.incr_contDiff (N := fun p : ℝ × (Fin 6 → ℝ) => navRates (X p.1 *ᵥ f) (stateGravity p.2)) h1
    refine ContDiffAt.comp (t, (0 : ℝ), y t) (f := fun q : ℝ × ℝ × (Fin 6 → ℝ) => (((q.1 + q.2.1, q.2.2), q.2.1, q.2.2) : (ℝ × (Fin 6 → ℝ)) × ℝ × (Fin 6 → ℝ))) (g := fun q : (ℝ × (Fin 6 → ℝ)) × ℝ × (Fin 6 → ℝ) => Rk.incr (navRates (X q.1.1 *ᵥ f) (stateGravity q.1.2)) q.2.1 q.2.2) (by simpa using h2) ?_
    exact ((contDiffAt_fst.add contDiffAt_snd.fst).prodMk contDiffAt_snd.snd).prodMk contDiffAt_snd
  obtain ⟨C, h0, hh0, H⟩ := Rk.one_step_converges hT (p := 1) (by norm_num) (y := y)
    (ψ := fun t h z => Rk.incr (navRates (X (t + h) *ᵥ f) (stateGravity z)) h z)
    (fun t ht => (hy t (hsub t ht)).continuousAt)
    (fun t ht => by
      refine Rk.uniform_order 2 (G := fun q : ℝ × ℝ => y q.1 + q.2 • Rk.incr (navRates (X (q.1 + q.2) *ᵥ f) (stateGravity (y q.1))) q.2 (y q.1) - y (q.1 + q.2)) ?_ ?_
      · have h1 : ContDiffAt ℝ 2 (fun q : ℝ × ℝ => y q.1) (t, 0) := ContDiffAt.comp (t, (0 : ℝ)) (hyt t (hsub t ht)) contDiffAt_fst
        have h2 : ContDiffAt ℝ 2 (fun q : ℝ × ℝ => y (q.1 + q.2)) (t, 0) :=
          ContDiffAt.comp (t, (0 : ℝ)) (g := y) (f := fun q : ℝ × ℝ => q.1 + q.2) (by simpa using hyt t (hsub t ht)) (contDiffAt_fst.add contDiffAt_snd)
        have h3 := ContDiffAt.comp (t, (0 : ℝ)) (f := fun q : ℝ × ℝ => (q.1, q.2, y q.1))
            (hinc t (hsub t ht)) (contDiffAt_fst.prodMk (contDiffAt_snd.prodMk h1))
        exact (h1.add (contDiffAt_snd.smul h3)).sub h2
      · filter_upwards [isOpen_Ioo.mem_nhds (hsub t ht)] with τ hτ
        have hg : HasDerivAt (fun h => stateGravity (y (τ + h))) _ 0 :=
          (((contDiff_stateGravity 1).differentiable (by simp)).differentiableAt.hasFDerivAt).comp_hasDerivAt (0 : ℝ)
            (f := fun h => y (τ + h)) (HasDerivAt.comp_const_add τ 0 (by rw [add_zero]; exact hy τ hτ))
        have := nav_second (fun h => X (τ + h)) ω f (fun h u => (hX (τ + h) u).comp_const_add τ h) (fun h => y (τ + h)) (by simpa using hr τ hτ) (by
          have hn : ∀ᶠ h in 𝓝 (0 : ℝ), τ + h ∈ Set.Ioo a b :=
            (Continuous.tendsto' (by fun_prop : Continuous fun h : ℝ => τ + h) 0 τ (by simp)).eventually (isOpen_Ioo.mem_nhds hτ)
          filter_upwards [hn] with h hh
          exact (hy (τ + h) hh).comp_const_add τ h) _ hg
        have h2 := this.isBigO.add (Rk.bo 2 (g := fun _ => (1 / 2 : ℝ) • accel (X (τ + 0) *ᵥ (ω ⨯₃ f)
          - (fderiv ℝ stateGravity (y (τ + 0))) (navRates (X τ *ᵥ f) (stateGravity (y τ)) (y τ)))) continuousAt_const)
        refine h2.congr_left fun h => ?_
        simp only [add_zero]
        exact sub_add_cancel _ _)
    (fun t ht => Rk.lip_of_contDiff (ψ := fun t h z => Rk.incr (navRates (X (t + h) *ᵥ f) (stateGravity z)) h z) ((hinc t (hsub t ht)).of_le (by norm_num)))
  refine ⟨C, h0, hh0, fun dt hdt hle Y hY0 hY k hk i => ?_⟩
  have := H dt hdt hle Y hY0 (fun k => by
    obtain ⟨old, h⟩ := hY k
    rw [C40_classical_rk4, mulVec_smul, smul_smul, inv_mul_cancel₀ hdt.ne', one_smul] at h
    injection h with h
    injection h with _ h
    injection h with _ h
    rw [← h, Rk.rk4_incr]
    rfl) k hk
  rw [pow_one] at this
  exact (norm_le_pi_norm (Y k - y (k * dt)) i).trans this

/-- Motions on an interval around some `[0, T]` exist from every regular state. -/
example (X : ℝ → M3 ℝ) (ω f : V3 ℝ) (hω : ω ≠ 0) (hX : ∀ τ u, HasDerivAt (fun s => X s *ᵥ u) (X τ *ᵥ (ω ⨯₃ u)) τ)
    (y0 : Fin 6 → ℝ) (hr : RegularPos (y0 0) (y0 2)) : ∃ (a b T : ℝ) (y : ℝ → Fin 6 → ℝ), a < 0 ∧ 0 < T ∧ T < b ∧ y 0 = y0
      ∧ (∀ t ∈ Set.Ioo a b, RegularPos (y t 0) (y t 2)) ∧ ∀ t ∈ Set.Ioo a b, HasDerivAt y (navRates (X t *ᵥ f) (stateGravity (y t)) (y t)) t := by
  obtain ⟨ε, hε, y, h0, h⟩ := exists_motion X ω f hω hX y0 hr
  exact ⟨-ε, ε, ε / 2, y, by linarith, by linarith, by linarith, h0, fun t ht => (h t ht).1, fun t ht => (h t ht).2⟩

end NavFuse.Props
