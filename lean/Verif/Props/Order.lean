import Verif.Lemmas.NavSmooth
import Verif.Lemmas.Convergence
import Mathlib.Analysis.ODE.ExistUnique

/-! # Property C102: the integrator has order four -/

namespace NavFuse.Props
open Matrix Spec NavUtils Filter Topology Asymptotics

/-- C102. Constant specific force `s` and gravity `g`; `y` is any solution of the navigation equations through the regular state `y 0`. The
result of one `strapdownRk4` step of length `dt` differs from `y dt` by at most a constant times `|dt|^5`: the method has order four. -/
theorem C102_order_four (y : ℝ → Fin 6 → ℝ) (s g : V3 ℝ) (hr : RegularPos (y 0 0) (y 0 2)) (hy : ∀ᶠ t in 𝓝 0, HasDerivAt y (navRates s g (y t)) t)
    (yk : ℝ → Fin 6 → ℝ) (hyk : ∀ dt, strapdownRk4 ⟨6, y 0⟩ dt (dt • s) g ⟨6, yk 0⟩ = .ok (true, ⟨6, yk dt⟩)) :
    (fun dt => yk dt - y dt) =O[𝓝[≠] 0] fun dt => dt ^ 5 := by
  obtain ⟨A, B, C, T⟩ := Rk.taylor_of_analytic (Rk.analyticAt_nav s g (y 0) hr)
  have h := Rk.rk4_order T rfl hy _ _ _ (fun _ => rfl) (fun _ => rfl) (fun _ => rfl)
  refine (h.mono nhdsWithin_le_nhds).congr' ?_ EventuallyEq.rfl
  filter_upwards [self_mem_nhdsWithin] with dt hdt
  have h := hyk dt
  rw [C40_classical_rk4, smul_smul, inv_mul_cancel₀ hdt, one_smul] at h
  injection h with h
  injection h with _ h
  injection h with _ h
  rw [← h]
  rfl

/-- such solutions exist through every regular state -/
example (s g : V3 ℝ) (y0 : Fin 6 → ℝ) (hr : RegularPos (y0 0) (y0 2)) : ∃ y : ℝ → Fin 6 → ℝ, y 0 = y0 ∧ ∀ᶠ t in 𝓝 0, HasDerivAt y (navRates s g (y t)) t := by
  obtain ⟨y, h0, ε, hε, h⟩ := ((Rk.analyticAt_nav s g y0 hr).contDiffAt (n := 1)).exists_forall_mem_closedBall_exists_eq_forall_mem_Ioo_hasDerivAt₀ 0
  exact ⟨y, h0, (isOpen_Ioo.mem_nhds (by constructor <;> linarith) : Set.Ioo (0 - ε) (0 + ε) ∈ 𝓝 0) |> Filter.mem_of_superset <| h⟩

/-- C103. Constant specific force and gravity; `y` solves the navigation equations at regular positions on an open interval around `[0, T]`.
Start `strapdownRk4` at `y 0` and repeat it with a constant step. There are a constant and a largest step below which, at every one of the arbitrarily
many steps up to the time `T`, all six components are within the constant times the fourth power of the step of the true ones. -/
theorem C103_converges (a b T : ℝ) (ha : a < 0) (hT : 0 ≤ T) (hb : T < b) (y : ℝ → Fin 6 → ℝ) (s g : V3 ℝ)
    (hr : ∀ t ∈ Set.Ioo a b, RegularPos (y t 0) (y t 2)) (hy : ∀ t ∈ Set.Ioo a b, HasDerivAt y (navRates s g (y t)) t) :
    ∃ C, ∃ dt0 > 0, ∀ dt, 0 < dt → dt ≤ dt0 → ∀ Y : ℕ → Fin 6 → ℝ, Y 0 = y 0 →
      (∀ k, ∃ old, strapdownRk4 ⟨6, Y k⟩ dt (dt • s) g ⟨6, old⟩ = .ok (true, ⟨6, Y (k + 1)⟩)) →
      ∀ (k : ℕ), k * dt ≤ T → ∀ i, |Y k i - y (k * dt) i| ≤ C * dt ^ 4 := by
  have hsub : ∀ t ∈ Set.Icc 0 T, t ∈ Set.Ioo a b := fun t ht => ⟨ha.trans_le ht.1, ht.2.trans_lt hb⟩
  have hFs : ∀ t ∈ Set.Ioo a b, ContDiffAt ℝ ⊤ (fun q : ℝ × (Fin 6 → ℝ) => navRates s g q.2) (t, y t) := fun t ht =>
    Rk.contDiffAt_nav (x := (t, y t)) contDiffAt_const contDiffAt_const contDiffAt_snd (hr t ht)
  have hys : ContDiffOn ℝ 5 y (Set.Ioo a b) := Rk.solution_smooth (v := fun _ z => navRates s g z) hy 5 fun t ht => (hFs t ht).of_le le_top
  have hyt : ∀ t ∈ Set.Ioo a b, ContDiffAt ℝ 5 y t := fun t ht => hys.contDiffAt (isOpen_Ioo.mem_nhds ht)
  have hinc : ∀ t ∈ Set.Ioo a b, ContDiffAt ℝ ⊤ (fun q : ℝ × ℝ × (Fin 6 → ℝ) => Rk.incr (navRates s g) q.2.1 q.2.2) (t, 0, y t) := fun t ht =>
    Rk.incr_contDiff (N := fun _ : ℝ => navRates s g) (hFs t ht)
  obtain ⟨C, h0, hh0, H⟩ := Rk.one_step_converges hT (p := 4) (by norm_num) (y := y) (ψ := fun _ h z => Rk.incr (navRates s g) h z)
    (fun t ht => (hy t (hsub t ht)).continuousAt)
    (fun t ht => by
      refine Rk.uniform_order 5 (G := fun q : ℝ × ℝ => y q.1 + q.2 • Rk.incr (navRates s g) q.2 (y q.1) - y (q.1 + q.2)) ?_ ?_
      · have h1 : ContDiffAt ℝ 5 (fun q : ℝ × ℝ => y q.1) (t, 0) := ContDiffAt.comp (t, (0 : ℝ)) (hyt t (hsub t ht)) contDiffAt_fst
        have h2 : ContDiffAt ℝ 5 (fun q : ℝ × ℝ => y (q.1 + q.2)) (t, 0) :=
          ContDiffAt.comp (t, (0 : ℝ)) (g := y) (f := fun q : ℝ × ℝ => q.1 + q.2) (by simpa using hyt t (hsub t ht)) (contDiffAt_fst.add contDiffAt_snd)
        have h3 : ContDiffAt ℝ 5 (fun q : ℝ × ℝ => Rk.incr (navRates s g) q.2 (y q.1)) (t, 0) :=
          ContDiffAt.comp (t, (0 : ℝ)) (g := fun q : ℝ × ℝ × (Fin 6 → ℝ) => Rk.incr (navRates s g) q.2.1 q.2.2) (f := fun q : ℝ × ℝ => (q.1, q.2, y q.1))
            ((hinc t (hsub t ht)).of_le le_top) (contDiffAt_fst.prodMk (contDiffAt_snd.prodMk h1))
        exact (h1.add (contDiffAt_snd.smul h3)).sub h2
      · filter_upwards [isOpen_Ioo.mem_nhds (hsub t ht)] with τ hτ
        obtain ⟨A, B, C, Ty⟩ := Rk.taylor_of_analytic (Rk.analyticAt_nav s g (y τ) (hr τ hτ))
        have := Rk.rk4_order Ty (y := fun h => y (τ + h)) (by simp) (by
          have hn : ∀ᶠ h in 𝓝 (0 : ℝ), τ + h ∈ Set.Ioo a b :=
            (Continuous.tendsto' (by fun_prop : Continuous fun h : ℝ => τ + h) 0 τ (by simp)).eventually (isOpen_Ioo.mem_nhds hτ)
          filter_upwards [hn] with h hh
          exact (hy (τ + h) hh).comp_const_add τ h) _ _ _ (fun _ => rfl) (fun _ => rfl) (fun _ => rfl)
        refine this.congr_left fun h => ?_
        congr 2
        simp only [Rk.incr, smul_smul]
        congr 1; ring)
    (fun t ht => Rk.lip_of_contDiff (ψ := fun _ h z => Rk.incr (navRates s g) h z) ((hinc t (hsub t ht)).of_le le_top))
  refine ⟨C, h0, hh0, fun dt hdt hle Y hY0 hY k hk i => ?_⟩
  have := H dt hdt hle Y hY0 (fun k => by
    obtain ⟨old, h⟩ := hY k
    rw [C40_classical_rk4, smul_smul, inv_mul_cancel₀ hdt.ne', one_smul] at h
    injection h with h
    injection h with _ h
    injection h with _ h
    rw [← h, Rk.rk4_incr]) k hk
  exact (norm_le_pi_norm (Y k - y (k * dt)) i).trans this

/-- A vehicle climbing from the equator at 10 m/s for 100 s, with a force balancing the Coriolis acceleration, meets the hypotheses. -/
example : ∃ (y : ℝ → Fin 6 → ℝ) (g : V3 ℝ), y 0 ≠ y 100 ∧ (∀ t ∈ Set.Ioo (-1 : ℝ) 101, RegularPos (y t 0) (y t 2))
    ∧ ∀ t ∈ Set.Ioo (-1 : ℝ) 101, HasDerivAt y (navRates 0 g (y t)) t := by
  refine ⟨fun t => ![0, 0, 100 + 10 * t, 0, 0, -10], ![0, -(2 * earthRate * -10), 0], fun h => ?_, fun t ht => ?_, fun t ht => ?_⟩
  · have := congrFun h 2; simp at this
  · exact regular_of_surface (by simp) (by have := ht.1; simp; linarith)
  · rw [climb_rates]
    refine hasDerivAt_pi.2 fun i => ?_
    fin_cases i <;> simp [hasDerivAt_const]
    simpa using ((hasDerivAt_id t).const_mul (10 : ℝ)).const_add 100

end NavFuse.Props
