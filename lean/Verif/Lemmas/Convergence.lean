import Verif.Lemmas.RungeKutta
import Mathlib.Analysis.Calculus.Taylor
import Mathlib.Analysis.Calculus.ContDiff.Comp
import Mathlib.Analysis.Calculus.Deriv.Prod
import Mathlib.Analysis.SpecialFunctions.Exp

/-! # From local to global order of one-step methods -/

namespace NavFuse.Rk
open Filter Topology Asymptotics

variable {E : Type*} [NormedAddCommGroup E] [NormedSpace ℝ E]

/-- a polynomial that is small to an order above its degree vanishes -/
theorem poly_zero (n : ℕ) (c : ℕ → E) (h : (fun x : ℝ => ∑ k ∈ Finset.range n, x ^ k • c k) =O[𝓝[≠] 0] fun x : ℝ => x ^ n) : ∀ k < n, c k = 0 := by
  induction n generalizing c with
  | zero => intro k hk; omega
  | succ n ih =>
    have hc0 : c 0 = 0 := by
      have h1 : Tendsto (fun x : ℝ => ∑ k ∈ Finset.range (n + 1), x ^ k • c k) (𝓝[≠] 0) (𝓝 (∑ k ∈ Finset.range (n + 1), (0 : ℝ) ^ k • c k)) :=
        (Continuous.tendsto (by fun_prop) 0).mono_left nhdsWithin_le_nhds
      have h2 : Tendsto (fun x : ℝ => x ^ (n + 1)) (𝓝[≠] 0) (𝓝 0) := by
        have := (Continuous.tendsto (by fun_prop : Continuous fun x : ℝ => x ^ (n + 1)) 0).mono_left (nhdsWithin_le_nhds (s := {0}ᶜ))
        simpa using this
      have := tendsto_nhds_unique h1 (h.trans_tendsto h2)
      rw [Finset.sum_range_succ'] at this
      simpa using this
    have hd := ih (fun k => c (k + 1)) (by
      have h3 : (fun x : ℝ => x • ∑ k ∈ Finset.range n, x ^ k • c (k + 1)) =O[𝓝[≠] 0] fun x : ℝ => x ^ (n + 1) := by
        refine h.congr_left fun x => ?_
        rw [Finset.sum_range_succ', hc0, smul_zero, add_zero, Finset.smul_sum]
        exact Finset.sum_congr rfl fun k _ => by rw [smul_smul, pow_succ']
      have h4 := (isBigO_refl (fun x : ℝ => x⁻¹) (𝓝[≠] 0)).smul h3
      refine h4.congr' ?_ ?_
      · filter_upwards [self_mem_nhdsWithin] with x hx
        rw [smul_smul, inv_mul_cancel₀ hx, one_smul]
      · filter_upwards [self_mem_nhdsWithin] with x hx
        rw [smul_eq_mul, pow_succ', inv_mul_cancel_left₀ hx])
    intro k hk
    cases k with
    | zero => exact hc0
    | succ k => exact hd k (by omega)

/-- Taylor expansion of a smooth curve -/
theorem taylor_curve {ψ : ℝ → E} {p : ℕ} (h : ContDiffAt ℝ p ψ 0) : ∃ c : ℕ → E, (fun x : ℝ => ψ x - ∑ k ∈ Finset.range p, x ^ k • c k) =O[𝓝 0] fun x : ℝ => x ^ p := by
  obtain ⟨u, hu, hf⟩ := h.contDiffOn (m := p) le_rfl (by simp)
  obtain ⟨ε, hε, hb⟩ := Metric.mem_nhds_iff.1 hu
  have := taylor_isLittleO (n := p) (convex_ball (0 : ℝ) ε) (Metric.mem_ball_self hε) (hf.mono hb)
  rw [(Metric.isOpen_ball).nhdsWithin_eq (Metric.mem_ball_self hε)] at this
  let d := fun k => ((k.factorial : ℝ)⁻¹) • iteratedDerivWithin k ψ (Metric.ball 0 ε) 0
  refine ⟨d, ?_⟩
  have h1 : (fun x : ℝ => x ^ p • d p) =O[𝓝 0] fun x : ℝ => x ^ p := bo p (by fun_prop)
  refine ((this.isBigO.congr_right fun x => by rw [sub_zero]).add h1).congr_left fun x => ?_
  rw [taylor_within_apply, Finset.sum_range_succ]
  simp only [sub_zero, mul_comm _ (x ^ _), mul_smul, d]
  abel

/-- the velocity of a smooth curve that is small to order `p + 1` is small to order `p` -/
theorem deriv_small {φ ψ : ℝ → E} {p : ℕ} (hψ : ContDiffAt ℝ p ψ 0) (hd : ∀ᶠ t in 𝓝 (0 : ℝ), HasDerivAt φ (ψ t) t)
    (hφ : φ =O[𝓝 0] fun x : ℝ => x ^ (p + 1)) : ψ =O[𝓝 0] fun x : ℝ => x ^ p := by
  obtain ⟨c, hc⟩ := taylor_curve hψ
  have hφ0 : φ 0 = 0 := by
    have := hφ.eq_zero_imp.self_of_nhds
    exact this (by simp)
  have hi := jet_integral (e := fun x => φ x - ∑ k ∈ Finset.range p, x ^ (k + 1) • ((k + 1 : ℝ)⁻¹ • c k)) (by simp [hφ0])
    (hd.mono fun t ht => by
      refine ht.sub (HasDerivAt.fun_sum fun k _ => ?_)
      refine (hasDerivAt_powsmul k _ t).congr_deriv ?_
      rw [smul_comm, smul_smul, smul_smul]
      congr 1
      push_cast
      field_simp) hc
  have hs := hφ.sub hi
  simp only [sub_sub_cancel] at hs
  have hz := poly_zero (p + 1) (fun k => match k with | 0 => 0 | k + 1 => (k + 1 : ℝ)⁻¹ • c k)
    ((hs.mono nhdsWithin_le_nhds).congr_left fun x => by rw [Finset.sum_range_succ']; simp)
  have hz' : ∀ k < p, c k = 0 := fun k hk => by
    have := hz (k + 1) (by omega)
    simpa [Nat.cast_add_one_ne_zero k] using this
  refine hc.congr_left fun x => ?_
  rw [Finset.sum_eq_zero fun k hk => by rw [hz' k (Finset.mem_range.1 hk), smul_zero], sub_zero]

/-- pointwise smallness of a jointly smooth function is uniform -/
theorem uniform_order {t0 : ℝ} (p : ℕ) {G : ℝ × ℝ → E} (hG : ContDiffAt ℝ p G (t0, 0))
    (hp : ∀ᶠ t in 𝓝 t0, (fun h => G (t, h)) =O[𝓝 0] fun h : ℝ => h ^ p) : G =O[𝓝 (t0, 0)] fun q => q.2 ^ p := by
  induction p generalizing G with
  | zero => simpa using hG.continuousAt.norm.isBoundedUnder_le.isBigO_one ℝ
  | succ p ih =>
    let D : ℝ × ℝ → E := fun q => fderiv ℝ G q (0, 1)
    have hD : ContDiffAt ℝ p D (t0, 0) := (hG.fderiv_right (m := p) (by norm_cast)).clm_apply contDiffAt_const
    have hev : ∀ᶠ q in 𝓝 (t0, (0 : ℝ)), ContDiffAt ℝ ((p + 1 : ℕ)) G q := hG.eventually (by simp)
    have hDer : ∀ᶠ q in 𝓝 (t0, (0 : ℝ)), HasDerivAt (fun h => G (q.1, h)) (D q) q.2 := hev.mono fun q hq => by
      have h1 := (hq.differentiableAt (by simp)).hasFDerivAt
      have h2 : HasDerivAt (fun h : ℝ => (q.1, h)) ((0 : ℝ), (1 : ℝ)) q.2 := (hasDerivAt_const _ _).prodMk (hasDerivAt_id _)
      exact h1.comp_hasDerivAt q.2 h2
    have hDev : ∀ᶠ q in 𝓝 (t0, (0 : ℝ)), ContDiffAt ℝ p D q := hD.eventually (by simp)
    have hp' : ∀ᶠ t in 𝓝 t0, (fun h => D (t, h)) =O[𝓝 0] fun h : ℝ => h ^ p := by
      have e1 := (hDer.and hDev)
      rw [nhds_prod_eq] at e1
      filter_upwards [hp, e1.curry] with t ht he
      refine deriv_small (φ := fun h => G (t, h)) ?_ (he.mono fun h hh => hh.1) ht
      have := he.self_of_nhds.2
      exact this.comp (0 : ℝ) (contDiffAt_const.prodMk contDiffAt_id)
    have hDo := ih hD hp'
    have hG0 : ∀ᶠ t in 𝓝 t0, G (t, 0) = 0 := hp.mono fun t ht => ht.eq_zero_imp.self_of_nhds (by simp)
    obtain ⟨c, hc⟩ := hDo.bound
    obtain ⟨ε, hε, H⟩ := Metric.eventually_nhds_iff_ball.1 (hDer.and hc)
    obtain ⟨δ, hδ, H0⟩ := Metric.eventually_nhds_iff_ball.1 hG0
    refine IsBigO.of_bound |c| (Metric.eventually_nhds_iff_ball.2 ⟨min ε δ, lt_min hε hδ, fun q hq => ?_⟩)
    obtain ⟨t, h⟩ := q
    have hq' : dist t t0 < min ε δ ∧ |h| < min ε δ := by
      rw [Metric.mem_ball, Prod.dist_eq, max_lt_iff, Real.dist_0_eq_abs] at hq
      exact hq
    have hsub : ∀ x ∈ Set.uIcc 0 h, (t, x) ∈ Metric.ball (t0, (0 : ℝ)) ε ∧ |x| ≤ |h| := fun x hx => by
      have : |x| ≤ |h| := by
        rcases Set.mem_uIcc.1 hx with hx | hx
        · rw [abs_of_nonneg hx.1, abs_of_nonneg (hx.1.trans hx.2)]; exact hx.2
        · rw [abs_of_nonpos hx.2, abs_of_nonpos (hx.1.trans hx.2)]; linarith [hx.1]
      refine ⟨?_, this⟩
      rw [Metric.mem_ball, Prod.dist_eq, max_lt_iff, Real.dist_0_eq_abs]
      exact ⟨hq'.1.trans_le (min_le_left _ _), (this.trans_lt hq'.2).trans_le (min_le_left _ _)⟩
    have := (convex_uIcc 0 h).norm_image_sub_le_of_norm_hasDerivWithin_le (f := fun h => G (t, h)) (f' := fun h => D (t, h)) (C := |c| * |h| ^ p)
      (fun x hx => ((H (t, x) (hsub x hx).1).1).hasDerivWithinAt)
      (fun x hx => ((H (t, x) (hsub x hx).1).2).trans (by
        rw [norm_pow, Real.norm_eq_abs]
        exact mul_le_mul (le_abs_self c) (pow_le_pow_left₀ (abs_nonneg _) (hsub x hx).2 p) (by positivity) (abs_nonneg c)))
      Set.left_mem_uIcc Set.right_mem_uIcc
    rw [H0 t (hq'.1.trans_le (min_le_right _ _)), sub_zero, sub_zero] at this
    rw [norm_pow, Real.norm_eq_abs, pow_succ, ← mul_assoc]
    exact this

/-- global convergence of a one-step method `z ↦ z + h ψ(t, h, z)` towards a curve `y` on a compact interval -/
theorem one_step_converges {T : ℝ} (hT : 0 ≤ T) {p : ℕ} (hp : p ≠ 0) {y : ℝ → E} {ψ : ℝ → ℝ → E → E} (hyc : ∀ t ∈ Set.Icc 0 T, ContinuousAt y t)
    (hcons : ∀ t ∈ Set.Icc 0 T, (fun q : ℝ × ℝ => y q.1 + q.2 • ψ q.1 q.2 (y q.1) - y (q.1 + q.2)) =O[𝓝 (t, 0)] fun q => q.2 ^ (p + 1))
    (hlip : ∀ t ∈ Set.Icc 0 T, (fun q : (ℝ × ℝ) × E × E => ψ q.1.1 q.1.2 q.2.1 - ψ q.1.1 q.1.2 q.2.2) =O[𝓝 ((t, 0), y t, y t)] fun q => q.2.1 - q.2.2) :
    ∃ C, ∃ h0 > 0, ∀ h, 0 < h → h ≤ h0 → ∀ Y : ℕ → E, Y 0 = y 0 → (∀ k, Y (k + 1) = Y k + h • ψ (k * h) h (Y k)) →
      ∀ k : ℕ, k * h ≤ T → ‖Y k - y (k * h)‖ ≤ C * h ^ p := by
  have hloc : ∃ ε > 0, ∃ K ≥ 0, ∀ t ∈ Set.Icc 0 T, ∀ h, |h| < ε → ‖y t + h • ψ t h (y t) - y (t + h)‖ ≤ K * |h| ^ (p + 1)
      ∧ ∀ z, ‖z - y t‖ < ε → ‖ψ t h z - ψ t h (y t)‖ ≤ K * ‖z - y t‖ := by
    refine isCompact_Icc.induction_on (p := fun s => ∃ ε > 0, ∃ K ≥ 0, ∀ t ∈ s, ∀ h, |h| < ε → ‖y t + h • ψ t h (y t) - y (t + h)‖ ≤ K * |h| ^ (p + 1)
      ∧ ∀ z, ‖z - y t‖ < ε → ‖ψ t h z - ψ t h (y t)‖ ≤ K * ‖z - y t‖) ⟨1, one_pos, 0, le_rfl, by simp⟩ ?_ ?_ ?_
    · rintro s t hst ⟨ε, hε, K, hK, H⟩
      exact ⟨ε, hε, K, hK, fun t ht => H t (hst ht)⟩
    · rintro s t ⟨ε, hε, K, hK, H⟩ ⟨ε', hε', K', hK', H'⟩
      refine ⟨min ε ε', lt_min hε hε', max K K', hK.trans (le_max_left _ _), fun t ht h hh => ?_⟩
      rcases ht with ht | ht
      · refine ⟨((H t ht h (hh.trans_le (min_le_left _ _))).1).trans ?_, fun z hz => (((H t ht h (hh.trans_le (min_le_left _ _))).2 z (hz.trans_le (min_le_left _ _)))).trans ?_⟩
        all_goals exact mul_le_mul_of_nonneg_right (le_max_left _ _) (by positivity)
      · refine ⟨((H' t ht h (hh.trans_le (min_le_right _ _))).1).trans ?_, fun z hz => (((H' t ht h (hh.trans_le (min_le_right _ _))).2 z (hz.trans_le (min_le_right _ _)))).trans ?_⟩
        all_goals exact mul_le_mul_of_nonneg_right (le_max_right _ _) (by positivity)
    · intro t0 ht0
      obtain ⟨c, hc⟩ := (hcons t0 ht0).bound
      obtain ⟨d, hd⟩ := (hlip t0 ht0).bound
      obtain ⟨ε, hε, Hc⟩ := Metric.eventually_nhds_iff_ball.1 hc
      obtain ⟨δ, hδ, Hd⟩ := Metric.eventually_nhds_iff_ball.1 hd
      obtain ⟨η, hη, Hy⟩ := Metric.eventually_nhds_iff_ball.1 ((hyc t0 ht0).eventually (Metric.ball_mem_nhds _ (half_pos hδ)))
      let ρ := min ε (min (δ / 2) η)
      have hρ : 0 < ρ := lt_min hε (lt_min (half_pos hδ) hη)
      refine ⟨Metric.ball t0 ρ, mem_nhdsWithin_of_mem_nhds (Metric.ball_mem_nhds _ hρ), ρ, hρ, max |c| |d|, (abs_nonneg c).trans (le_max_left _ _), fun t ht h hh => ⟨?_, fun z hz => ?_⟩⟩
      · have := Hc (t, h) (by
          rw [Metric.mem_ball, Prod.dist_eq, max_lt_iff, Real.dist_0_eq_abs]
          exact ⟨(Metric.mem_ball.1 ht).trans_le (min_le_left _ _), hh.trans_le (min_le_left _ _)⟩)
        rw [norm_pow, Real.norm_eq_abs] at this
        exact this.trans (mul_le_mul_of_nonneg_right ((le_abs_self c).trans (le_max_left _ _)) (by positivity))
      · have h2 : ρ ≤ δ / 2 := (min_le_right _ _).trans (min_le_left _ _)
        have hy1 : dist (y t) (y t0) < δ / 2 := Hy t (Metric.mem_ball.2 ((Metric.mem_ball.1 ht).trans_le ((min_le_right _ _).trans (min_le_right _ _))))
        have := Hd ((t, h), z, y t) (by
          rw [Metric.mem_ball, Prod.dist_eq, Prod.dist_eq, Prod.dist_eq, max_lt_iff, max_lt_iff, max_lt_iff, Real.dist_0_eq_abs]
          refine ⟨⟨?_, ?_⟩, ?_, ?_⟩
          · have := (Metric.mem_ball.1 ht).trans_le h2
            simp only at this ⊢; linarith
          · simp only; linarith
          · have := dist_triangle z (y t) (y t0)
            rw [← dist_eq_norm] at hz
            simp only; linarith
          · simp only; linarith)
        exact this.trans (mul_le_mul_of_nonneg_right ((le_abs_self d).trans (le_max_right _ _)) (by positivity))
  obtain ⟨ε, hε, K, hK, H⟩ := hloc
  let C := K * T * Real.exp (K * T)
  have hC : 0 ≤ C := by positivity
  refine ⟨C, min (ε / 2) (min 1 (ε / (2 * (C + 1)))), by positivity, fun h hh hle Y hY0 hY => ?_⟩
  have h1 : h ≤ 1 := hle.trans ((min_le_right _ _).trans (min_le_left _ _))
  have h2 : h ≤ ε / 2 := hle.trans (min_le_left _ _)
  have h3 : C * h ^ p < ε := by
    have h4 : h ≤ ε / (2 * (C + 1)) := hle.trans ((min_le_right _ _).trans (min_le_right _ _))
    have h5 : h ^ p ≤ h := pow_le_of_le_one hh.le h1 hp
    rw [le_div_iff₀ (by positivity)] at h4
    nlinarith
  have hbound : ∀ k : ℕ, k * h ≤ T → k * K * h ^ (p + 1) * (1 + K * h) ^ k ≤ C * h ^ p := fun k hk => by
    have e1 : (1 + K * h) ^ k ≤ Real.exp (K * T) := by
      have : 1 + K * h ≤ Real.exp (K * h) := by linarith [Real.add_one_le_exp (K * h)]
      calc (1 + K * h) ^ k ≤ Real.exp (K * h) ^ k := pow_le_pow_left₀ (by positivity) this k
        _ = Real.exp (K * (k * h)) := by rw [← Real.exp_nat_mul]; congr 1; ring
        _ ≤ Real.exp (K * T) := Real.exp_le_exp.2 (mul_le_mul_of_nonneg_left hk hK)
    calc k * K * h ^ (p + 1) * (1 + K * h) ^ k = K * (k * h) * (1 + K * h) ^ k * h ^ p := by ring
      _ ≤ K * T * Real.exp (K * T) * h ^ p := by gcongr
  have key : ∀ k : ℕ, k * h ≤ T → ‖Y k - y (k * h)‖ ≤ k * K * h ^ (p + 1) * (1 + K * h) ^ k := by
    intro k
    induction k with
    | zero => intro hk; simp [hY0]
    | succ k ih =>
      intro hk
      push_cast at hk ⊢
      have hk' : k * h ≤ T := by nlinarith
      have i1 := ih hk'
      have i2 := hbound k hk'
      have hmem : (k * h : ℝ) ∈ Set.Icc 0 T := ⟨by positivity, hk'⟩
      obtain ⟨c1, c2⟩ := H _ hmem h (by rw [abs_of_pos hh]; linarith)
      have c3 := c2 (Y k) (lt_of_le_of_lt (i1.trans i2) h3)
      rw [abs_of_pos hh] at c1
      have hsplit : Y (k + 1) - y ((k + 1) * h) = (Y k - y (k * h)) + h • (ψ (k * h) h (Y k) - ψ (k * h) h (y (k * h)))
          + (y (k * h) + h • ψ (k * h) h (y (k * h)) - y (k * h + h)) := by
        rw [hY, show ((k : ℝ) + 1) * h = k * h + h by ring, smul_sub]; abel
      have hn : ‖Y (k + 1) - y ((k + 1) * h)‖ ≤ ‖Y k - y (k * h)‖ + h * (K * ‖Y k - y (k * h)‖) + K * h ^ (p + 1) := by
        rw [hsplit]
        refine (norm_add_le _ _).trans (add_le_add ((norm_add_le _ _).trans (add_le_add le_rfl ?_)) c1)
        rw [norm_smul, Real.norm_of_nonneg hh.le]
        exact mul_le_mul_of_nonneg_left c3 hh.le
      have hq : 1 ≤ (1 + K * h) ^ (k + 1) := one_le_pow₀ (by nlinarith [mul_nonneg hK hh.le])
      calc ‖Y (k + 1) - y ((k + 1) * h)‖ ≤ (1 + K * h) * ‖Y k - y (k * h)‖ + K * h ^ (p + 1) := by linarith
        _ ≤ (1 + K * h) * (k * K * h ^ (p + 1) * (1 + K * h) ^ k) + K * h ^ (p + 1) * (1 + K * h) ^ (k + 1) := by
          refine add_le_add (mul_le_mul_of_nonneg_left i1 (by positivity)) ?_
          exact le_mul_of_one_le_right (by positivity) hq
        _ = (k + 1) * K * h ^ (p + 1) * (1 + K * h) ^ (k + 1) := by ring
  exact fun k hk => (key k hk).trans (hbound k hk)

/-- the increment of the classical Runge-Kutta method -/
noncomputable def incr (F : E → E) (h : ℝ) (z : E) : E :=
  let k1 := F z
  let k2 := F (z + (h / 2) • k1)
  let k3 := F (z + (h / 2) • k2)
  let k4 := F (z + h • k3)
  (1 / 6 : ℝ) • (k1 + (2 : ℝ) • k2 + (2 : ℝ) • k3 + k4)

theorem rk4_incr {n : ℕ} (F : (Fin n → ℝ) → Fin n → ℝ) (h : ℝ) (z : Fin n → ℝ) : Spec.rk4 F h z = z + h • incr F h z := by
  simp only [Spec.rk4, incr, smul_smul]
  congr 2; ring

theorem incr_contDiff {P : Type*} [NormedAddCommGroup P] [NormedSpace ℝ P] {n : WithTop ℕ∞} {N : P → E → E} {p0 : P} {z0 : E}
    (hN : ContDiffAt ℝ n (fun q : P × E => N q.1 q.2) (p0, z0)) : ContDiffAt ℝ n (fun q : P × ℝ × E => incr (N q.1) q.2.1 q.2.2) (p0, 0, z0) := by
  have hp : ContDiffAt ℝ n (fun q : P × ℝ × E => q.1) (p0, 0, z0) := contDiffAt_fst
  have hh : ContDiffAt ℝ n (fun q : P × ℝ × E => q.2.1) (p0, 0, z0) := contDiffAt_snd.fst
  have hz : ContDiffAt ℝ n (fun q : P × ℝ × E => q.2.2) (p0, 0, z0) := contDiffAt_snd.snd
  have step : ∀ {k : P × ℝ × E → E} {c : P × ℝ × E → ℝ}, ContDiffAt ℝ n k (p0, 0, z0) → ContDiffAt ℝ n c (p0, 0, z0) → c (p0, 0, z0) = 0 →
      ContDiffAt ℝ n (fun q => N q.1 (q.2.2 + c q • k q)) (p0, 0, z0) := by
    intro k c hk hc h0
    have h1 : ContDiffAt ℝ n (fun q : P × ℝ × E => (q.1, q.2.2 + c q • k q)) (p0, 0, z0) := hp.prodMk (hz.add (hc.smul hk))
    have h2 : (fun q : P × ℝ × E => (q.1, q.2.2 + c q • k q)) (p0, 0, z0) = (p0, z0) := by simp [h0]
    rw [← h2] at hN
    exact ContDiffAt.comp (p0, (0 : ℝ), z0) (g := fun q : P × E => N q.1 q.2) hN h1
  have k1 : ContDiffAt ℝ n (fun q : P × ℝ × E => N q.1 q.2.2) (p0, 0, z0) := ContDiffAt.comp (p0, (0 : ℝ), z0) (g := fun q : P × E => N q.1 q.2) hN (hp.prodMk hz)
  have k2 := step k1 (hh.div_const 2) (by simp)
  have k3 := step k2 (hh.div_const 2) (by simp)
  have k4 := step k3 hh (by simp)
  exact contDiffAt_const.smul (((k1.add (contDiffAt_const.smul k2)).add (contDiffAt_const.smul k3)).add k4)

/-- solutions of smooth equations are smooth -/
theorem solution_smooth {v : ℝ → E → E} {y : ℝ → E} {a b : ℝ} (hd : ∀ t ∈ Set.Ioo a b, HasDerivAt y (v t (y t)) t) (n : ℕ)
    (hv : ∀ t ∈ Set.Ioo a b, ContDiffAt ℝ n (fun q : ℝ × E => v q.1 q.2) (t, y t)) : ContDiffOn ℝ n y (Set.Ioo a b) := by
  induction n with
  | zero => exact contDiffOn_zero.2 fun t ht => (hd t ht).continuousAt.continuousWithinAt
  | succ n ih =>
    have hy := ih fun t ht => (hv t ht).of_le (by norm_cast; omega)
    push_cast
    rw [contDiffOn_succ_iff_deriv_of_isOpen isOpen_Ioo]
    refine ⟨fun t ht => (hd t ht).differentiableAt.differentiableWithinAt, by simp, ?_⟩
    refine ContDiffOn.congr (f := fun t => v t (y t)) (fun t ht => ?_) fun t ht => (hd t ht).deriv
    have h1 := (hv t ht).of_le (by norm_cast; omega : ((n : ℕ) : WithTop ℕ∞) ≤ ((n + 1 : ℕ)))
    have h2 : ContDiffAt ℝ n y t := hy.contDiffAt (isOpen_Ioo.mem_nhds ht)
    exact (ContDiffAt.comp t (g := fun q : ℝ × E => v q.1 q.2) h1 (contDiffAt_id.prodMk h2)).contDiffWithinAt

/-- a method with smooth increment is stable -/
theorem lip_of_contDiff {ψ : ℝ → ℝ → E → E} {t : ℝ} {z : E} (h : ContDiffAt ℝ 1 (fun q : ℝ × ℝ × E => ψ q.1 q.2.1 q.2.2) (t, 0, z)) :
    (fun q : (ℝ × ℝ) × E × E => ψ q.1.1 q.1.2 q.2.1 - ψ q.1.1 q.1.2 q.2.2) =O[𝓝 ((t, 0), z, z)] fun q => q.2.1 - q.2.2 := by
  have h1 := (h.hasStrictFDerivAt (by simp)).isBigO_sub
  have h2 : Tendsto (fun q : (ℝ × ℝ) × E × E => ((q.1.1, q.1.2, q.2.1), (q.1.1, q.1.2, q.2.2))) (𝓝 ((t, 0), z, z)) (𝓝 ((t, 0, z), (t, 0, z))) :=
    Continuous.tendsto (by fun_prop) ((t, 0), z, z)
  refine (h1.comp_tendsto h2).trans (IsBigO.of_bound 1 (Eventually.of_forall fun q => ?_))
  simp [Prod.norm_def]

/-! ## Second-order expansions -/

theorem integral_small {e e' : ℝ → E} {n : ℕ} (h0 : e 0 = 0) (hd : ∀ᶠ t in 𝓝 (0 : ℝ), HasDerivAt e (e' t) t) (ho : e' =o[𝓝 0] (fun h : ℝ => h ^ n)) :
    e =o[𝓝 0] (fun h : ℝ => h ^ (n + 1)) := by
  refine isLittleO_iff.2 fun c hc0 => ?_
  obtain ⟨ε, hε, H⟩ := Metric.eventually_nhds_iff_ball.1 (hd.and (isLittleO_iff.1 ho hc0))
  refine Metric.eventually_nhds_iff_ball.2 ⟨ε, hε, fun h hh => ?_⟩
  have hsub : ∀ x ∈ Set.uIcc 0 h, x ∈ Metric.ball (0 : ℝ) ε ∧ |x| ≤ |h| := fun x hx => by
    have : |x| ≤ |h| := by
      rcases Set.mem_uIcc.1 hx with hx | hx
      · rw [abs_of_nonneg hx.1, abs_of_nonneg (hx.1.trans hx.2)]; exact hx.2
      · rw [abs_of_nonpos hx.2, abs_of_nonpos (hx.1.trans hx.2)]; linarith [hx.1]
    refine ⟨?_, this⟩
    rw [Metric.mem_ball, Real.dist_0_eq_abs] at hh ⊢
    exact this.trans_lt hh
  have := (convex_uIcc 0 h).norm_image_sub_le_of_norm_hasDerivWithin_le (f := e) (f' := e') (C := c * |h| ^ n)
    (fun x hx => ((H x (hsub x hx).1).1).hasDerivWithinAt)
    (fun x hx => ((H x (hsub x hx).1).2).trans (by
      rw [norm_pow, Real.norm_eq_abs]
      exact mul_le_mul_of_nonneg_left (pow_le_pow_left₀ (abs_nonneg _) (hsub x hx).2 n) hc0.le)) Set.left_mem_uIcc Set.right_mem_uIcc
  rw [h0, sub_zero, sub_zero] at this
  rw [norm_pow, Real.norm_eq_abs, pow_succ, ← mul_assoc]
  exact this

/-- a curve whose velocity is differentiable at 0 -/
theorem curve_second {y w : ℝ → E} {w1 : E} (hd : ∀ᶠ t in 𝓝 (0 : ℝ), HasDerivAt y (w t) t) (hw : HasDerivAt w w1 0) :
    (fun h : ℝ => y h - (y 0 + h • w 0 + h ^ 2 • ((1 / 2 : ℝ) • w1))) =o[𝓝 0] fun h : ℝ => h ^ 2 := by
  refine integral_small (n := 1) (e' := fun h => w h - (w 0 + h • w1)) (by simp) (hd.mono fun t ht => ?_) ?_
  · have h1 := ((hasDerivAt_powsmul 0 (w 0) t).const_add (y 0)).add (hasDerivAt_powsmul 1 ((1 / 2 : ℝ) • w1) t)
    refine ((ht.sub h1).congr_deriv ?_).congr_of_eventuallyEq (Eventually.of_forall fun x => ?_)
    · push_cast; module
    · simp
  · have := (hasDerivAt_iff_isLittleO_nhds_zero.1 hw)
    simpa [sub_sub] using this

/-- derivative of the increment with respect to the step, when the equation itself changes with the step -/
theorem incr_deriv {F : E → E} {A : E →L[ℝ] E} {y0 d : E} {δ : ℝ → E} (hF : HasFDerivAt F A y0) (hδ : HasDerivAt δ d 0) (hδ0 : δ 0 = 0) :
    HasDerivAt (fun h => incr (fun z => F z + δ h) h y0) ((1 / 2 : ℝ) • A (F y0) + d) 0 := by
  have step : ∀ {k : ℝ → E} {k1 : E} (c : ℝ), HasDerivAt k k1 0 → k 0 = F y0 →
      HasDerivAt (fun h => F (y0 + (c * h) • k h) + δ h) (c • A (F y0) + d) 0 ∧ F (y0 + (c * 0) • k 0) + δ 0 = F y0 := by
    intro k k1 c hk hk0
    refine ⟨?_, by simp [hδ0]⟩
    have h1 : HasDerivAt (fun h : ℝ => y0 + (c * h) • k h) (c • F y0) 0 := by
      have hc : HasDerivAt (fun h : ℝ => c * h) c 0 := by simpa using (hasDerivAt_id (0 : ℝ)).const_mul c
      have := (hc.smul hk).const_add y0
      refine this.congr_deriv ?_
      simp [hk0]
    have h2 : HasFDerivAt F A (y0 + (c * 0) • k 0) := by simpa using hF
    have h3 := (h2.comp_hasDerivAt (0 : ℝ) h1).add hδ
    rw [map_smul] at h3
    exact h3
  have s1 : HasDerivAt (fun h => F y0 + δ h) d 0 := by simpa using hδ.const_add (F y0)
  have s2 := step (1 / 2) s1 (by simp [hδ0])
  have s3 := step (1 / 2) s2.1 s2.2
  have s4 := step 1 s3.1 s3.2
  have := (((s1.add (s2.1.const_smul (2 : ℝ))).add (s3.1.const_smul (2 : ℝ))).add s4.1).const_smul (1 / 6 : ℝ)
  refine (this.congr_deriv ?_).congr_of_eventuallyEq (Eventually.of_forall fun h => ?_)
  · module
  · simp only [incr, Pi.smul_apply, Pi.add_apply, one_mul, show 1 / 2 * h = h / 2 by ring]

end NavFuse.Rk
