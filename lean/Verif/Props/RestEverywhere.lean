import Verif.Props.NavigatorRun

/-! # Property C167 at every latitude -/

namespace NavFuse.Props
open Matrix Spec NavUtils Strapdown Filter Topology

/-- the acceleration towards the east at the start, seen by a navigator at rest: its rate of change is that of the specific force it computes -/
theorem rest_rate (lat lon h : ℝ) (hp : RegularPos lat h) (X : ℝ → M3 ℝ) (ω f : V3 ℝ) (hω : ω ≠ 0) (hX : ∀ τ u, HasDerivAt (fun s => X s *ᵥ u) (X τ *ᵥ (ω ⨯₃ u)) τ)
    (hf : X 0 *ᵥ f = -stateGravity ![lat, lon, h, 0, 0, 0]) (y : ℝ → Fin 6 → ℝ) (y0 : y 0 = ![lat, lon, h, 0, 0, 0])
    (hy : HasDerivAt y (navRates (X 0 *ᵥ f) (stateGravity (y 0)) (y 0)) 0) :
    HasDerivAt (fun t => navRates (X t *ᵥ f) (stateGravity (y t)) (y t) 4) ((X 0 *ᵥ (ω ⨯₃ f)) 1) 0 := by
  have hd := (contDiffAt_motion X ω f hω hX 0 (y 0) (by rw [y0]; exact hp) 1).differentiableAt (by simp)
  have hF := hd.hasFDerivAt
  set L := fderiv ℝ (fun q : ℝ × (Fin 6 → ℝ) => navRates (X q.1 *ᵥ f) (stateGravity q.2) q.2) (0, y 0) with hL
  have hy' : HasDerivAt y 0 0 := by
    refine hy.congr_deriv ?_
    rw [y0, hf]
    exact stationary_rates ![lat, lon, h] (stateGravity ![lat, lon, h, 0, 0, 0])
  have h1 : HasDerivAt (fun t => navRates (X t *ᵥ f) (stateGravity (y t)) (y t)) (L (1, 0)) 0 :=
    HasFDerivAt.comp_hasDerivAt (l := fun q : ℝ × (Fin 6 → ℝ) => navRates (X q.1 *ᵥ f) (stateGravity q.2) q.2) (l' := L) (0 : ℝ) hF ((hasDerivAt_id (0 : ℝ)).prodMk hy')
  have h2 : HasDerivAt (fun t => navRates (X t *ᵥ f) (stateGravity (y 0)) (y 0)) (L (1, 0)) 0 :=
    HasFDerivAt.comp_hasDerivAt (l := fun q : ℝ × (Fin 6 → ℝ) => navRates (X q.1 *ᵥ f) (stateGravity q.2) q.2) (l' := L) (0 : ℝ) hF ((hasDerivAt_id (0 : ℝ)).prodMk (hasDerivAt_const (0 : ℝ) (y 0)))
  have e : (fun t => navRates (X t *ᵥ f) (stateGravity (y 0)) (y 0) 4) = fun t => (X t *ᵥ f) 1 + stateGravity (y 0) 1 := by
    ext t
    rw [(navRates_apply _ _ _).2.2.2.1, y0]
    simp
  have h3 := hasDerivAt_pi.1 h2 4
  rw [e] at h3
  have h4 := (hasDerivAt_pi.1 (hX 0 f) 1).add_const (stateGravity (y 0) 1)
  exact (hasDerivAt_pi.1 h1 4).congr_deriv (h3.unique h4)

/-- if a rate starts from zero with slope more than `2 c`, its integral exceeds `c t²` for a while -/
theorem quadratic_growth {x u : ℝ → ℝ} {a c ε : ℝ} (hε : 0 < ε) (hx : ∀ t ∈ Set.Ioo (-ε) ε, HasDerivAt x (u t) t) (hu : HasDerivAt u a 0) (x0 : x 0 = 0) (u0 : u 0 = 0)
    (hc : 2 * c < a) : ∃ T > 0, ∀ t ∈ Set.Icc 0 T, c * t ^ 2 ≤ x t := by
  have hl := hasDerivAt_iff_isLittleO.1 hu
  have hb := hl.def (show 0 < a - 2 * c by linarith)
  simp only [u0, sub_zero, smul_eq_mul] at hb
  obtain ⟨δ, hδ, hB⟩ := Metric.eventually_nhds_iff.1 hb
  refine ⟨min (δ / 2) (ε / 2), by positivity, ?_⟩
  set T := min (δ / 2) (ε / 2) with hT
  have hTδ : T ≤ δ / 2 := min_le_left _ _
  have hTε : T ≤ ε / 2 := min_le_right _ _
  have hin : ∀ t ∈ Set.Icc 0 T, t ∈ Set.Ioo (-ε) ε := fun t ht => ⟨by linarith [ht.1], by linarith [ht.2]⟩
  have hd : ∀ t ∈ Set.Icc 0 T, HasDerivAt (fun t => x t - c * t ^ 2) (u t - c * (2 * t)) t := fun t ht => by
    refine ((hx t (hin t ht)).sub (((hasDerivAt_id t).pow 2).const_mul c)).congr_deriv ?_
    simp
  have hm : MonotoneOn (fun t => x t - c * t ^ 2) (Set.Icc 0 T) := by
    refine monotoneOn_of_deriv_nonneg (convex_Icc 0 T) (fun t ht => (hd t ht).continuousAt.continuousWithinAt)
      (fun t ht => (hd t (interior_subset ht)).differentiableAt.differentiableWithinAt) fun t ht => ?_
    have ht' := interior_subset ht
    rw [(hd t ht').deriv]
    have h0 := ht'.1
    have := hB (y := t) (by rw [Real.dist_eq, sub_zero, abs_of_nonneg h0]; linarith [ht'.2])
    rw [Real.norm_eq_abs, Real.norm_eq_abs, abs_of_nonneg h0] at this
    have := (abs_le.1 this).1
    nlinarith
  intro t ht
  have := hm ⟨le_rfl, by positivity⟩ ht ht.1
  simp only [x0] at this
  linarith

/-- the size of the effect: the specific force as the navigator computes it turns eastwards at more than `6.8e-4 cos lat` m/s³ -/
theorem tilt_rate (lat lon h : ℝ) (hlat : |lat| < Real.pi / 2) (hh : 0 ≤ h) (htop : h ≤ 20000) :
    6.8e-4 * Real.cos lat < (earthVec lat ⨯₃ (-stateGravity ![lat, lon, h, 0, 0, 0])) 1 := by
  have hcos : 0 < Real.cos lat := Real.cos_pos_of_mem_Ioo (by rw [abs_lt] at hlat; exact hlat)
  have hx1 := Real.sin_sq_le_one lat
  have hx0 := sq_nonneg (Real.sin lat)
  have hd : 9.71 ≤ ellG lat * altFactor lat h := by
    have h1 := (ellG_bounds lat).1
    have hm := mR_small
    have h2 : 0.993 ≤ altFactor lat h := by
      have e : altFactor lat h = 1 - 2 * (1 + 1 / 298.257222101 + mR - 2 * (1 / 298.257222101) * Real.sin lat ^ 2) * (h / 6378137) + 3 * (h / 6378137) ^ 2 := by
        rw [altFactor]; ring
      have ht0 : 0 ≤ h / 6378137 := by positivity
      have ht1 : h / 6378137 ≤ 0.00314 := by rw [div_le_iff₀ (by norm_num)]; linarith
      rw [e]
      have : 1 + 1 / 298.257222101 + mR - 2 * (1 / 298.257222101) * Real.sin lat ^ 2 ≤ 1.0069 := by norm_num; linarith [hm.2]
      nlinarith [sq_nonneg (h / 6378137)]
    nlinarith
  have e : (earthVec lat ⨯₃ (-stateGravity ![lat, lon, h, 0, 0, 0])) 1
      = earthRate * Real.cos lat * (ellG lat * altFactor lat h) - earthRate * (1.616e-8 * h) * (Real.sin lat ^ 2 * Real.cos lat) := by
    rw [stateGravity, gravity_R]
    simp only [earthVec, cross_apply, Pi.neg_apply, Pi.smul_apply, smul_eq_mul, cons_val, cons_val_zero, cons_val_one]
    rw [Real.sin_two_mul]
    ring
  rw [e]
  have h3 : Real.sin lat ^ 2 * Real.cos lat ≤ Real.cos lat := by nlinarith
  have h4 : earthRate * (1.616e-8 * h) ≤ 1e-6 := by rw [earthRate]; norm_num; linarith
  have h5 : 0 ≤ earthRate * (1.616e-8 * h) := by rw [earthRate]; positivity
  have h6 : earthRate * (1.616e-8 * h) * (Real.sin lat ^ 2 * Real.cos lat) ≤ 1e-6 * Real.cos lat := mul_le_mul h4 h3 (by positivity) (by norm_num)
  have h7 : earthRate * Real.cos lat * 9.71 ≤ earthRate * Real.cos lat * (ellG lat * altFactor lat h) :=
    mul_le_mul_of_nonneg_left hd (by rw [earthRate]; positivity)
  have h8 : earthRate * Real.cos lat * 9.71 = 7.080643665e-4 * Real.cos lat := by rw [earthRate]; ring
  rw [h8] at h7
  norm_num at h6 h7 ⊢
  linarith

/-- C167 fails at every latitude: a vehicle at rest anywhere off the poles, at any altitude up to 20 km and in any attitude `R₀`, initialised and measured without error
(rotation of the Earth and reaction to gravity, in body axes). From the very start the navigator drives off to the east: there is a time span on which, for all
sufficiently short intervals, the velocity that it reports after the time `T` exceeds `3.3e-4 cos(lat) T²` m/s. -/
theorem C167_everywhere_fails (lat lon h₀ : ℝ) (hlat : |lat| < Real.pi / 2) (hh : 0 ≤ h₀) (htop : h₀ ≤ 20000) (R₀ : M3 ℝ) (hR : IsRot R₀) :
    ∃ T₀ > 0, ∀ T, 0 < T → T ≤ T₀ → ∃ dt0 > 0, ∀ dt, 0 < dt → dt ≤ dt0 → ∀ (s : ℕ → St ℝ) (t : Int), Ready (s 0) ![lat, lon, h₀] 0 R₀ t →
      Runs dt (dt • (R₀ᵀ *ᵥ (-(Gravity.gravityNed lat h₀).2))) (dt • (R₀ᵀ *ᵥ earthVec lat)) s →
      ∃ k : ℕ, k * dt ≤ T ∧ ∃ l v R, Ready (s k) l v R t ∧ 3.3e-4 * Real.cos lat * T ^ 2 ≤ v 1 := by
  have hcos : 0 < Real.cos lat := Real.cos_pos_of_mem_Ioo (by rw [abs_lt] at hlat; exact hlat)
  have hT : IsRot R₀ᵀ := hR.transpose
  have hω : R₀ᵀ *ᵥ earthVec lat ≠ 0 := fun h => by
    have h1 : R₀ *ᵥ (R₀ᵀ *ᵥ earthVec lat) = 0 := by rw [h, mulVec_zero]
    rw [mulVec_mulVec, hR.1, one_mulVec] at h1
    have := congrFun h1 0
    simp [earthVec, earthRate_pos.ne', hcos.ne'] at this
  obtain ⟨X, hX0, hX⟩ := exists_attitude R₀ _ hω
  have hp : RegularPos lat h₀ := regular_of_surface hcos.ne' hh
  set f := R₀ᵀ *ᵥ (-(Gravity.gravityNed lat h₀).2) with hfdef
  have hg : (Gravity.gravityNed lat h₀).2 = stateGravity ![lat, lon, h₀, 0, 0, 0] := rfl
  have hf : X 0 *ᵥ f = -stateGravity ![lat, lon, h₀, 0, 0, 0] := by rw [hX0, hfdef, mulVec_mulVec, hR.1, one_mulVec, hg]
  obtain ⟨ε, hε, y, y0, hy⟩ := exists_motion X _ f hω hX ![lat, lon, h₀, 0, 0, 0] hp
  have hrate := rest_rate lat lon h₀ hp X _ f hω hX hf y y0 (hy 0 ⟨by linarith, hε⟩).2
  have hslope : (X 0 *ᵥ ((R₀ᵀ *ᵥ earthVec lat) ⨯₃ f)) 1 = (earthVec lat ⨯₃ (-stateGravity ![lat, lon, h₀, 0, 0, 0])) 1 := by
    rw [hfdef, hT.cross, hX0, mulVec_mulVec, hR.1, one_mulVec, hg]
  have htilt := tilt_rate lat lon h₀ hlat hh htop
  obtain ⟨T₀, hT₀, hgrow⟩ := quadratic_growth (x := fun t => y t 4) (c := 3.4e-4 * Real.cos lat) hε (fun t ht => hasDerivAt_pi.1 (hy t ht).2 4) hrate
    (by simp [y0]) (by
      show navRates (X 0 *ᵥ f) (stateGravity (y 0)) (y 0) 4 = 0
      rw [y0, hf]
      exact congrFun (stationary_rates ![lat, lon, h₀] (stateGravity ![lat, lon, h₀, 0, 0, 0])) 4)
    (by rw [hslope]; linarith)
  refine ⟨min T₀ (ε / 2), by positivity, fun T hTpos hTle => ?_⟩
  have hT1 := hTle.trans (min_le_left _ _)
  have hT2 := hTle.trans (min_le_right _ _)
  obtain ⟨C, dt1, hdt1, H⟩ := C105_run (-ε) ε T (by linarith) hTpos.le (by linarith) X _ f hω hX y (fun t ht => (hy t ht).1) (fun t ht => (hy t ht).2)
  have hη : 0 < 1e-6 * Real.cos lat * T ^ 2 := by positivity
  refine ⟨min dt1 (min (T / 1000) (1e-6 * Real.cos lat * T ^ 2 / (|C| + 1))), by positivity, fun dt hdt hle s t hs0 hs => ?_⟩
  have l1 := hle.trans (min_le_left _ _)
  have l2 := hle.trans ((min_le_right _ _).trans (min_le_left _ _))
  have l3 := hle.trans ((min_le_right _ _).trans (min_le_right _ _))
  have hC : C * dt ≤ 1e-6 * Real.cos lat * T ^ 2 := by
    rw [le_div_iff₀ (by positivity)] at l3
    have := mul_le_mul_of_nonneg_right (le_abs_self C) hdt.le
    linarith
  have hk1 : (⌊T / dt⌋₊ : ℝ) * dt ≤ T := by
    have := Nat.floor_le (show 0 ≤ T / dt by positivity)
    rwa [le_div_iff₀ hdt] at this
  have hk2 : 0.999 * T ≤ (⌊T / dt⌋₊ : ℝ) * dt := by
    have := Nat.lt_floor_add_one (T / dt)
    rw [div_lt_iff₀ hdt] at this
    linarith
  have hs0' : Ready (s 0) ![y 0 0, y 0 1, y 0 2] ![y 0 3, y 0 4, y 0 5] (X 0) t := by
    have e1 : (![y 0 0, y 0 1, y 0 2] : V3 ℝ) = ![lat, lon, h₀] := by rw [y0]; rfl
    have e2 : (![y 0 3, y 0 4, y 0 5] : V3 ℝ) = 0 := by rw [y0]; ext i; fin_cases i <;> rfl
    rw [e1, e2, hX0]; exact hs0
  obtain ⟨l, v, hRd, hcl⟩ := H dt hdt l1 s t hs0' hs ⌊T / dt⌋₊ hk1
  refine ⟨⌊T / dt⌋₊, hk1, l, v, _, hRd, ?_⟩
  have h4 : |v 1 - y (⌊T / dt⌋₊ * dt) 4| ≤ C * dt := hcl 4
  have hgr := hgrow (⌊T / dt⌋₊ * dt) ⟨by positivity, hk1.trans hT1⟩
  have hsq : (0.999 * T) ^ 2 ≤ (⌊T / dt⌋₊ * dt : ℝ) ^ 2 := by gcongr
  have := (abs_le.1 h4).1
  have h5 : 3.4e-4 * Real.cos lat * (0.999 * T) ^ 2 ≤ 3.4e-4 * Real.cos lat * (⌊T / dt⌋₊ * dt : ℝ) ^ 2 := by gcongr
  have h6 : 3.4e-4 * Real.cos lat * (0.999 * T) ^ 2 = 3.3932034e-4 * (Real.cos lat * T ^ 2) := by ring
  have h7 : 0 < Real.cos lat * T ^ 2 := by positivity
  norm_num at h5 h6 hC hgr ⊢
  linarith

/-- non-vacuity: such a run exists from every initialised state, here at 60 degrees north, level and heading north -/
example (dt : ℝ) (t : Int) : |Real.pi / 3| < Real.pi / 2 ∧ ∃ s : ℕ → St ℝ, Ready (s 0) ![Real.pi / 3, 0.2, 100] 0 1 t
    ∧ Runs dt (dt • ((1 : M3 ℝ)ᵀ *ᵥ (-(Gravity.gravityNed (Real.pi / 3) 100).2))) (dt • ((1 : M3 ℝ)ᵀ *ᵥ earthVec (Real.pi / 3))) s := by
  refine ⟨by rw [abs_of_pos (by positivity)]; linarith [Real.pi_pos], ?_⟩
  obtain ⟨s, h0, hs⟩ := run_exists dt (dt • ((1 : M3 ℝ)ᵀ *ᵥ (-(Gravity.gravityNed (Real.pi / 3) 100).2))) (dt • ((1 : M3 ℝ)ᵀ *ᵥ earthVec (Real.pi / 3)))
    { lla := some ![Real.pi / 3, 0.2, 100], vNed := some 0, RB2N := some 1, tov := some t } ![Real.pi / 3, 0.2, 100] 0 1 t ⟨rfl, rfl, rfl, rfl⟩
  exact ⟨s, by rw [h0]; exact ⟨rfl, rfl, rfl, rfl⟩, hs⟩

end NavFuse.Props
