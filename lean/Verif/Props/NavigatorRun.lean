import Verif.Props.RestDrift

/-! # C105, C165 and C167 for whole runs of `Strapdown::integrate`

The other files state these properties for the Runge-Kutta step, with the attitude given by the attitude equation. Here both come from the code: the statements are
about the members `lla_`, `vNed_` and `RB2N_` after any number of calls. Time stamps are whole microseconds, so `integrate` itself cannot be called with
arbitrarily small steps; `integrateDt` is `integrate` with the interval given as a number. -/

namespace NavFuse.Strapdown
open NavUtils
variable {α : Type} [Add α] [Sub α] [Mul α] [Div α] [Neg α] [Flt α]

/-- `Strapdown::integrate`, src/inertial/strapdown.cpp:41-85, with `dt_` (line 53) given instead of computed from time stamps -/
def integrateDt (s : St α) (dt : α) (dV dTh : V3 α) : Out (Bool × St α) := do
  let s ← keepPrev s                                                               -- lines 46-49
  let u ← updateAttitude { s with dt := some dt } dTh                              -- lines 56-59
  if !u.1 then .ok (false, u.2) else advance u.2 dV                                -- lines 61-83

/-- a sequence of calls with a fixed interval and fixed readings, all reporting success -/
def Runs (dt : α) (dV dTh : V3 α) (s : ℕ → St α) : Prop := ∀ k, integrateDt (s k) dt dV dTh = .ok (true, s (k + 1))

theorem integrateDt_eval (s : St α) (lla vNed dV dTh : V3 α) (R : M3 α) (t : Int) (dt : α) (h : Ready s lla vNed R t) (Y : Fin 6 → α)
    (hY : rk4G (mvec (mmul R (attInc dTh)) dV) (Gravity.gravityNed (lla 0) (lla 2)).2 dt ![lla 0, lla 1, lla 2, vNed 0, vNed 1, vNed 2] = Y) :
    integrateDt s dt dV dTh = .ok (true,
      { lla := some ![Y 0, Y 1, Y 2], vNed := some ![Y 3, Y 4, Y 5], RB2N := some (mmul R (attInc dTh)), tov := some t, dt := some dt,
        llaPrev := some lla, vNedPrev := some vNed, RB2NPrev := some R, tovPrev := some t }) := by
  obtain ⟨h1, h2, h3, h4⟩ := h
  have e1 : keepPrev s = .ok { s with llaPrev := some lla, vNedPrev := some vNed, RB2NPrev := some R, tovPrev := some t } := by
    simp only [keepPrev, h1, h2, h3, h4, rd, osimp]
  rw [integrateDt, e1, Out.ok_bind, update_eval _ _ R rfl, Out.ok_bind]
  simp only [Bool.not_true, Bool.false_eq_true, if_false]
  rw [advance_eval (St.mk s.lla s.vNed (some (mmul R (attInc dTh))) s.tov (some dt) (some lla) (some vNed)
    (some R) (some t)) lla lla vNed dV (mmul R (attInc dTh)) dt rfl h1 rfl rfl rfl Y hY, h4]

/-- it is the `integrate` of the code: for time stamps in range the two agree in everything but the time stamp itself -/
theorem integrate_eq_integrateDt (s : St α) (lla vNed dV dTh : V3 α) (R : M3 α) (t tov : Int) (h : Ready s lla vNed R t)
    (ht : -2 ^ 63 ≤ tov - t ∧ tov - t < 2 ^ 63) :
    ∃ s', integrateDt s (Flt.ofInt (tov - t) / Flt.lit 1e6) dV dTh = .ok (true, s') ∧ integrate s dV dTh tov = .ok (true, { s' with tov := some tov }) :=
  ⟨_, integrateDt_eval s lla vNed dV dTh R t _ h _ rfl, integrate_eval s lla vNed dV dTh R t tov h ht⟩

end NavFuse.Strapdown

namespace NavFuse.Props
open Matrix Spec NavUtils Strapdown Filter Topology

/-- the attitude flow over one step -/
theorem attitude_step (X : ℝ → M3 ℝ) (ω : V3 ℝ) (hω : ω ≠ 0) (hX : ∀ τ u, HasDerivAt (fun s => X s *ᵥ u) (X τ *ᵥ (ω ⨯₃ u)) τ) (a dt : ℝ) (hdt : dt ≠ 0) :
    X a * attInc (dt • ω) = X (a + dt) := by
  have hφ : dt • ω ≠ 0 := smul_ne_zero hdt hω
  have hX' : ∀ τ u, HasDerivAt (fun s => X (a + s) *ᵥ u) (X (a + τ) *ᵥ (ω ⨯₃ u)) τ := fun τ u => (hX (a + τ) u).comp_const_add a τ
  refine Matrix.ext_of_mulVec_single fun i => ?_
  have hu := unit_of hω
  have hw : dt • ω = (len3 ω * dt) • ((len3 ω)⁻¹ • ω) := by
    rw [smul_smul, mul_comm (len3 ω), mul_assoc, mul_inv_cancel₀ (len3_pos hω).ne', mul_one]
  have h := attitude_ode_unique (fun s => X (a + s)) ω hω hX' dt (Pi.single i 1)
  simp only [add_zero] at h
  rw [← mulVec_mulVec, attInc_R _ _ hφ, h, hw, rotByVec_axis _ hu _ _ (mul_ne_zero (len3_pos hω).ne' hdt)]

/-- position and velocity of a navigator as one vector -/
def stateVec (l v : V3 ℝ) : Fin 6 → ℝ := ![l 0, l 1, l 2, v 0, v 1, v 2]

/-- what a run computes: the attitude is the flow, the rest are the steps of C104 -/
theorem run_steps (X : ℝ → M3 ℝ) (ω f : V3 ℝ) (hω : ω ≠ 0) (hX : ∀ τ u, HasDerivAt (fun s => X s *ᵥ u) (X τ *ᵥ (ω ⨯₃ u)) τ) (dt : ℝ) (hdt : dt ≠ 0)
    (s : ℕ → St ℝ) (l v : V3 ℝ) (t : Int) (h0 : Ready (s 0) l v (X 0) t) (hs : Runs dt (dt • f) (dt • ω) s) :
    ∃ Y : ℕ → Fin 6 → ℝ, Y 0 = stateVec l v ∧
      (∀ k : ℕ, ∃ old, strapdownRk4 ⟨6, Y k⟩ dt (X (k * dt + dt) *ᵥ (dt • f)) (Gravity.gravityNed (Y k 0) (Y k 2)).2 ⟨6, old⟩ = .ok (true, ⟨6, Y (k + 1)⟩)) ∧
      ∀ k, Ready (s k) ![Y k 0, Y k 1, Y k 2] ![Y k 3, Y k 4, Y k 5] (X (k * dt)) t := by
  let Y : ℕ → Fin 6 → ℝ := fun k => Nat.rec (stateVec l v)
    (fun k y => rk4G (X (k * dt + dt) *ᵥ (dt • f)) (Gravity.gravityNed (y 0) (y 2)).2 dt y) k
  refine ⟨Y, rfl, fun k => ⟨0, by rw [rk4_eval]⟩, fun k => ?_⟩
  induction k with
  | zero =>
    have e1 : (![Y 0 0, Y 0 1, Y 0 2] : V3 ℝ) = l := by ext i; fin_cases i <;> rfl
    have e2 : (![Y 0 3, Y 0 4, Y 0 5] : V3 ℝ) = v := by ext i; fin_cases i <;> rfl
    rw [e1, e2, Nat.cast_zero, zero_mul]; exact h0
  | succ k ih =>
    have e : (![Y k 0, Y k 1, Y k 2, Y k 3, Y k 4, Y k 5] : Fin 6 → ℝ) = Y k := by ext i; fin_cases i <;> rfl
    have ha : X (k * dt) * attInc (dt • ω) = X (k * dt + dt) := attitude_step X ω hω hX _ dt hdt
    have hE := integrateDt_eval (s k) _ _ (dt • f) (dt • ω) _ t dt ih (Y (k + 1)) (by
      rw [R_mmul, ha, R_mvec]
      show rk4G _ (Gravity.gravityNed (Y k 0) (Y k 2)).2 dt ![Y k 0, Y k 1, Y k 2, Y k 3, Y k 4, Y k 5] = Y (k + 1)
      rw [e])
    have h1 := (hs k).symm.trans hE
    have h2 : s (k + 1) = _ := (Prod.mk.injEq _ _ _ _ ▸ Except.ok.inj h1).2
    rw [h2]
    refine ⟨rfl, rfl, ?_, rfl⟩
    simp only [R_mmul, ha]
    congr 2; push_cast; ring

/-- one call of the code is the step of C104 -/
theorem call_step (X : ℝ → M3 ℝ) (ω f : V3 ℝ) (hω : ω ≠ 0) (hX : ∀ τ u, HasDerivAt (fun s => X s *ᵥ u) (X τ *ᵥ (ω ⨯₃ u)) τ) (y0 : Fin 6 → ℝ) (s0 : St ℝ) (t : Int)
    (h0 : Ready s0 ![y0 0, y0 1, y0 2] ![y0 3, y0 4, y0 5] (X 0) t) (dt : ℝ) (hdt : dt ≠ 0) (s' : St ℝ) (l v : V3 ℝ)
    (hs : integrateDt s0 dt (dt • f) (dt • ω) = .ok (true, s')) (hl : s'.lla = some l) (hv : s'.vNed = some v) :
    stateVec l v = rk4G (X dt *ᵥ (dt • f)) (Gravity.gravityNed (y0 0) (y0 2)).2 dt y0 := by
  have e : (![y0 0, y0 1, y0 2, y0 3, y0 4, y0 5] : Fin 6 → ℝ) = y0 := by ext i; fin_cases i <;> rfl
  have ha : X 0 * attInc (dt • ω) = X dt := by rw [attitude_step X ω hω hX 0 dt hdt, zero_add]
  have hE := integrateDt_eval s0 _ _ (dt • f) (dt • ω) _ t dt h0 (rk4G (X dt *ᵥ (dt • f)) (Gravity.gravityNed (y0 0) (y0 2)).2 dt y0) (by
    rw [R_mmul, ha, R_mvec]
    show rk4G _ (Gravity.gravityNed (y0 0) (y0 2)).2 dt ![y0 0, y0 1, y0 2, y0 3, y0 4, y0 5] = _
    rw [e])
  have h2 : s' = _ := (Prod.mk.injEq _ _ _ _ ▸ Except.ok.inj (hs.symm.trans hE)).2
  rw [h2] at hl hv
  simp only [Option.some.injEq] at hl hv
  rw [← hl, ← hv]
  ext i; fin_cases i <;> rfl

/-- C104 for the code: one call with the interval `dt` differs from the true motion by a multiple of `dt²`, and the multiple is the one of `C104_first_order`. -/
theorem C104_call (X : ℝ → M3 ℝ) (ω f : V3 ℝ) (hω : ω ≠ 0) (hX : ∀ τ u, HasDerivAt (fun s => X s *ᵥ u) (X τ *ᵥ (ω ⨯₃ u)) τ)
    (y : ℝ → Fin 6 → ℝ) (hr : RegularPos (y 0 0) (y 0 2)) (hy : ∀ᶠ t in 𝓝 0, HasDerivAt y (navRates (X t *ᵥ f) (stateGravity (y t)) (y t)) t)
    (γ' : V3 ℝ) (hγ : HasDerivAt (fun t => stateGravity (y t)) γ' 0) (s0 : St ℝ) (t : Int) (h0 : Ready s0 ![y 0 0, y 0 1, y 0 2] ![y 0 3, y 0 4, y 0 5] (X 0) t)
    (s' : ℝ → St ℝ) (l v : ℝ → V3 ℝ) (hs : ∀ dt ≠ 0, integrateDt s0 dt (dt • f) (dt • ω) = .ok (true, s' dt) ∧ (s' dt).lla = some (l dt) ∧ (s' dt).vNed = some (v dt)) :
    Tendsto (fun dt : ℝ => (dt ^ 2)⁻¹ • (stateVec (l dt) (v dt) - y dt)) (𝓝[≠] 0)
      (𝓝 ((1 / 2 : ℝ) • ![0, 0, 0, (X 0 *ᵥ (ω ⨯₃ f) - γ') 0, (X 0 *ᵥ (ω ⨯₃ f) - γ') 1, (X 0 *ᵥ (ω ⨯₃ f) - γ') 2])) := by
  refine (C104_first_order X ω f hX y hr hy γ' hγ (fun dt => rk4G (X dt *ᵥ (dt • f)) (Gravity.gravityNed (y 0 0) (y 0 2)).2 dt (y 0))
    fun dt => rk4_eval _ _ _ _ _).congr' ?_
  filter_upwards [self_mem_nhdsWithin] with dt hdt
  obtain ⟨e1, e2, e3⟩ := hs dt hdt
  rw [call_step X ω f hω hX (y 0) s0 t h0 dt hdt (s' dt) (l dt) (v dt) e1 e2 e3]

/-- C104 for the code: for a vehicle at rest whose readings turn the specific force, no better order is possible. -/
theorem C104_call_no_better (X : ℝ → M3 ℝ) (ω f : V3 ℝ) (hω : ω ≠ 0) (hX : ∀ τ u, HasDerivAt (fun s => X s *ᵥ u) (X τ *ᵥ (ω ⨯₃ u)) τ) (hdet : (X 0).det ≠ 0)
    (hf : ω ⨯₃ f ≠ 0) (y : ℝ → Fin 6 → ℝ) (hr : RegularPos (y 0 0) (y 0 2))
    (hy : ∀ᶠ t in 𝓝 0, HasDerivAt y (navRates (X t *ᵥ f) (stateGravity (y t)) (y t)) t)
    (hrest : y 0 3 = 0 ∧ y 0 4 = 0 ∧ y 0 5 = 0) (s0 : St ℝ) (t : Int) (h0 : Ready s0 ![y 0 0, y 0 1, y 0 2] ![y 0 3, y 0 4, y 0 5] (X 0) t)
    (s' : ℝ → St ℝ) (l v : ℝ → V3 ℝ) (hs : ∀ dt ≠ 0, integrateDt s0 dt (dt • f) (dt • ω) = .ok (true, s' dt) ∧ (s' dt).lla = some (l dt) ∧ (s' dt).vNed = some (v dt)) :
    ∃ c > 0, ∀ᶠ dt in 𝓝[≠] (0 : ℝ), c * dt ^ 2 ≤ ‖stateVec (l dt) (v dt) - y dt‖ := by
  obtain ⟨c, hc, H⟩ := C104_no_better X ω f hX hdet hf y hr hy hrest (fun dt => rk4G (X dt *ᵥ (dt • f)) (Gravity.gravityNed (y 0 0) (y 0 2)).2 dt (y 0))
    fun dt => rk4_eval _ _ _ _ _
  refine ⟨c, hc, ?_⟩
  filter_upwards [H, self_mem_nhdsWithin] with dt hd hdt
  obtain ⟨e1, e2, e3⟩ := hs dt hdt
  rwa [call_step X ω f hω hX (y 0) s0 t h0 dt hdt (s' dt) (l dt) (v dt) e1 e2 e3]

/-- such a run exists from every initialised state -/
theorem run_exists (dt : ℝ) (dV dTh : V3 ℝ) (s0 : St ℝ) (l v : V3 ℝ) (R : M3 ℝ) (t : Int) (h0 : Ready s0 l v R t) : ∃ s : ℕ → St ℝ, s 0 = s0 ∧ Runs dt dV dTh s := by
  have hstep : ∀ s : {s : St ℝ // ∃ l v R t, Ready s l v R t}, ∃ s' : {s : St ℝ // ∃ l v R t, Ready s l v R t}, integrateDt s.1 dt dV dTh = .ok (true, s'.1) := by
    rintro ⟨s, l, v, R, t, h⟩
    exact ⟨⟨_, _, _, _, _, rfl, rfl, rfl, rfl⟩, integrateDt_eval s l v dV dTh R t dt h _ rfl⟩
  choose next hnext using hstep
  refine ⟨fun k => (Nat.rec ⟨s0, l, v, R, t, h0⟩ (fun _ => next) k : {s : St ℝ // ∃ l v R t, Ready s l v R t}).1, rfl, fun k => ?_⟩
  exact hnext _

/-- C105 for runs of the code: after any number of calls up to the time `T` the position and velocity are within a constant times the interval of the true ones,
and the attitude is the true one. -/
theorem C105_run (a b T : ℝ) (ha : a < 0) (hT : 0 ≤ T) (hb : T < b) (X : ℝ → M3 ℝ) (ω f : V3 ℝ) (hω : ω ≠ 0)
    (hX : ∀ τ u, HasDerivAt (fun s => X s *ᵥ u) (X τ *ᵥ (ω ⨯₃ u)) τ) (y : ℝ → Fin 6 → ℝ)
    (hr : ∀ t ∈ Set.Ioo a b, RegularPos (y t 0) (y t 2)) (hy : ∀ t ∈ Set.Ioo a b, HasDerivAt y (navRates (X t *ᵥ f) (stateGravity (y t)) (y t)) t) :
    ∃ C, ∃ dt0 > 0, ∀ dt, 0 < dt → dt ≤ dt0 → ∀ (s : ℕ → St ℝ) (t : Int), Ready (s 0) ![y 0 0, y 0 1, y 0 2] ![y 0 3, y 0 4, y 0 5] (X 0) t →
      Runs dt (dt • f) (dt • ω) s → ∀ k : ℕ, k * dt ≤ T → ∃ l v, Ready (s k) l v (X (k * dt)) t ∧ ∀ i, |stateVec l v i - y (k * dt) i| ≤ C * dt := by
  obtain ⟨C, dt0, hdt0, H⟩ := C105_converges a b T ha hT hb X ω f hω hX y hr hy
  refine ⟨C, dt0, hdt0, fun dt hdt hle s t h0 hs k hk => ?_⟩
  obtain ⟨Y, hY0, hY, hR⟩ := run_steps X ω f hω hX dt hdt.ne' s _ _ t h0 hs
  refine ⟨_, _, hR k, fun i => ?_⟩
  have hy0 : Y 0 = y 0 := by rw [hY0]; ext i; fin_cases i <;> rfl
  have := H dt hdt hle Y hy0 hY k hk i
  have e : stateVec ![Y k 0, Y k 1, Y k 2] ![Y k 3, Y k 4, Y k 5] i = Y k i := by fin_cases i <;> rfl
  rwa [e]

/-- C165 for runs of the code: started `δ` too high, the altitude error grows at least like `δ cosh (t / 580 s)`. -/
theorem C165_run (a b T lon h₀ δ : ℝ) (ha : a < 0) (hT : 0 ≤ T) (hb : T < b) (hh : 0 ≤ h₀) (hδ : 0 < δ) (X : ℝ → M3 ℝ) (ω f : V3 ℝ) (hω : ω ≠ 0)
    (hX : ∀ τ u, HasDerivAt (fun s => X s *ᵥ u) (X τ *ᵥ (ω ⨯₃ u)) τ) (hup : ω ⨯₃ f = 0) (hf : X 0 *ᵥ f = -stateGravity ![0, lon, h₀, 0, 0, 0])
    (y : ℝ → Fin 6 → ℝ) (y0 : y 0 = ![0, lon, h₀ + δ, 0, 0, 0]) (hr : ∀ t ∈ Set.Ioo a b, RegularPos (y t 0) (y t 2))
    (hy : ∀ t ∈ Set.Ioo a b, HasDerivAt y (navRates (X t *ᵥ f) (stateGravity (y t)) (y t)) t) (htop : ∀ t ∈ Set.Icc 0 T, y t 2 ≤ 20000) :
    ∃ C, ∃ dt0 > 0, ∀ dt, 0 < dt → dt ≤ dt0 → ∀ (s : ℕ → St ℝ) (t : Int), Ready (s 0) ![0, lon, h₀ + δ] 0 (X 0) t → Runs dt (dt • f) (dt • ω) s →
      ∀ k : ℕ, k * dt ≤ T → ∃ l v R, Ready (s k) l v R t ∧ δ * Real.cosh (k * dt / 580) - C * dt ≤ l 2 - h₀ := by
  obtain ⟨C, dt0, hdt0, H⟩ := C165_navigator a b T lon h₀ δ ha hT hb hh hδ X ω f hω hX hup hf y y0 hr hy htop
  refine ⟨C, dt0, hdt0, fun dt hdt hle s t h0 hs k hk => ?_⟩
  obtain ⟨Y, hY0, hY, hR⟩ := run_steps X ω f hω hX dt hdt.ne' s _ _ t h0 hs
  exact ⟨_, _, _, hR k, H dt hdt hle Y (by rw [hY0]; ext i; fin_cases i <;> rfl) hY k hk⟩

/-- C167 fails for runs of the code: a vehicle at rest on the equator at any altitude up to 20 km, in any attitude `R₀`, initialised and measured without error (the
angle increments are the rotation of the Earth during the interval, the velocity increments are minus gravity times the interval, both in body axes). For all
sufficiently short intervals the navigator reports, within ten minutes, more than 120 m/s and a place more than 24 km to the east. -/
theorem C167_run_fails (lon h₀ : ℝ) (hh : 0 ≤ h₀) (htop : h₀ ≤ 20000) (R₀ : M3 ℝ) (hR : IsRot R₀) :
    ∃ dt0 > 0, ∀ dt, 0 < dt → dt ≤ dt0 → ∀ (s : ℕ → St ℝ) (t : Int), Ready (s 0) ![0, lon, h₀] 0 R₀ t →
      Runs dt (dt • (R₀ᵀ *ᵥ (-(Gravity.gravityNed 0 h₀).2))) (dt • (R₀ᵀ *ᵥ earthVec 0)) s →
      ∃ k : ℕ, k * dt ≤ 600 ∧ ∃ l v R, Ready (s k) l v R t ∧ 120 ≤ v 1 ∧ 24000 ≤ 6378137 * (l 1 - lon) := by
  have hω : R₀ᵀ *ᵥ earthVec 0 ≠ 0 := fun h => by
    have h1 : R₀ *ᵥ (R₀ᵀ *ᵥ earthVec 0) = 0 := by rw [h, mulVec_zero]
    rw [mulVec_mulVec, hR.1, one_mulVec] at h1
    have := congrFun h1 0
    simp [earthVec, earthRate_pos.ne'] at this
  obtain ⟨X, h0, hX⟩ := exists_attitude R₀ _ hω
  obtain ⟨dt0, hdt0, H⟩ := C167_ten_minutes_fails lon h₀ hh htop R₀ hR X h0 hX
  refine ⟨dt0, hdt0, fun dt hdt hle s t hs0 hs => ?_⟩
  obtain ⟨Y, hY0, hY, hRd⟩ := run_steps X _ _ hω hX dt hdt.ne' s _ _ t (h0.symm ▸ hs0) hs
  obtain ⟨k, hk, h4, h1⟩ := H dt hdt hle Y (by rw [hY0]; ext i; fin_cases i <;> rfl) hY
  exact ⟨k, hk, _, _, _, hRd k, h4, h1⟩

/-- non-vacuity of C104: the calls succeed from every state that `initialize` can leave -/
example (y0 : Fin 6 → ℝ) (f ω : V3 ℝ) (t : Int) : ∃ (s0 : St ℝ) (s' : ℝ → St ℝ) (l v : ℝ → V3 ℝ), Ready s0 ![y0 0, y0 1, y0 2] ![y0 3, y0 4, y0 5] 1 t ∧
    ∀ dt ≠ 0, integrateDt s0 dt (dt • f) (dt • ω) = .ok (true, s' dt) ∧ (s' dt).lla = some (l dt) ∧ (s' dt).vNed = some (v dt) :=
  ⟨{ lla := some ![y0 0, y0 1, y0 2], vNed := some ![y0 3, y0 4, y0 5], RB2N := some 1, tov := some t }, _, _, _, ⟨rfl, rfl, rfl, rfl⟩,
    fun dt _ => ⟨integrateDt_eval _ _ _ (dt • f) (dt • ω) 1 t dt ⟨rfl, rfl, rfl, rfl⟩ _ rfl, rfl, rfl⟩⟩

/-- non-vacuity: a state as `initialize` leaves it for zero angles, and the run from it -/
example (lon h₀ dt : ℝ) (t : Int) : ∃ s : ℕ → St ℝ, Ready (s 0) ![0, lon, h₀] 0 1 t
    ∧ Runs dt (dt • ((1 : M3 ℝ)ᵀ *ᵥ (-(Gravity.gravityNed 0 h₀).2))) (dt • ((1 : M3 ℝ)ᵀ *ᵥ earthVec 0)) s := by
  obtain ⟨s, h0, hs⟩ := run_exists dt (dt • ((1 : M3 ℝ)ᵀ *ᵥ (-(Gravity.gravityNed 0 h₀).2))) (dt • ((1 : M3 ℝ)ᵀ *ᵥ earthVec 0))
    { lla := some ![0, lon, h₀], vNed := some 0, RB2N := some 1, tov := some t } ![0, lon, h₀] 0 1 t ⟨rfl, rfl, rfl, rfl⟩
  exact ⟨s, by rw [h0]; exact ⟨rfl, rfl, rfl, rfl⟩, hs⟩

end NavFuse.Props
