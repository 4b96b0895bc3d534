import Verif.Props.Strapdown
import Verif.Props.Gravity
import Mathlib.Analysis.Real.Pi.Bounds

/-! # Properties C90–C93: what the strapdown navigator computes -/

set_option linter.unusedSectionVars false

namespace NavFuse.Props
open Matrix NavFuse.Spec NavFuse.Strapdown NavFuse.NavUtils NavFuse.XR

/-! ## C90 -/

theorem gravity_X (lat h : ℝ) : Gravity.gravityNed (fin lat) (fin h) = (true, finV (Gravity.gravityNed lat h).2) := by
  have hd : (6378137 : ℝ) ^ 2 * Real.cos lat ^ 2 + 6356752.3141 ^ 2 * Real.sin lat ^ 2 ≥ 0 := (ellG_den_pos lat).le
  have hs := (Real.sqrt_pos.2 (ellG_den_pos lat)).ne'
  simp only [Gravity.gravityNed, Gravity.a, Gravity.b, Gravity.f, Gravity.gEq, Gravity.gPole, Gravity.wE, Gravity.kM, xsimp, rsimp]
  rw [X_sqrt _ hd, fin_div _ _ hs, fin_div _ _ (by norm_num), fin_div _ _ (by norm_num), fin_div _ _ (by norm_num), fin_div _ _ (by norm_num),
    fin_div _ _ (by norm_num)]
  simp only [xsimp]
  congr 1
  ext i; fin_cases i <;> rfl

/-- C90: one `integrate` call is one classical Runge-Kutta step, of the length of the time difference, of the navigation equations, driven by the velocity increment
spread evenly over the step and rotated with the *updated* attitude, and by gravity at the *previous* position. NaN and infinities cannot occur while the four
stages are regular positions and the time stamps differ. -/
theorem C90_runge_kutta_step (s : St XR) (lla v dV φ : V3 ℝ) (R : M3 ℝ) (t t' : Int)
    (h : s.lla = some (finV lla) ∧ s.vNed = some (finV v) ∧ s.RB2N = some (finM R) ∧ s.tov = some t) (hφ : φ ≠ 0) (ht : t' ≠ t)
    (hf : -2 ^ 63 ≤ t' - t ∧ t' - t < 2 ^ 63) (R' : M3 ℝ) (hR' : ∀ u, R' *ᵥ u = R *ᵥ rotByVec φ u) (dt : ℝ) (hdt : dt = ((t' - t : ℤ) : ℝ) / 1000000)
    (hr : StagesRegular (navRates (dt⁻¹ • (R' *ᵥ dV)) (Gravity.gravityNed (lla 0) (lla 2)).2) dt ![lla 0, lla 1, lla 2, v 0, v 1, v 2])
    (y : Fin 6 → ℝ) (hy : y = rk4 (navRates (dt⁻¹ • (R' *ᵥ dV)) (Gravity.gravityNed (lla 0) (lla 2)).2) dt ![lla 0, lla 1, lla 2, v 0, v 1, v 2]) :
    ∃ s', integrate s (finV dV) (finV φ) t' = .ok (true, s') ∧ s'.lla = some (finV ![y 0, y 1, y 2]) ∧ s'.vNed = some (finV ![y 3, y 4, y 5])
      ∧ s'.RB2N = some (finM R') := by
  have hd0 : dt ≠ 0 := by
    rw [hdt]
    have : ((t' - t : ℤ) : ℝ) ≠ 0 := by exact_mod_cast sub_ne_zero.2 ht
    positivity
  have hR : R * attInc φ = R' := Matrix.ext_of_mulVec_single fun i => by rw [← mulVec_mulVec, attInc_R φ _ hφ, hR']
  refine ⟨_, integrate_eval s (finV lla) (finV v) (finV dV) (finV φ) (finM R) t t' h hf, ?_⟩
  have hY : nextY (finV lla) (finV v) (finV dV) (finM R) (finV φ) (t' - t) = finV y := by
    have e := C40_finite ![lla 0, lla 1, lla 2, v 0, v 1, v 2] (fun _ => nan) dt (R' *ᵥ dV) (Gravity.gravityNed (lla 0) (lla 2)).2 hd0 hr
    rw [rk4_eval, ← hy] at e
    injection e with e; injection e with _ e; injection e with _ e
    rw [nextY, attInc_X φ hφ, X_mmul, hR, X_mvec]
    simp only [finV_apply, gravity_X, X_ofInt, X_lit]
    rw [show ((1e6 : ℚ) : ℝ) = 1000000 by norm_num, fin_div _ _ (by norm_num), ← hdt]
    have hv : (![fin (lla 0), fin (lla 1), fin (lla 2), fin (v 0), fin (v 1), fin (v 2)] : Fin 6 → XR) = finV ![lla 0, lla 1, lla 2, v 0, v 1, v 2] := by
      ext i; fin_cases i <;> rfl
    rw [hv]
    exact e
  have h3 : ∀ a b c : ℝ, (![fin a, fin b, fin c] : V3 XR) = finV ![a, b, c] := fun a b c => by ext i; fin_cases i <;> rfl
  simp only [hY, finV_apply, h3, attInc_X φ hφ, X_mmul, hR, and_self]

/-- C90 in a case where the outcome is known: a vehicle at rest that senses exactly the reaction to gravity does not move, over any time step and for any change of attitude; the
hypotheses of `C90_runge_kutta_step` are met here. -/
theorem C90_at_rest (s : St XR) (lla φ : V3 ℝ) (R : M3 ℝ) (t t' : Int)
    (h : s.lla = some (finV lla) ∧ s.vNed = some (finV 0) ∧ s.RB2N = some (finM R) ∧ s.tov = some t) (hφ : φ ≠ 0) (ht : t' ≠ t)
    (hf : -2 ^ 63 ≤ t' - t ∧ t' - t < 2 ^ 63) (hp : RegularPos (lla 0) (lla 2)) (dV : V3 ℝ)
    (hdV : R *ᵥ rotByVec φ dV = -((((t' - t : ℤ) : ℝ) / 1000000) • (Gravity.gravityNed (lla 0) (lla 2)).2)) :
    ∃ s', integrate s (finV dV) (finV φ) t' = .ok (true, s') ∧ s'.lla = some (finV lla) ∧ s'.vNed = some (finV 0) := by
  have hd0 : ((t' - t : ℤ) : ℝ) / 1000000 ≠ 0 := by
    have : ((t' - t : ℤ) : ℝ) ≠ 0 := by exact_mod_cast sub_ne_zero.2 ht
    positivity
  have hR' : ∀ u, (R * attInc φ) *ᵥ u = R *ᵥ rotByVec φ u := fun u => by rw [← mulVec_mulVec, attInc_R φ _ hφ]
  generalize hdt : ((t' - t : ℤ) : ℝ) / 1000000 = dt at *
  generalize hg : (Gravity.gravityNed (lla 0) (lla 2)).2 = g at *
  have hs : dt⁻¹ • ((R * attInc φ) *ᵥ dV) = -g := by
    rw [hR', hdV, smul_neg, smul_smul, inv_mul_cancel₀ hd0, one_smul]
  have hz : (![lla 0, lla 1, lla 2, (0 : V3 ℝ) 0, (0 : V3 ℝ) 1, (0 : V3 ℝ) 2] : Fin 6 → ℝ) = ![lla 0, lla 1, lla 2, 0, 0, 0] := rfl
  have hst : StagesRegular (navRates (-g) g) dt ![lla 0, lla 1, lla 2, 0, 0, 0] := by
    simp only [StagesRegular, stationary_rates, smul_zero, add_zero]
    exact ⟨hp, hp, hp, hp⟩
  obtain ⟨s', e, h1, h2, -⟩ := C90_runge_kutta_step s lla 0 dV φ R t t' h hφ ht hf (R * attInc φ) hR' dt hdt.symm
    (by rw [hg, hs, hz]; exact hst) _ rfl
  rw [hg, hs, hz, stationary_step] at h1 h2
  refine ⟨s', e, h1.trans ?_, h2.trans ?_⟩ <;> (congr 2; ext i; fin_cases i <;> rfl)

/-- the hypotheses of `C90_at_rest` are satisfiable: the required velocity increment exists for every attitude and increment -/
example (R : M3 ℝ) (hR : IsRot R) (φ w : V3 ℝ) (hφ : φ ≠ 0) : ∃ dV, R *ᵥ rotByVec φ dV = w := by
  refine ⟨(attInc φ)ᵀ *ᵥ (Rᵀ *ᵥ w), ?_⟩
  rw [← attInc_R φ _ hφ, mulVec_mulVec (Rᵀ *ᵥ w), (attInc_isRot φ hφ).1, one_mulVec, mulVec_mulVec, hR.1, one_mulVec]

/-! ## C91 -/

theorem turn_equivariant (R : M3 ℝ) (hR : IsRot R) (n u : V3 ℝ) (θ : ℝ) : R *ᵥ turn n θ u = turn (R *ᵥ n) θ (R *ᵥ u) := by
  simp only [turn, mulVec_add, mulVec_smul, hR.cross, hR.dot]

theorem rot_len3 (R : M3 ℝ) (hR : IsRot R) (u : V3 ℝ) : len3 (R *ᵥ u) = len3 u := by
  have := hR.dot u u
  simp only [dotProduct, Fin.sum_univ_three] at this
  simp only [len3, sq]
  rw [this]

theorem rotByVec_equivariant (R : M3 ℝ) (hR : IsRot R) (φ u : V3 ℝ) : R *ᵥ rotByVec φ u = rotByVec (R *ᵥ φ) (R *ᵥ u) := by
  rw [rotByVec, rotByVec, turn_equivariant R hR, rot_len3 R hR, mulVec_smul]

theorem earthVec_unit (lat : ℝ) : (![Real.cos lat, 0, -Real.sin lat] : V3 ℝ) 0 ^ 2 + (![Real.cos lat, 0, -Real.sin lat] : V3 ℝ) 1 ^ 2
    + (![Real.cos lat, 0, -Real.sin lat] : V3 ℝ) 2 ^ 2 = 1 := by
  simp

theorem earthRate_pos : 0 < earthRate := by norm_num [earthRate]

/-- C91, what does hold: a vehicle at rest on the rotating earth senses the earth's rotation, and the navigator turns the attitude by exactly the earth's rotation during
the step. The attitude is thus kept relative to a frame that does not rotate. (Full claim: it is kept relative to north, east and down, so that it does not change for a vehicle
at rest; missing: the code never subtracts the rotation of the navigation frame.) -/
theorem C91_inertially_fixed_partial (s : St XR) (l v dV : V3 XR) (R : M3 ℝ) (hR : IsRot R) (t t' : Int) (lat dt : ℝ) (hdt : dt ≠ 0)
    (h : s.lla = some l ∧ s.vNed = some v ∧ s.RB2N = some (finM R) ∧ s.tov = some t) (hf : -2 ^ 63 ≤ t' - t ∧ t' - t < 2 ^ 63) :
    ∃ s' R', integrate s dV (finV (Rᵀ *ᵥ (dt • earthVec lat))) t' = .ok (true, s') ∧ s'.RB2N = some (finM R') ∧ IsRot R'
      ∧ ∀ u, R' *ᵥ u = turn ![Real.cos lat, 0, -Real.sin lat] (earthRate * dt) (R *ᵥ u) := by
  have hn := earthVec_unit lat
  have he : R *ᵥ (Rᵀ *ᵥ (dt • earthVec lat)) = (earthRate * dt) • ![Real.cos lat, 0, -Real.sin lat] := by
    rw [mulVec_mulVec, hR.1, one_mulVec, earthVec, smul_smul, mul_comm]
  have h0 : earthRate * dt ≠ 0 := mul_ne_zero earthRate_pos.ne' hdt
  have hφ : Rᵀ *ᵥ (dt • earthVec lat) ≠ 0 := by
    intro h1
    rw [h1, mulVec_zero] at he
    rcases smul_eq_zero.1 he.symm with h2 | h2
    · exact h0 h2
    · rw [h2] at hn; simp at hn
  obtain ⟨s', l', v', e, g⟩ := integrate_att s l v dV R t t' _ h hφ hf
  refine ⟨s', _, e, g.2.2.1, hR.mul (attInc_isRot _ hφ), fun u => ?_⟩
  rw [← mulVec_mulVec, attInc_R _ u hφ, rotByVec_equivariant R hR, he, rotByVec_axis _ hn _ _ h0]

/-- C91 fails: with ideal gyroscope data of a vehicle at rest, over any step shorter than a day, the attitude relative to north-east-down changes although the vehicle does
not move. -/
theorem C91_stationary_attitude_drifts_fails (s : St XR) (l v dV : V3 XR) (R : M3 ℝ) (hR : IsRot R) (t t' : Int) (lat dt : ℝ) (hdt : 0 < dt) (hday : dt ≤ 86000)
    (h : s.lla = some l ∧ s.vNed = some v ∧ s.RB2N = some (finM R) ∧ s.tov = some t) (hf : -2 ^ 63 ≤ t' - t ∧ t' - t < 2 ^ 63) :
    ∃ s' R', integrate s dV (finV (Rᵀ *ᵥ (dt • earthVec lat))) t' = .ok (true, s') ∧ s'.RB2N = some (finM R') ∧ R' ≠ R := by
  obtain ⟨s', R', e, g, -, hu⟩ := C91_inertially_fixed_partial s l v dV R hR t t' lat dt hdt.ne' h hf
  refine ⟨s', R', e, g, fun hE => ?_⟩
  have h1 := hu (Rᵀ *ᵥ ![0, 1, 0])
  rw [hE, mulVec_mulVec, hR.1, one_mulVec, turn_eq] at h1
  have h2 := congrFun h1 1
  simp at h2
  have hpos : 0 < earthRate * dt := mul_pos earthRate_pos hdt
  have hlt : earthRate * dt < 2 * Real.pi := by
    have := Real.pi_gt_d2
    have : earthRate * dt ≤ earthRate * 86000 := mul_le_mul_of_nonneg_left hday earthRate_pos.le
    have : earthRate * 86000 < 6.272 := by norm_num [earthRate]
    linarith
  have h3 := (Real.cos_eq_one_iff_of_lt_of_lt (by linarith [Real.pi_pos]) hlt).1 h2.symm
  exact hpos.ne' h3

example : (0 : ℝ) < 0.01 ∧ (0.01 : ℝ) ≤ 86000 ∧ IsRot (bodyToNed 0.1 0.2 0.3) := ⟨by norm_num, by norm_num, bodyToNed_isRot _ _ _⟩

/-! ## C92 -/

/-- C92, what does hold: `initialize` stores the *transpose* (inverse) of the body-to-NED matrix of the given roll, pitch and heading; for zero angles both are the identity.
(Full claim: `RB2N_` is the body-to-NED matrix; missing: the transposition, see `C92_initial_attitude_fails`.) -/
theorem C92_initial_attitude_partial (s : St XR) (lla vNed : V3 XR) (e : V3 ℝ) (t : Int) :
    (Strapdown.init s lla vNed (finV e) t).2.RB2N = some (finM (bodyToNed (e 0) (e 1) (e 2))ᵀ)
    ∧ (Strapdown.init s lla vNed (finV 0) t).2.RB2N = some (finM 1) := by
  refine ⟨by rw [init_eval, C34_finite], ?_⟩
  rw [init_eval, C34_finite]
  simp only [bodyToNed_tr]
  congr 2
  ext i j; fin_cases i <;> fin_cases j <;> simp

/-- C92 fails: for a level vehicle heading anywhere but due north or south, a forward velocity increment is rotated into the mirror-image direction, e.g. an acceleration of a
vehicle heading east is integrated as an acceleration to the west. -/
theorem C92_initial_attitude_fails (s : St XR) (lla vNed : V3 XR) (ψ : ℝ) (hψ : Real.sin ψ ≠ 0) (t : Int) :
    ∃ R, (Strapdown.init s lla vNed (finV ![0, 0, ψ]) t).2.RB2N = some (finM R) ∧ R *ᵥ ![1, 0, 0] = ![Real.cos ψ, -Real.sin ψ, 0]
      ∧ R *ᵥ ![1, 0, 0] ≠ ![Real.cos ψ, Real.sin ψ, 0] := by
  refine ⟨_, (C92_initial_attitude_partial s lla vNed ![0, 0, ψ] t).1, ?_⟩
  have := C35_forward_axis_fails ψ hψ
  rw [euler_R] at this
  exact this

/-! ## C93 -/

/-- C93: re-initialisation forgets the past. Every call sequence after `initialize` behaves the same whatever happened to the object before: same returned values, same position,
velocity, attitude and time of validity (only `dt_` survives `initialize`, until the next `integrate`). -/
theorem C93_reinitialise {α : Type} [Add α] [Sub α] [Mul α] [Div α] [Neg α] [Flt α] (s₁ s₂ : St α) (lla vNed rph : V3 α) (t : Int) (cs : List (Call α)) :
    (run s₁ (.init lla vNed rph t :: cs)).map (fun r => (r.1, { r.2 with dt := none }))
      = (run s₂ (.init lla vNed rph t :: cs)).map (fun r => (r.1, { r.2 with dt := none })) := by
  have key : ∀ (cs : List (Call α)) (s : St α) (d d' : Option α), (run { s with dt := d } cs).map (fun r => (r.1, { r.2 with dt := none }))
      = (run { s with dt := d' } cs).map (fun r => (r.1, { r.2 with dt := none })) := by
    intro cs
    induction cs with
    | nil => intro s d d'; rfl
    | cons c cs ih =>
      intro s d d'
      cases c with
      | init l v rph t' =>
        have := ih (Strapdown.init s l v rph t').2 d d'
        rw [init_eval] at this
        simp only [run, call, init_eval, osimp]
        cases h1 : run { s with lla := some l, vNed := some v, tov := some t', RB2N := some (Attitude.euler2Dcm rph).2,
                                llaPrev := some l, vNedPrev := some v, RB2NPrev := some (Attitude.euler2Dcm rph).2, tovPrev := some t', dt := d } cs <;>
        cases h2 : run { s with lla := some l, vNed := some v, tov := some t', RB2N := some (Attitude.euler2Dcm rph).2,
                                llaPrev := some l, vNedPrev := some v, RB2NPrev := some (Attitude.euler2Dcm rph).2, tovPrev := some t', dt := d' } cs <;>
        simp_all [Except.map, osimp]
      | integ dV dTh t' =>
        have : integrate { s with dt := d } dV dTh t' = integrate { s with dt := d' } dV dTh t' := by
          simp only [integrate, keepPrev]
          cases s.lla <;> simp only [rd, osimp]
          cases s.vNed <;> simp only [osimp]
          cases s.RB2N <;> simp only [osimp]
          cases s.tov <;> simp only [osimp, stamp, rd]
        simp only [run, call, this]
  exact key (.init lla vNed rph t :: cs) { s₁ with dt := none } s₁.dt s₂.dt |>.trans rfl

end NavFuse.Props
