import Verif.Props.Geodesy

/-! # Property C100: the navigation equations are Newton's law seen from the rotating earth -/

namespace NavFuse.Props
open Matrix Spec Gravity NavUtils Rotations

/-- the earth's angular velocity in ECEF (and inertial) coordinates -/
noncomputable def earthSpin : V3 ℝ := ![0, 0, earthRate]

/-- position in the inertial frame that coincides with ECEF at time zero -/
noncomputable def inertialPos (rE : ℝ → V3 ℝ) (t : ℝ) : V3 ℝ := rotZ (earthRate * t) *ᵥ rE t

theorem hasDerivAt_v3 {f : ℝ → V3 ℝ} {f' : V3 ℝ} {t : ℝ} (h : ∀ i, HasDerivAt (fun τ => f τ i) (f' i) t) : HasDerivAt f f' t :=
  hasDerivAt_pi.2 h

/-- derivative of a vector seen from the inertial frame -/
theorem hasDerivAt_spin {r : ℝ → V3 ℝ} {u : V3 ℝ} {t : ℝ} (h : HasDerivAt r u t) :
    HasDerivAt (fun τ => rotZ (earthRate * τ) *ᵥ r τ) (rotZ (earthRate * t) *ᵥ (u + earthSpin ⨯₃ r t)) t := by
  have hi := hasDerivAt_pi.1 h
  have hl : HasDerivAt (fun τ => earthRate * τ) earthRate t := by simpa using (hasDerivAt_id t).const_mul earthRate
  have hc := (Real.hasDerivAt_cos (earthRate * t)).comp t hl
  have hs := (Real.hasDerivAt_sin (earthRate * t)).comp t hl
  refine hasDerivAt_v3 fun i => ?_
  fin_cases i
  · have := (hc.mul (hi 0)).sub (hs.mul (hi 1))
    refine (this.congr_deriv ?_).congr_of_eventuallyEq (Filter.Eventually.of_forall fun τ => ?_)
    · simp [rotZ, mulVec, dotProduct, Fin.sum_univ_three, crossProduct, earthSpin]; ring
    · simp [rotZ, mulVec, dotProduct, Fin.sum_univ_three]; ring
  · have := (hs.mul (hi 0)).add (hc.mul (hi 1))
    refine (this.congr_deriv ?_).congr_of_eventuallyEq (Filter.Eventually.of_forall fun τ => ?_)
    · simp [rotZ, mulVec, dotProduct, Fin.sum_univ_three, crossProduct, earthSpin]; ring
    · simp [rotZ, mulVec, dotProduct, Fin.sum_univ_three]
  · refine ((hi 2).congr_deriv ?_).congr_of_eventuallyEq (Filter.Eventually.of_forall fun τ => ?_)
    · simp [rotZ, mulVec, dotProduct, Fin.sum_univ_three, crossProduct, earthSpin]
    · simp [rotZ, mulVec, dotProduct, Fin.sum_univ_three]

/-- derivative of the ECEF velocity `C v` along the navigation equations -/
theorem hasDerivAt_ecefVel {lat lon : ℝ → ℝ} {v : ℝ → V3 ℝ} {t la lo : ℝ} {w : V3 ℝ} (h1 : HasDerivAt lat la t) (h2 : HasDerivAt lon lo t)
    (h3 : HasDerivAt v (w - ((2 : ℝ) • earthVec (lat t) + transportVec (lat t) la lo) ⨯₃ v t) t) :
    HasDerivAt (fun τ => ned2ecef (lat τ) (lon τ) *ᵥ v τ)
      (ned2ecef (lat t) (lon t) *ᵥ w - (2 : ℝ) • (earthSpin ⨯₃ (ned2ecef (lat t) (lon t) *ᵥ v t))) t := by
  have hi := hasDerivAt_pi.1 h3
  have hc := (Real.hasDerivAt_cos (lat t)).comp t h1
  have hs := (Real.hasDerivAt_sin (lat t)).comp t h1
  have hcl := (Real.hasDerivAt_cos (lon t)).comp t h2
  have hsl := (Real.hasDerivAt_sin (lon t)).comp t h2
  have e1 := Real.sin_sq_add_cos_sq (lat t)
  have e2 := Real.sin_sq_add_cos_sq (lon t)
  refine hasDerivAt_v3 fun i => ?_
  fin_cases i
  · have := (((hs.mul hcl).neg.mul (hi 0)).sub (hsl.mul (hi 1))).sub ((hc.mul hcl).mul (hi 2))
    refine (this.congr_deriv ?_).congr_of_eventuallyEq (Filter.Eventually.of_forall fun τ => ?_)
    · simp [ned2ecef, dotProduct, Fin.sum_univ_three, crossProduct, earthSpin, earthVec, transportVec]
      grind
    · simp [ned2ecef, mulVec, dotProduct, Fin.sum_univ_three]; ring
  · have := (((hs.mul hsl).neg.mul (hi 0)).add (hcl.mul (hi 1))).sub ((hc.mul hsl).mul (hi 2))
    refine (this.congr_deriv ?_).congr_of_eventuallyEq (Filter.Eventually.of_forall fun τ => ?_)
    · simp [ned2ecef, dotProduct, Fin.sum_univ_three, crossProduct, earthSpin, earthVec, transportVec]
      grind
    · simp [ned2ecef, mulVec, dotProduct, Fin.sum_univ_three]; ring
  · have := (hc.mul (hi 0)).sub (hs.mul (hi 2))
    refine (this.congr_deriv ?_).congr_of_eventuallyEq (Filter.Eventually.of_forall fun τ => ?_)
    · simp [ned2ecef, dotProduct, Fin.sum_univ_three, crossProduct, earthSpin, earthVec, transportVec]
      grind
    · simp [ned2ecef, mulVec, dotProduct, Fin.sum_univ_three]; ring

/-- C100. Let a vehicle's state `y = (lat, lon, alt, vN, vE, vD)` follow the rates returned by `strapdownDynamics` during a time interval, for a
specific force `s` (NED, may vary) and for the gravity a plumb line shows at its position: gravitation `G` (ECEF, may vary) minus the
centripetal acceleration of the place. Then its position in inertial space, obtained from the code's own `lla2Ecef`, satisfies Newton's law
exactly: its second derivative is specific force plus gravitation. All Coriolis, transport-rate and curvature terms are therefore right. -/
theorem C100_newton (a b dt : ℝ) (hdt : dt ≠ 0) (y f : ℝ → Fin 6 → ℝ) (s G : ℝ → V3 ℝ) (f0 : Fin 6 → ℝ) (r0 : V3 ℝ) (C0 : M3 ℝ)
    (rE : ℝ → V3 ℝ) (hrE : ∀ t, rE t = (lla2Ecef (y t 0) (y t 1) (y t 2) r0).2)
    (C : ℝ → M3 ℝ) (hC : ∀ t, C t = (computeRNed2Ecef (y t 0) (y t 1) C0).2)
    (hreg : ∀ t ∈ Set.Ioo a b, |y t 0| < Real.pi / 2 ∧ |y t 1| < Real.pi ∧ RegularPos (y t 0) (y t 2))
    (hf : ∀ t ∈ Set.Ioo a b, strapdownDynamics ⟨6, y t⟩ ⟨6, f0⟩ (dt • s t) ((C t)ᵀ *ᵥ (G t - earthSpin ⨯₃ (earthSpin ⨯₃ rE t))) dt
      = .ok (true, ⟨6, f t⟩))
    (hy : ∀ t ∈ Set.Ioo a b, HasDerivAt y (f t) t) :
    ∃ vel : ℝ → V3 ℝ, ∀ t ∈ Set.Ioo a b, HasDerivAt (inertialPos rE) (vel t) t
      ∧ HasDerivAt vel (rotZ (earthRate * t) *ᵥ (C t *ᵥ s t + G t)) t := by
  have hCe : ∀ t ∈ Set.Ioo a b, C t = ned2ecef (y t 0) (y t 1) := fun t ht => by
    rw [hC, ned2ecef_R ⟨(hreg t ht).1.le, (hreg t ht).2.1.le⟩]
  have hfe : ∀ t ∈ Set.Ioo a b, f t = navRates (s t) ((C t)ᵀ *ᵥ (G t - earthSpin ⨯₃ (earthSpin ⨯₃ rE t))) (y t) := fun t ht => by
    have h := hf t ht
    rw [dyn_eval, dyn_R, smul_smul, inv_mul_cancel₀ hdt, one_smul] at h
    injection h with h
    injection h with _ h
    injection h with _ h
    exact h.symm
  have hnhds : ∀ t ∈ Set.Ioo a b, ∀ᶠ τ in nhds t, τ ∈ Set.Ioo a b := fun t ht => isOpen_Ioo.mem_nhds ht
  have hr1 : ∀ t ∈ Set.Ioo a b, HasDerivAt rE (ned2ecef (y t 0) (y t 1) *ᵥ ![y t 3, y t 4, y t 5]) t := fun t ht => by
    have hd := hasDerivAt_pi.1 (hy t ht)
    have hk := C43_kinematics (fun τ => y τ 0) (fun τ => y τ 1) (fun τ => y τ 2) t ![y t 3, y t 4, y t 5] (dt • s t) _ dt f0 (f t)
      (hreg t ht).1 (hreg t ht).2.1 (hreg t ht).2.2
      (by
        have e : (![y t 0, y t 1, y t 2, ![y t 3, y t 4, y t 5] 0, ![y t 3, y t 4, y t 5] 1, ![y t 3, y t 4, y t 5] 2] : Fin 6 → ℝ) = y t := by
          ext i; fin_cases i <;> rfl
        rw [e]; exact hf t ht) (hd 0) (hd 1) (hd 2) r0 C0
    rw [← hC, hCe t ht] at hk
    exact hk.congr_of_eventuallyEq (Filter.Eventually.of_forall hrE)
  refine ⟨fun t => rotZ (earthRate * t) *ᵥ (ned2ecef (y t 0) (y t 1) *ᵥ ![y t 3, y t 4, y t 5] + earthSpin ⨯₃ rE t), fun t ht => ⟨hasDerivAt_spin (hr1 t ht), ?_⟩⟩
  have hd := hasDerivAt_pi.1 (hy t ht)
  have hv : HasDerivAt (fun τ => (![y τ 3, y τ 4, y τ 5] : V3 ℝ))
      ((s t + (C t)ᵀ *ᵥ (G t - earthSpin ⨯₃ (earthSpin ⨯₃ rE t))) -
        ((2 : ℝ) • earthVec (y t 0) + transportVec (y t 0) (f t 0) (f t 1)) ⨯₃ ![y t 3, y t 4, y t 5]) t := by
    refine hasDerivAt_v3 fun i => ?_
    have e3 := hd 3; have e4 := hd 4; have e5 := hd 5
    rw [hfe t ht] at e3 e4 e5 ⊢
    fin_cases i
    · exact e3
    · exact e4
    · exact e5
  have h1 := hasDerivAt_ecefVel (hd 0) (hd 1) hv
  have hx : HasDerivAt (fun τ => earthSpin ⨯₃ rE τ) (earthSpin ⨯₃ (ned2ecef (y t 0) (y t 1) *ᵥ ![y t 3, y t 4, y t 5])) t := by
    have hi := hasDerivAt_pi.1 (hr1 t ht)
    refine hasDerivAt_v3 fun i => ?_
    fin_cases i
    · simpa [crossProduct, earthSpin] using (hi 1).const_mul (-earthRate)
    · simpa [crossProduct, earthSpin] using (hi 0).const_mul earthRate
    · simpa [crossProduct, earthSpin] using hasDerivAt_const t (0 : ℝ)
  refine (hasDerivAt_spin (h1.add hx)).congr_deriv ?_
  congr 1
  have hrot := (ned2ecef_isRot (y t 0) (y t 1)).1
  rw [hCe t ht, mulVec_add, mulVec_mulVec, hrot, one_mulVec, Pi.add_apply, map_add, two_smul]
  abel

/-- A vehicle travelling east along the equator at constant speed, held on its path by a suitable specific force, meets the hypotheses for any
gravitation. -/
example (G : ℝ → V3 ℝ) (c : ℝ) (hc : |c| < 1) : ∃ (y f : ℝ → Fin 6 → ℝ) (s : ℝ → V3 ℝ), y 0 4 = c * (primeVertical 0 + 10) ∧ ∀ t ∈ Set.Ioo (-1 : ℝ) 1,
    (|y t 0| < Real.pi / 2 ∧ |y t 1| < Real.pi ∧ RegularPos (y t 0) (y t 2))
    ∧ strapdownDynamics ⟨6, y t⟩ ⟨6, 0⟩ ((1 : ℝ) • s t) ((computeRNed2Ecef (y t 0) (y t 1) 0).2ᵀ *ᵥ
        (G t - earthSpin ⨯₃ (earthSpin ⨯₃ (lla2Ecef (y t 0) (y t 1) (y t 2) 0).2))) 1 = .ok (true, ⟨6, f t⟩)
    ∧ HasDerivAt y (f t) t := by
  have hN : primeVertical 0 + 10 ≠ 0 := (add_pos (primeVertical_pos 0) (by norm_num)).ne'
  set v := c * (primeVertical 0 + 10) with hv
  refine ⟨fun t => ![0, c * t, 10, 0, v, 0], fun _ => ![0, c, 0, 0, 0, 0],
    fun t => ((2 : ℝ) • earthVec 0 + transportVec 0 0 c) ⨯₃ ![0, v, 0] - (computeRNed2Ecef (0 : ℝ) (c * t) 0).2ᵀ *ᵥ
        (G t - earthSpin ⨯₃ (earthSpin ⨯₃ (lla2Ecef (0 : ℝ) (c * t) 10 0).2)), rfl, fun t ht => ⟨⟨?_, ?_, ?_⟩, ?_, ?_⟩⟩
  · simpa using Real.pi_pos
  · have : |c * t| ≤ 1 * 1 := by
      rw [abs_mul]; exact mul_le_mul hc.le (abs_le.2 ⟨ht.1.le, ht.2.le⟩) (abs_nonneg _) zero_le_one
    simp only [Matrix.cons_val]
    linarith [Real.pi_gt_three]
  · show RegularPos 0 10
    exact ⟨by simp, (add_pos (meridian_pos 0) (by norm_num)).ne', hN⟩
  · rw [dyn_eval, dyn_R]
    simp only [one_smul, inv_one, Matrix.cons_val]
    congr 3
    ext i; fin_cases i <;> simp [navRates, posRates, velRates, hv, hN]
  · refine hasDerivAt_pi.2 fun i => ?_
    fin_cases i
    · exact hasDerivAt_const _ _
    · simpa using (hasDerivAt_id t).const_mul c
    all_goals exact hasDerivAt_const _ _

end NavFuse.Props
