import Verif.Lemmas.PvaNedEval
import Verif.Props.Init

/-! # Property C64: error dynamics in the north-east-down frame

The error equations are `errorRate` (`Verif/Spec/ErrorModel.lean`); `C64_spec_is_navigation` ties them to `dv/dt = s + g - (2 Ω + ω) × v`. -/

set_option linter.unusedSimpArgs false
set_option linter.unnecessarySeqFocus false

namespace NavFuse.Props.Pva
open Matrix NavFuse.Pva NavFuse.Spec NavFuse.XR

/-- The accelerations `sphAcc` of the specification are the navigation equations: along a trajectory of latitude, longitude and height `q`, with derivatives `q'` differentiable at
`t`, the velocity obeys `dv/dt = s + g - (2 Ω + ω) × v` at `t` exactly if the second derivatives of `q` are `sphAcc`. -/
theorem C64_spec_is_navigation (R : ℝ) (s g acc : V3 ℝ) (q q' : ℝ → V3 ℝ) (t : ℝ) (hq : ∀ i, HasDerivAt (fun τ => q τ i) (q' t i) t)
    (hq' : ∀ i, HasDerivAt (fun τ => q' τ i) (acc i) t) (hc : Real.cos (q t 0) ≠ 0) (hr : R + q t 2 ≠ 0) :
    (∀ i, HasDerivAt (fun τ => sphVel R (q τ 0) (q τ 2) (q' τ) i)
      ((s + g - ((2 : ℝ) • earthVec (q t 0) + transportVec (q t 0) (q' t 0) (q' t 1)) ⨯₃ sphVel R (q t 0) (q t 2) (q' t)) i) t) ↔
    acc = sphAcc R s g (q' t) (q t 0) (q t 2) := by
  have d0 : HasDerivAt (fun τ => sphVel R (q τ 0) (q τ 2) (q' τ) 0) (q' t 2 * q' t 0 + (R + q t 2) * acc 0) t :=
    ((hq 2).const_add R).mul (hq' 0)
  have d1 : HasDerivAt (fun τ => sphVel R (q τ 0) (q τ 2) (q' τ) 1)
      ((q' t 2 * Real.cos (q t 0) + (R + q t 2) * (-Real.sin (q t 0) * q' t 0)) * q' t 1 + (R + q t 2) * Real.cos (q t 0) * acc 1) t :=
    (((hq 2).const_add R).mul (hq 0).cos).mul (hq' 1)
  have d2 : HasDerivAt (fun τ => sphVel R (q τ 0) (q τ 2) (q' τ) 2) (-acc 2) t := (hq' 2).neg
  have hsc := Real.sin_sq_add_cos_sq (q t 0)
  constructor
  · intro h
    have e0 := d0.unique (h 0)
    have e1 := d1.unique (h 1)
    have e2 := d2.unique (h 2)
    simp [sphVel, earthVec, transportVec, crossProduct] at e0 e1 e2
    ext i
    fin_cases i
    · simp [sphAcc]; field_simp; linear_combination e0
    · simp [sphAcc, Real.tan_eq_sin_div_cos]; field_simp; linear_combination e1
    · simp [sphAcc]; linear_combination -e2
  · rintro rfl i
    fin_cases i
    · refine d0.congr_deriv ?_
      simp [sphVel, earthVec, transportVec, crossProduct, sphAcc]; field_simp; ring
    · refine d1.congr_deriv ?_
      simp [sphVel, earthVec, transportVec, crossProduct, sphAcc, Real.tan_eq_sin_div_cos]; field_simp; ring
    · refine d2.congr_deriv ?_
      simp [sphVel, earthVec, transportVec, crossProduct, sphAcc]; ring

section jacobian
variable (R : ℝ) (s : V3 ℝ) (gN gE : ℝ) (gD : ℝ → ℝ) (rate : V3 ℝ) (φ h : ℝ) (d : Fin 9 → ℝ)

theorem line (c e : ℝ) : HasDerivAt (fun t : ℝ => c + t * e) e 0 := by
  simpa using ((hasDerivAt_id (0 : ℝ)).mul_const e).const_add c

/-- derivative of the attitude-error rates -/
theorem jac_att :
    (HasDerivAt (fun t : ℝ => errorRate R s gN gE gD rate φ h (t • d) 0 0)
      (-(earthRate + rate 1) * Real.sin φ * d 1 + rate 0 * d 2 + Real.cos φ * d 4 - (earthRate + rate 1) * Real.sin φ * d 6) 0) ∧
    (HasDerivAt (fun t : ℝ => errorRate R s gN gE gD rate φ h (t • d) 0 1)
      ((earthRate + rate 1) * Real.sin φ * d 0 + (earthRate + rate 1) * Real.cos φ * d 2 - d 3) 0) ∧
    (HasDerivAt (fun t : ℝ => errorRate R s gN gE gD rate φ h (t • d) 0 2)
      (-rate 0 * d 0 - (earthRate + rate 1) * Real.cos φ * d 1 - Real.sin φ * d 4 - (earthRate + rate 1) * Real.cos φ * d 6) 0) := by
  have hφ := line φ (d 6)
  have h0 := line (rate 0) (d 3)
  have h1 := line (rate 1) (d 4)
  refine ⟨?_, ?_, ?_⟩
  · have e : (fun t : ℝ => errorRate R s gN gE gD rate φ h (t • d) 0 0) = fun t =>
        (0 + t * (-(earthRate + rate 1) * Real.sin φ * d 1 + rate 0 * d 2)) + (earthRate + (rate 1 + t * d 4)) * Real.cos (φ + t * d 6)
          - (earthRate + rate 1) * Real.cos φ := by
      funext t
      simp [errorRate, nedRate, earthVec, transportVec, crossProduct, part]; ring
    rw [e]
    refine (((line 0 _).add ((h1.const_add earthRate).mul hφ.cos)).sub_const _).congr_deriv ?_
    simp only [zero_mul, add_zero]; ring
  · have e : (fun t : ℝ => errorRate R s gN gE gD rate φ h (t • d) 0 1) = fun t =>
        (0 + t * ((earthRate + rate 1) * Real.sin φ * d 0 + (earthRate + rate 1) * Real.cos φ * d 2 - d 3)) := by
      funext t
      simp [errorRate, nedRate, earthVec, transportVec, crossProduct, part]; ring
    rw [e]
    exact line 0 _
  · have e : (fun t : ℝ => errorRate R s gN gE gD rate φ h (t • d) 0 2) = fun t =>
        (0 + t * (-rate 0 * d 0 - (earthRate + rate 1) * Real.cos φ * d 1)) - (earthRate + (rate 1 + t * d 4)) * Real.sin (φ + t * d 6)
          + (earthRate + rate 1) * Real.sin φ := by
      funext t
      simp [errorRate, nedRate, earthVec, transportVec, crossProduct, part]; ring
    rw [e]
    refine (((line 0 _).sub ((h1.const_add earthRate).mul hφ.sin)).add_const _).congr_deriv ?_
    simp only [zero_mul, add_zero]; ring

/-- derivative of the error of the acceleration in latitude -/
theorem jac_lat (hr : R + h ≠ 0) :
    HasDerivAt (fun t : ℝ => errorRate R s gN gE gD rate φ h (t • d) 1 0)
      ((s 1 * d 2 - s 2 * d 1) / (R + h) - 2 * rate 2 / (R + h) * d 3 - 2 * (rate 1 + earthRate) * (Real.sin φ * Real.cos φ) * d 4
        - 2 * rate 0 / (R + h) * d 5 - rate 1 * (rate 1 + 2 * earthRate) * (Real.cos φ ^ 2 - Real.sin φ ^ 2) * d 6
        - (s 0 + gN - 2 * rate 2 * rate 0) / (R + h) ^ 2 * d 8) 0 := by
  have hφ := line φ (d 6)
  have hh := (line h (d 8)).const_add R
  have h0 := line (rate 0) (d 3)
  have h1 := line (rate 1) (d 4)
  have h2 := line (rate 2) (d 5)
  have e : (fun t : ℝ => errorRate R s gN gE gD rate φ h (t • d) 1 0) = fun t =>
      ((s 0 + gN + t * (s 1 * d 2 - s 2 * d 1)) - 2 * (rate 2 + t * d 5) * (rate 0 + t * d 3)) / (R + (h + t * d 8))
        - (rate 1 + t * d 4) * ((rate 1 + t * d 4) + 2 * earthRate) * (Real.sin (φ + t * d 6) * Real.cos (φ + t * d 6))
        - sphAcc R s ![gN, gE, gD h] rate φ h 0 := by
    funext t
    simp only [errorRate, sphAcc, part, cons_val_zero, cons_val_one, Pi.sub_apply, Pi.add_apply, Pi.smul_apply, smul_eq_mul, crossProduct, LinearMap.mk₂_apply]
    simp
    ring
  rw [e]
  refine (((((line _ _).sub ((h2.const_mul 2).mul h0)).div hh (by simpa using hr)).sub ((h1.mul (h1.add_const _)).mul (hφ.sin.mul hφ.cos))).sub_const _).congr_deriv ?_
  simp only [Pi.mul_apply, Pi.sub_apply, Pi.add_apply, Pi.pow_apply, Pi.div_apply, zero_mul, add_zero]
  field_simp
  ring

/-- derivative of the error of the acceleration in longitude -/
theorem jac_lon (hr : R + h ≠ 0) (hc : Real.cos φ ≠ 0) :
    HasDerivAt (fun t : ℝ => errorRate R s gN gE gD rate φ h (t • d) 1 1)
      ((s 2 * d 0 - s 0 * d 2) / ((R + h) * Real.cos φ) + 2 * (rate 1 + earthRate) * Real.tan φ * d 3
        + 2 * (rate 0 * Real.tan φ - rate 2 / (R + h)) * d 4 - 2 * (rate 1 + earthRate) / (R + h) * d 5
        + ((s 1 + gE) * Real.sin φ / ((R + h) * Real.cos φ ^ 2) + 2 * (rate 1 + earthRate) * rate 0 / Real.cos φ ^ 2) * d 6
        + (-(s 1 + gE) / ((R + h) ^ 2 * Real.cos φ) + 2 * (rate 1 + earthRate) * rate 2 / (R + h) ^ 2) * d 8) 0 := by
  have hφ := line φ (d 6)
  have hh := (line h (d 8)).const_add R
  have h0 := line (rate 0) (d 3)
  have h1 := (line (rate 1) (d 4)).add_const earthRate
  have h2 := line (rate 2) (d 5)
  have e : (fun t : ℝ => errorRate R s gN gE gD rate φ h (t • d) 1 1) = fun t =>
      (s 1 + gE + t * (s 2 * d 0 - s 0 * d 2)) / ((R + (h + t * d 8)) * Real.cos (φ + t * d 6))
        + 2 * (rate 1 + t * d 4 + earthRate) * (rate 0 + t * d 3) * (Real.sin (φ + t * d 6) / Real.cos (φ + t * d 6))
        - 2 * (rate 1 + t * d 4 + earthRate) * (rate 2 + t * d 5) / (R + (h + t * d 8))
        - sphAcc R s ![gN, gE, gD h] rate φ h 1 := by
    funext t
    simp only [errorRate, sphAcc, part, cons_val_zero, cons_val_one, Pi.sub_apply, Pi.add_apply, Pi.smul_apply, smul_eq_mul, crossProduct, LinearMap.mk₂_apply,
      Real.tan_eq_sin_div_cos]
    simp
    ring
  rw [e]
  have hr' : R + (h + 0 * d 8) ≠ 0 := by simpa using hr
  have hc' : Real.cos (φ + 0 * d 6) ≠ 0 := by simpa using hc
  refine (((((line _ _).div (hh.mul hφ.cos) (mul_ne_zero hr' hc')).add (((h1.const_mul 2).mul h0).mul (hφ.sin.div hφ.cos hc'))).sub
    (((h1.const_mul 2).mul h2).div hh hr')).sub_const _).congr_deriv ?_
  simp only [Pi.mul_apply, Pi.sub_apply, Pi.add_apply, Pi.pow_apply, Pi.div_apply, zero_mul, add_zero, Real.tan_eq_sin_div_cos]
  have hs : Real.sin φ ^ 2 = 1 - Real.cos φ ^ 2 := by linarith [Real.sin_sq_add_cos_sq φ]
  field_simp
  ring_nf
  simp only [hs]
  ring

/-- derivative of the error of the acceleration in height -/
theorem jac_alt (G : ℝ) (hG : HasDerivAt gD (-G) h) :
    HasDerivAt (fun t : ℝ => errorRate R s gN gE gD rate φ h (t • d) 1 2)
      (-(s 0 * d 1 - s 1 * d 0) + 2 * (R + h) * rate 0 * d 3 + 2 * (R + h) * (rate 1 + earthRate) * Real.cos φ ^ 2 * d 4
        - 2 * (R + h) * rate 1 * (rate 1 + 2 * earthRate) * (Real.sin φ * Real.cos φ) * d 6
        + (rate 0 ^ 2 + rate 1 * (rate 1 + 2 * earthRate) * Real.cos φ ^ 2 + G) * d 8) 0 := by
  have hφ := line φ (d 6)
  have hh := (line h (d 8)).const_add R
  have h0 := line (rate 0) (d 3)
  have h1 := line (rate 1) (d 4)
  have hg : HasDerivAt (fun t : ℝ => gD (h + t * d 8)) (-G * d 8) 0 :=
    HasDerivAt.comp (0 : ℝ) (h₂ := gD) (by simpa using hG) (line h (d 8))
  have e : (fun t : ℝ => errorRate R s gN gE gD rate φ h (t • d) 1 2) = fun t =>
      (-s 2 + t * (-(s 0 * d 1 - s 1 * d 0))) - gD (h + t * d 8) + (R + (h + t * d 8)) * (rate 0 + t * d 3) ^ 2
        + (R + (h + t * d 8)) * (rate 1 + t * d 4) * ((rate 1 + t * d 4) + 2 * earthRate) * Real.cos (φ + t * d 6) ^ 2
        - sphAcc R s ![gN, gE, gD h] rate φ h 2 := by
    funext t
    simp only [errorRate, sphAcc, part, cons_val_zero, cons_val_one, Pi.sub_apply, Pi.add_apply, Pi.smul_apply, smul_eq_mul, crossProduct, LinearMap.mk₂_apply]
    simp
    ring
  rw [e]
  refine (((((line _ _).sub hg).add (hh.mul (h0.pow 2))).add (((hh.mul h1).mul (h1.add_const _)).mul (hφ.cos.pow 2))).sub_const _).congr_deriv ?_
  simp only [Pi.mul_apply, Pi.sub_apply, Pi.add_apply, Pi.pow_apply, Pi.div_apply, zero_mul, add_zero]
  ring

end jacobian

/-- A point at which the north-east-down error equations are regular. -/
structure RegularNed (φ h : ℝ) : Prop extends RegularPos φ h where
  gauss : gaussRadius φ + h ≠ 0

/-- Every point off the poles at or above the ellipsoid is regular. -/
theorem regularNed_of_nonneg {φ h : ℝ} (hc : Real.cos φ ≠ 0) (hh : 0 ≤ h) : RegularNed φ h where
  pole := hc
  merid := (add_pos_of_pos_of_nonneg (NavUtils.meridian_pos φ) hh).ne'
  prime := (add_pos_of_pos_of_nonneg (NavUtils.primeVertical_pos φ) hh).ne'
  gauss := (add_pos_of_pos_of_nonneg (Real.sqrt_pos.2 (mul_pos (NavUtils.primeVertical_pos φ) (NavUtils.meridian_pos φ))) hh).ne'

/-- the scale matrix of `nedErrorDynamics`: velocity from the rates of latitude, longitude and height, on the ellipsoid -/
noncomputable def ellD (φ h : ℝ) : M3 ℝ := diagonal ![meridian φ + h, (primeVertical φ + h) * Real.cos φ, -1]

theorem nedD_X (p : V3 ℝ) : nedD (finV p) = finM (ellD (p 0) (p 2)) := by
  ext i j
  fin_cases i <;> fin_cases j <;> simp [nedD, ellD, radM_X, radN_X, xsimp, diagonal]

theorem ellD_det (φ h : ℝ) (hr : RegularPos φ h) : (ellD φ h).det ≠ 0 := by
  rw [ellD, det_diagonal, Fin.prod_univ_three]
  simp [hr.pole, hr.merid, hr.prime]

theorem ned_X (s : V3 ℝ) (Γ Q : M3 ℝ) (p rate acc : V3 ℝ) (hr : RegularNed (p 0) (p 2)) (F0 G0 : Matrix (Fin 9) (Fin 9) XR) :
    nedErrorDynamics (finV s) (finM Γ) (finM Q) (finV p) (finV rate) (finV acc) ⟨9, 9, F0⟩ ⟨9, 9, G0⟩ =
      .ok (true, ⟨9, 9, finM (nedF s Γ p rate acc)⟩,
        ⟨9, 9, finM (blk (forceG Q ((ellD (p 0) (p 2))⁻¹ * Q) (ellD (p 0) (p 2))⁻¹))⟩) := by
  rw [ned_eval, nedF_X _ _ _ _ _ hr.pole hr.gauss, nedD_X, Align.inv3_X _ (ellD_det _ _ hr.toRegularPos), X_mmul, ← blk_X]
  have e : forceG (finM Q) (finM ((ellD (p 0) (p 2))⁻¹ * Q)) (finM (ellD (p 0) (p 2))⁻¹) =
      fun i j => finM (forceG Q ((ellD (p 0) (p 2))⁻¹ * Q) (ellD (p 0) (p 2))⁻¹ i j) := by
    funext i j
    fin_cases i <;> fin_cases j <;> simp [forceG, xsimp, rsimp]
  rw [e]

/-- the term that the entry (5, 9) of the matrix in the code lacks -/
noncomputable def f59Term (φ h : ℝ) (rate : V3 ℝ) : ℝ := 2 * (rate 1 + earthRate - 1) * rate 0 * Real.tan φ / (gaussRadius φ + h)

theorem nedF_jacobian (s : V3 ℝ) (Γ : M3 ℝ) (p rate acc : V3 ℝ) (gN gE : ℝ) (gD : ℝ → ℝ) (hc : Real.cos (p 0) ≠ 0) (hr : gaussRadius (p 0) + p 2 ≠ 0)
    (hG : HasDerivAt gD (-Γ 2 2) (p 2)) (hacc : acc = sphAcc (gaussRadius (p 0)) s ![gN, gE, gD (p 2)] rate (p 0) (p 2)) (d : Fin 9 → ℝ) (k i : Fin 3) :
    HasDerivAt (fun t : ℝ => errorRate (gaussRadius (p 0)) s gN gE gD rate (p 0) (p 2) (t • d) k i)
      (part k (nedF s Γ p rate acc *ᵥ d) i + if k = 1 ∧ i = 1 then f59Term (p 0) (p 2) rate * d 8 else 0) 0 := by
  have a0 : acc 0 = _ := congrFun hacc 0
  have a1 : acc 1 = _ := congrFun hacc 1
  simp only [sphAcc, cons_val_zero, cons_val_one, Real.tan_eq_sin_div_cos] at a0 a1
  have hs : Real.sin (p 0) ^ 2 = 1 - Real.cos (p 0) ^ 2 := by linarith [Real.sin_sq_add_cos_sq (p 0)]
  generalize hR : gaussRadius (p 0) = R at *
  fin_cases k
  · fin_cases i
    · refine (jac_att R s gN gE gD rate (p 0) (p 2) d).1.congr_deriv ?_
      simp [part, nedF, mulVec, dotProduct, Fin.sum_univ_succ, rsimp, NavUtils.wE_R, radPhi_R, hR]; ring
    · refine (jac_att R s gN gE gD rate (p 0) (p 2) d).2.1.congr_deriv ?_
      simp [part, nedF, mulVec, dotProduct, Fin.sum_univ_succ, rsimp, NavUtils.wE_R, radPhi_R, hR]; ring
    · refine (jac_att R s gN gE gD rate (p 0) (p 2) d).2.2.congr_deriv ?_
      simp [part, nedF, mulVec, dotProduct, Fin.sum_univ_succ, rsimp, NavUtils.wE_R, radPhi_R, hR]; ring
  · fin_cases i
    · refine (jac_lat R s gN gE gD rate (p 0) (p 2) d hr).congr_deriv ?_
      simp [part, nedF, mulVec, dotProduct, Fin.sum_univ_succ, rsimp, NavUtils.wE_R, radPhi_R, hR, a0, Real.sin_two_mul, Real.cos_two_mul, hs, -neg_add_rev, div_neg]
      field_simp; ring
    · refine (jac_lon R s gN gE gD rate (p 0) (p 2) d hr hc).congr_deriv ?_
      simp [part, nedF, mulVec, dotProduct, Fin.sum_univ_succ, rsimp, NavUtils.wE_R, radPhi_R, hR, a1, Real.tan_eq_sin_div_cos, f59Term]
      field_simp
      ring_nf
      simp only [hs]
      ring
    · refine (jac_alt R s gN gE gD rate (p 0) (p 2) d _ hG).congr_deriv ?_
      simp [part, nedF, mulVec, dotProduct, Fin.sum_univ_succ, rsimp, NavUtils.wE_R, radPhi_R, hR, Real.sin_two_mul]
      ring
  · have e : (fun t : ℝ => errorRate R s gN gE gD rate (p 0) (p 2) (t • d) 2 i) = fun t => 0 + t * part 1 d i := by
      funext t; simp [errorRate, part]
    refine (e ▸ line 0 (part 1 d i) : HasDerivAt _ _ _).congr_deriv ?_
    fin_cases i <;> simp [part, nedF, mulVec, dotProduct, Fin.sum_univ_succ, rsimp]

/-- C64 (partial): at every regular point, for finite inputs, the matrices are finite. When the acceleration input is that of the navigation equations, `F` is the derivative of the error
equations in every direction, in eight of the nine rows. In the remaining row, the acceleration in longitude, the derivative has the additional term `f59Term · δh`. Missing: that
term, so the code's entry (5, 9) is wrong (`C64_f59_fails`). -/
theorem C64_ned_jacobian_partial (s : V3 ℝ) (Γ Q : M3 ℝ) (p rate acc : V3 ℝ) (gN gE : ℝ) (gD : ℝ → ℝ) (hr : RegularNed (p 0) (p 2))
    (hG : HasDerivAt gD (-Γ 2 2) (p 2)) (hacc : acc = sphAcc (gaussRadius (p 0)) s ![gN, gE, gD (p 2)] rate (p 0) (p 2))
    (F0 G0 : Matrix (Fin 9) (Fin 9) XR) :
    ∃ F G : Matrix (Fin 9) (Fin 9) ℝ,
      nedErrorDynamics (finV s) (finM Γ) (finM Q) (finV p) (finV rate) (finV acc) ⟨9, 9, F0⟩ ⟨9, 9, G0⟩ = .ok (true, ⟨9, 9, finM F⟩, ⟨9, 9, finM G⟩) ∧
      ∀ (d : Fin 9 → ℝ) (k i : Fin 3), HasDerivAt (fun t : ℝ => errorRate (gaussRadius (p 0)) s gN gE gD rate (p 0) (p 2) (t • d) k i)
        (part k (F *ᵥ d) i + if k = 1 ∧ i = 1 then f59Term (p 0) (p 2) rate * d 8 else 0) 0 :=
  ⟨_, _, ned_X s Γ Q p rate acc hr F0 G0, nedF_jacobian s Γ p rate acc gN gE gD hr.pole hr.gauss hG hacc⟩

/-- C64 is false as stated: whenever the vehicle moves north or south away from the equator (and the longitude does not change at one radian per second less the earth rate), the
matrix of the code is not the derivative: an error in height has the wrong effect on the acceleration in longitude. -/
theorem C64_f59_fails (s : V3 ℝ) (Γ Q : M3 ℝ) (p rate acc : V3 ℝ) (gN gE : ℝ) (gD : ℝ → ℝ) (hr : RegularNed (p 0) (p 2))
    (hG : HasDerivAt gD (-Γ 2 2) (p 2)) (hacc : acc = sphAcc (gaussRadius (p 0)) s ![gN, gE, gD (p 2)] rate (p 0) (p 2))
    (hlat : Real.sin (p 0) ≠ 0) (h0 : rate 0 ≠ 0) (h1 : rate 1 + earthRate ≠ 1) (F0 G0 : Matrix (Fin 9) (Fin 9) XR) :
    ¬ ∃ F G : Matrix (Fin 9) (Fin 9) ℝ,
      nedErrorDynamics (finV s) (finM Γ) (finM Q) (finV p) (finV rate) (finV acc) ⟨9, 9, F0⟩ ⟨9, 9, G0⟩ = .ok (true, ⟨9, 9, finM F⟩, ⟨9, 9, finM G⟩) ∧
      ∀ d : Fin 9 → ℝ, HasDerivAt (fun t : ℝ => errorRate (gaussRadius (p 0)) s gN gE gD rate (p 0) (p 2) (t • d) 1 1) (part 1 (F *ᵥ d) 1) 0 := by
  rintro ⟨F, G, e, hd⟩
  rw [ned_X s Γ Q p rate acc hr F0 G0] at e
  simp only [Except.ok.injEq, Prod.mk.injEq, true_and, DMat.mk.injEq, heq_eq_eq] at e
  have eF : nedF s Γ p rate acc = F := by
    ext i j
    have := congrFun (congrFun e.1 i) j
    simpa [finM_apply] using this
  subst eF
  have := (hd (Pi.single 8 1)).unique (nedF_jacobian s Γ p rate acc gN gE gD hr.pole hr.gauss hG hacc (Pi.single 8 1) 1 1)
  simp only [and_self, if_true, Pi.single_eq_same, mul_one, left_eq_add, f59Term] at this
  have ht : Real.tan (p 0) ≠ 0 := by rw [Real.tan_eq_sin_div_cos]; exact div_ne_zero hlat hr.pole
  refine absurd this (div_ne_zero (mul_ne_zero (mul_ne_zero (mul_ne_zero two_ne_zero ?_) h0) ht) hr.gauss)
  exact sub_ne_zero.2 h1

/-- C64: the disturbances enter as `(-Q u₀, D⁻¹ (Q u₁ + u₂), 0)`, where `D` turns rates of latitude, longitude and height into velocity on the ellipsoid. -/
theorem C64_ned_forcing (s : V3 ℝ) (Γ Q : M3 ℝ) (p rate acc : V3 ℝ) (hr : RegularNed (p 0) (p 2)) (F0 G0 : Matrix (Fin 9) (Fin 9) XR) :
    ∃ F G : Matrix (Fin 9) (Fin 9) ℝ,
      nedErrorDynamics (finV s) (finM Γ) (finM Q) (finV p) (finV rate) (finV acc) ⟨9, 9, F0⟩ ⟨9, 9, G0⟩ = .ok (true, ⟨9, 9, finM F⟩, ⟨9, 9, finM G⟩) ∧
      ∀ u, part 0 (G *ᵥ u) = -(Q *ᵥ part 0 u) ∧ posRates (p 0) (p 2) (Q *ᵥ part 1 u + part 2 u) = part 1 (G *ᵥ u) ∧ part 2 (G *ᵥ u) = 0 := by
  refine ⟨_, _, ned_X s Γ Q p rate acc hr F0 G0, fun u => ?_⟩
  have hinv : (ellD (p 0) (p 2))⁻¹ = diagonal ![(meridian (p 0) + p 2)⁻¹, ((primeVertical (p 0) + p 2) * Real.cos (p 0))⁻¹, -1] := by
    refine inv_eq_right_inv ?_
    rw [ellD, diagonal_mul_diagonal, ← diagonal_one]
    congr 1
    ext i
    fin_cases i
    · simp [hr.merid]
    · have := mul_ne_zero hr.prime hr.pole
      simpa using mul_inv_cancel₀ this
    · simp
  simp only [blk_mulVec]
  refine ⟨by simp [forceG, rsimp, neg_mulVec], ?_, by simp [forceG, rsimp]⟩
  have : forceG Q ((ellD (p 0) (p 2))⁻¹ * Q) (ellD (p 0) (p 2))⁻¹ 1 0 *ᵥ part 0 u + forceG Q ((ellD (p 0) (p 2))⁻¹ * Q) (ellD (p 0) (p 2))⁻¹ 1 1 *ᵥ part 1 u +
      forceG Q ((ellD (p 0) (p 2))⁻¹ * Q) (ellD (p 0) (p 2))⁻¹ 1 2 *ᵥ part 2 u = (ellD (p 0) (p 2))⁻¹ *ᵥ (Q *ᵥ part 1 u + part 2 u) := by
    simp [forceG, rsimp, mulVec_add, mulVec_mulVec]
  rw [this, hinv]
  ext i
  fin_cases i <;> simp [posRates, mulVec_diagonal, div_eq_inv_mul]

/-! The hypotheses can be met: 45° latitude, ground level, gravity falling linearly with height. -/
example : RegularNed (Real.pi / 4) 0 ∧ Real.sin (Real.pi / 4) ≠ 0 := by
  refine ⟨regularNed_of_nonneg ?_ le_rfl, ?_⟩
  · rw [Real.cos_pi_div_four]; positivity
  · rw [Real.sin_pi_div_four]; positivity
example : HasDerivAt (fun h : ℝ => 9.8 - 3e-6 * h) (-(!![0, 0, 0; 0, 0, 0; 0, 0, 3e-6] : M3 ℝ) 2 2) 0 := by
  refine (((hasDerivAt_id (0 : ℝ)).const_mul 3e-6).const_sub 9.8).congr_deriv ?_
  simp

end NavFuse.Props.Pva
