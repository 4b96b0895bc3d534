import Verif.Lemmas.AttitudeEval

/-! # C34-C38: Euler angles, dimension checks of the attitude functions -/

set_option linter.unusedSectionVars false
set_option linter.unusedSimpArgs false
set_option linter.unusedTactic false
set_option linter.unreachableTactic false

namespace NavFuse.Props
open Matrix NavFuse.Spec NavFuse.Attitude NavFuse.XR

theorem euler_R (e : V3 ℝ) : euler2Dcm e = (true, (bodyToNed (e 0) (e 1) (e 2))ᵀ) := by
  simp only [euler2Dcm, rsimp, bodyToNed, transpose_mul]
  congr 1
  rw [← Matrix.mul_assoc]
  congr 1
  · congr 1
    · ext i j; fin_cases i <;> fin_cases j <;> simp [rotX]
    · ext i j; fin_cases i <;> fin_cases j <;> simp [rotY]
  · ext i j; fin_cases i <;> fin_cases j <;> simp [rotZ]

/-- the nine entries -/
theorem bodyToNed_tr (r p h : ℝ) : (bodyToNed r p h)ᵀ =
    !![Real.cos p * Real.cos h, Real.cos p * Real.sin h, -Real.sin p;
       Real.sin r * Real.sin p * Real.cos h - Real.cos r * Real.sin h, Real.sin r * Real.sin p * Real.sin h + Real.cos r * Real.cos h, Real.sin r * Real.cos p;
       Real.cos r * Real.sin p * Real.cos h + Real.sin r * Real.sin h, Real.cos r * Real.sin p * Real.sin h - Real.sin r * Real.cos h, Real.cos r * Real.cos p] := by
  ext i j
  fin_cases i <;> fin_cases j <;> simp [bodyToNed, rotX, rotY, rotZ, mul_apply, Fin.sum_univ_three] <;> ring

theorem bodyToNed_isRot (r p h : ℝ) : IsRot (bodyToNed r p h) := ((isRot_rotZ h).mul (isRot_rotY p)).mul (isRot_rotX r)

/-! ## C34 -/

/-- C34. For all angles `euler2Dcm` succeeds with a proper rotation matrix. -/
theorem C34_euler_is_rotation (e : V3 ℝ) : (euler2Dcm e).1 = true ∧ IsRot (euler2Dcm e).2 := by
  rw [euler_R]; exact ⟨rfl, (bodyToNed_isRot _ _ _).transpose⟩

/-- C34 (periodicity in each angle). -/
theorem C34_periodic (e : V3 ℝ) (k : Fin 3 → ℤ) : euler2Dcm (fun i => e i + k i * (2 * Real.pi)) = euler2Dcm e := by
  rw [euler_R, euler_R, bodyToNed_tr, bodyToNed_tr]
  simp only [Real.sin_add_int_mul_two_pi, Real.cos_add_int_mul_two_pi]

/-- C34 (finite results for finite angles). -/
theorem C34_finite (e : V3 ℝ) : euler2Dcm (finV e) = (true, finM (bodyToNed (e 0) (e 1) (e 2))ᵀ) := by
  have h := euler_R e
  simp only [euler2Dcm, rsimp, Prod.mk.injEq, true_and] at h
  rw [← h]
  simp only [euler2Dcm, xsimp]
  congr 1
  rw [← X_mmul, ← X_mmul]
  congr 1
  · congr 1
    · ext i j; fin_cases i <;> fin_cases j <;> simp [xsimp]
    · ext i j; fin_cases i <;> fin_cases j <;> simp [xsimp]
  · ext i j; fin_cases i <;> fin_cases j <;> simp [xsimp]

/-! ## C35 -/

/-- C35 is false for the code: for a level vehicle with any heading not due north or south, the returned "body to NED" matrix does not map the
forward axis to the heading direction, but to its mirror image. (Full claim: it maps the forward axis to `(cos ψ, sin ψ, 0)`.) -/
theorem C35_forward_axis_fails (ψ : ℝ) (h : Real.sin ψ ≠ 0) :
    (euler2Dcm ![0, 0, ψ]).2 *ᵥ ![1, 0, 0] = ![Real.cos ψ, -Real.sin ψ, 0]
    ∧ (euler2Dcm ![0, 0, ψ]).2 *ᵥ ![1, 0, 0] ≠ ![Real.cos ψ, Real.sin ψ, 0] := by
  have h1 : (euler2Dcm ![0, 0, ψ]).2 *ᵥ ![1, 0, 0] = ![Real.cos ψ, -Real.sin ψ, 0] := by
    rw [euler_R, bodyToNed_tr]
    ext i; fin_cases i <;> simp [mulVec, dotProduct, Fin.sum_univ_three]
  refine ⟨h1, fun h2 => h ?_⟩
  rw [h1] at h2
  have := congrFun h2 1
  simp at this
  linarith

example : Real.sin (Real.pi / 2) ≠ 0 := by simp

/-- C35, what does hold: the returned matrix is the inverse (transpose) of the documented one, i.e. it maps NED to body. (Full claim: it maps body to
NED; missing: the transposition.) -/
theorem C35_maps_ned_to_body_partial (e : V3 ℝ) (v : V3 ℝ) :
    (euler2Dcm e).2 *ᵥ (bodyToNed (e 0) (e 1) (e 2) *ᵥ v) = v ∧ (euler2Dcm e).2ᵀ = bodyToNed (e 0) (e 1) (e 2) := by
  rw [euler_R, mulVec_mulVec, (bodyToNed_isRot _ _ _).tr_mul, one_mulVec]
  exact ⟨rfl, transpose_transpose _⟩

/-- the specification's body-to-NED matrix does point the forward axis of a level vehicle along the heading -/
example (ψ : ℝ) : bodyToNed 0 0 ψ *ᵥ ![1, 0, 0] = ![Real.cos ψ, Real.sin ψ, 0] := by
  rw [← transpose_transpose (bodyToNed 0 0 ψ), bodyToNed_tr]
  ext i; fin_cases i <;> simp [mulVec, dotProduct, Fin.sum_univ_three]

/-! ## C37 (needed for C36) -/

/-- the code at ℝ -/
theorem dcm2_R (R : M3 ℝ) (e : V3 ℝ) : dcm2Euler R e =
    if |R 0 0| < 1e-9 ∨ |R 2 2| < 1e-9 ∨ 1 < R 0 2 ∨ R 0 2 < -1 then (false, e)
    else (true, ![Real.arctan (R 1 2 / R 2 2), -Real.arcsin (R 0 2),
      if Real.arctan (R 0 1 / R 0 0) < 0 then Real.arctan (R 0 1 / R 0 0) + Real.pi else Real.arctan (R 0 1 / R 0 0)]) := by
  simp only [dcm2Euler, rsimp, Bool.or_eq_true]
  by_cases h1 : |R 0 0| < 1e-9 ∨ |R 2 2| < 1e-9
  · have h1' := h1
    norm_num at h1 h1'
    rw [if_pos (by norm_num; exact h1), if_pos (by rcases h1 with h | h <;> norm_num <;> tauto)]
  · by_cases h2 : 1 < R 0 2 ∨ R 0 2 < -1
    · rw [if_neg (by norm_num at h1 ⊢; exact h1), if_pos h2, if_pos (by tauto)]
    · have h3 : ¬ (|R 0 0| < 1e-9 ∨ |R 2 2| < 1e-9 ∨ 1 < R 0 2 ∨ R 0 2 < -1) := by tauto
      rw [if_neg (by norm_num at h1 ⊢; exact h1), if_neg h2, if_neg h3]

/-- C37, what does hold: the exact set of rejected matrices, with the output untouched. For rotations the last two conditions never apply, and gimbal lock
(pitch ±90°) is always rejected. (Full claim: nothing but gimbal lock is rejected; missing: see `C37_heading_east_fails`.) -/
theorem C37_rejection_partial (R : M3 ℝ) (e : V3 ℝ) :
    ((dcm2Euler R e).1 = false ↔ |R 0 0| < 1e-9 ∨ |R 2 2| < 1e-9 ∨ 1 < R 0 2 ∨ R 0 2 < -1)
    ∧ ((dcm2Euler R e).1 = false → (dcm2Euler R e).2 = e)
    ∧ (IsRot R → ((dcm2Euler R e).1 = false ↔ |R 0 0| < 1e-9 ∨ |R 2 2| < 1e-9))
    ∧ (IsRot R → |R 0 2| = 1 → (dcm2Euler R e).1 = false) := by
  have key : (dcm2Euler R e).1 = false ↔ |R 0 0| < 1e-9 ∨ |R 2 2| < 1e-9 ∨ 1 < R 0 2 ∨ R 0 2 < -1 := by
    rw [dcm2_R]; split_ifs with h
    · simpa using h
    · simpa using h
  refine ⟨key, ?_, fun hR => ?_, fun hR h1 => ?_⟩
  · intro h; rw [dcm2_R, if_pos (key.1 h)]
  · rw [key]
    have := hR.rows 0 0
    simp at this
    have h1 : ¬ 1 < R 0 2 := by intro h; nlinarith [mul_self_nonneg (R 0 0), mul_self_nonneg (R 0 1)]
    have h2 : ¬ R 0 2 < -1 := by intro h; nlinarith [mul_self_nonneg (R 0 0), mul_self_nonneg (R 0 1)]
    tauto
  · rw [key]
    have := hR.rows 0 0
    simp at this
    have h2 : R 0 2 * R 0 2 = 1 := by rw [← abs_mul_abs_self, h1]; norm_num
    have h0 : R 0 0 = 0 := by
      have := mul_self_nonneg (R 0 0); have := mul_self_nonneg (R 0 1)
      exact mul_self_eq_zero.1 (by linarith)
    left; rw [h0]; norm_num

/-- C37 is false for the code: a level vehicle heading due east is refused although it is nowhere near gimbal lock. -/
theorem C37_heading_east_fails (e : V3 ℝ) :
    dcm2Euler (euler2Dcm ![0, 0, Real.pi / 2]).2 e = (false, e) ∧ |(euler2Dcm ![0, 0, Real.pi / 2]).2 0 2| = 0 := by
  have h : (euler2Dcm ![0, 0, Real.pi / 2]).2 = (bodyToNed 0 0 (Real.pi / 2))ᵀ := by rw [euler_R]; simp
  rw [h, bodyToNed_tr]
  constructor
  · rw [dcm2_R, if_pos (Or.inl (by simp; norm_num))]
  · simp

/-- C37 (non-finite input): a matrix of NaNs passes every check. -/
theorem C37_nan_accepted_fails (e : V3 XR) : dcm2Euler (fun _ _ => nan) e = (true, fun _ => nan) := by
  have : (![nan, nan, nan] : V3 XR) = fun _ => nan := by ext i; fin_cases i <;> rfl
  simp [dcm2Euler, xsimp, this]

/-! ## C36 -/

theorem arctan_heading {ψ : ℝ} (h : Real.cos ψ ≠ 0) (h0 : 0 ≤ ψ) (hpi : ψ < Real.pi) :
    (if Real.arctan (Real.tan ψ) < 0 then Real.arctan (Real.tan ψ) + Real.pi else Real.arctan (Real.tan ψ)) = ψ := by
  rcases lt_trichotomy ψ (Real.pi / 2) with hlt | heq | hgt
  · rw [Real.arctan_tan (by linarith [Real.pi_pos]) hlt, if_neg (by linarith)]
  · rw [heq] at h; simp at h
  · have : Real.tan ψ = Real.tan (ψ - Real.pi) := (Real.tan_sub_pi ψ).symm
    rw [this, Real.arctan_tan (by linarith) (by linarith [Real.pi_pos]), if_pos (by linarith)]; ring

theorem dcm2_euler {r p h : ℝ} (hr : r ∈ Set.Ioo (-(Real.pi / 2)) (Real.pi / 2)) (hp : p ∈ Set.Ioo (-(Real.pi / 2)) (Real.pi / 2))
    (h11 : 1e-9 ≤ |Real.cos p * Real.cos h|) (h33 : 1e-9 ≤ |Real.cos r * Real.cos p|) (e : V3 ℝ) :
    dcm2Euler (euler2Dcm ![r, p, h]).2 e
      = (true, ![r, p, if Real.arctan (Real.tan h) < 0 then Real.arctan (Real.tan h) + Real.pi else Real.arctan (Real.tan h)]) := by
  have hcp : Real.cos p ≠ 0 := (Real.cos_pos_of_mem_Ioo hp).ne'
  have hcr : Real.cos r ≠ 0 := (Real.cos_pos_of_mem_Ioo hr).ne'
  have e1 : (euler2Dcm ![r, p, h]).2 = (bodyToNed r p h)ᵀ := by rw [euler_R]; simp
  rw [e1, bodyToNed_tr, dcm2_R]
  have hs1 := Real.neg_one_le_sin p
  have hs2 := Real.sin_le_one p
  rw [if_neg]
  · have t1 : Real.sin r * Real.cos p / (Real.cos r * Real.cos p) = Real.tan r := by rw [mul_div_mul_right _ _ hcp, Real.tan_eq_sin_div_cos]
    have t2 : Real.cos p * Real.sin h / (Real.cos p * Real.cos h) = Real.tan h := by rw [mul_div_mul_left _ _ hcp, Real.tan_eq_sin_div_cos]
    have t3 : -Real.arcsin (-Real.sin p) = p := by rw [Real.arcsin_neg, neg_neg, Real.arcsin_sin hp.1.le hp.2.le]
    simp [t1, t2, t3, Real.arctan_tan hr.1 hr.2, -Real.arcsin_neg]
  · simp
    refine ⟨?_, ?_, ?_, ?_⟩
    · simpa using h11
    · simpa using h33
    · linarith
    · linarith

/-- C36, what does hold. (Full claim: for every heading; missing: headings outside `[0, π)` and within about 1e-9 of due east.) Roll, pitch and
heading come back exactly. -/
theorem C36_angles_round_trip_partial (r p h : ℝ) (hr : r ∈ Set.Ioo (-(Real.pi / 2)) (Real.pi / 2)) (hp : p ∈ Set.Ioo (-(Real.pi / 2)) (Real.pi / 2))
    (hh : h ∈ Set.Ico 0 Real.pi) (h11 : 1e-9 ≤ |Real.cos p * Real.cos h|) (h33 : 1e-9 ≤ |Real.cos r * Real.cos p|) (e : V3 ℝ) :
    dcm2Euler (euler2Dcm ![r, p, h]).2 e = (true, ![r, p, h]) := by
  rw [dcm2_euler hr hp h11 h33, arctan_heading _ hh.1 hh.2]
  intro h0; rw [h0] at h11; norm_num at h11

/-- the hypotheses of C36 are met: heading 135 degrees, level -/
example : (3 * Real.pi / 4 : ℝ) ∈ Set.Ico 0 Real.pi ∧ (1e-9 : ℝ) ≤ |Real.cos 0 * Real.cos (3 * Real.pi / 4)| := by
  refine ⟨⟨by positivity, by linarith [Real.pi_pos]⟩, ?_⟩
  have : Real.cos (3 * Real.pi / 4) = -Real.cos (Real.pi / 4) := by rw [← Real.cos_pi_sub]; congr 1; ring
  rw [this, Real.cos_zero, one_mul, abs_neg, Real.cos_pi_div_four, abs_of_pos (by positivity)]
  have : (1 : ℝ) ≤ Real.sqrt 2 := Real.one_le_sqrt.2 (by norm_num)
  linarith

/-- C36 is false for the code: every westerly heading `ψ ∈ (-π, 0)` (with the same conditions on the other angles) comes back as `ψ + π`, the opposite
direction, and the matrix of the returned angles is not the matrix that was passed in. -/
theorem C36_westerly_heading_fails (r p h : ℝ) (hr : r ∈ Set.Ioo (-(Real.pi / 2)) (Real.pi / 2)) (hp : p ∈ Set.Ioo (-(Real.pi / 2)) (Real.pi / 2))
    (hh : h ∈ Set.Ioo (-Real.pi) 0) (h11 : 1e-9 ≤ |Real.cos p * Real.cos h|) (h33 : 1e-9 ≤ |Real.cos r * Real.cos p|) (e : V3 ℝ) :
    dcm2Euler (euler2Dcm ![r, p, h]).2 e = (true, ![r, p, h + Real.pi]) ∧ euler2Dcm ![r, p, h + Real.pi] ≠ euler2Dcm ![r, p, h] := by
  have hc : Real.cos h ≠ 0 := by intro h0; rw [h0] at h11; norm_num at h11
  have hcp := Real.cos_pos_of_mem_Ioo hp
  constructor
  · rw [dcm2_euler hr hp h11 h33]
    have := arctan_heading (ψ := h + Real.pi) (by rw [Real.cos_add_pi]; exact neg_ne_zero.2 hc) (by linarith [hh.1]) (by linarith [hh.2])
    rw [Real.tan_add_pi] at this
    rw [this]
  · intro heq
    rw [euler_R, euler_R, bodyToNed_tr, bodyToNed_tr] at heq
    have h00 : Real.cos p * Real.cos (h + Real.pi) = Real.cos p * Real.cos h := congrFun (congrFun (congrArg Prod.snd heq) 0) 0
    rw [Real.cos_add_pi] at h00
    exact mul_ne_zero hcp.ne' hc (by linarith)

/-- the roll formula recovers the direction of `(x, y)` when `x > 0` -/
theorem arctan_dir {x y D : ℝ} (hx : 0 < x) (hD : 0 < D) (h : D ^ 2 = x ^ 2 + y ^ 2) :
    Real.cos (Real.arctan (y / x)) * D = x ∧ Real.sin (Real.arctan (y / x)) * D = y := by
  have hs : Real.sqrt (1 + (y / x) ^ 2) = D / x := by
    rw [show 1 + (y / x) ^ 2 = (D / x) ^ 2 by rw [div_pow, div_pow, h]; field_simp, Real.sqrt_sq (by positivity)]
  rw [Real.cos_arctan, Real.sin_arctan, hs]
  constructor <;> field_simp

/-- the heading formula recovers the direction of `(x, y)` in the upper half plane -/
theorem heading_dir {x y D : ℝ} (hx : x ≠ 0) (hy : 0 < y ∨ (y = 0 ∧ 0 < x)) (hD : 0 < D) (h : D ^ 2 = x ^ 2 + y ^ 2) {t : ℝ}
    (ht : t = if Real.arctan (y / x) < 0 then Real.arctan (y / x) + Real.pi else Real.arctan (y / x)) :
    Real.cos t * D = x ∧ Real.sin t * D = y := by
  rcases lt_or_gt_of_ne hx with hneg | hpos
  · have hy' : 0 < y := by
      rcases hy with h | h
      · exact h
      · exact absurd h.2 (by linarith)
    have hlt : Real.arctan (y / x) < 0 := by rw [← Real.arctan_zero]; exact Real.arctan_strictMono (div_neg_of_pos_of_neg hy' hneg)
    have := arctan_dir (x := -x) (y := -y) (D := D) (by linarith) hD (by rw [h]; ring)
    rw [neg_div_neg_eq] at this
    rw [ht, if_pos hlt, Real.cos_add_pi, Real.sin_add_pi]
    constructor <;> linarith [this.1, this.2]
  · have hy' : 0 ≤ y := by
      rcases hy with h | h
      · exact h.le
      · exact h.1.ge
    have hge : ¬ Real.arctan (y / x) < 0 := by
      rw [not_lt, ← Real.arctan_zero]; exact Real.arctan_mono (div_nonneg hy' hpos.le)
    rw [ht, if_neg hge]
    exact arctan_dir hpos hD h

/-- C36 (matrix form), what does hold. (Full claim: for every rotation matrix that is accepted; missing: those with roll beyond ±90° and those pointing
west, i.e. `R 0 1 < 0`, or due south.) The matrix of the returned angles is the matrix passed in. -/
theorem C36_matrix_round_trip_partial (R : M3 ℝ) (hR : IsRot R) (h11 : 1e-9 ≤ |R 0 0|) (h33 : 1e-9 ≤ R 2 2)
    (heast : 0 < R 0 1 ∨ (R 0 1 = 0 ∧ 0 < R 0 0)) (e : V3 ℝ) :
    ∃ a, dcm2Euler R e = (true, a) ∧ euler2Dcm a = (true, R) := by
  obtain ⟨c00, c01, c02, c10, c11, c12, c20, c21, c22⟩ := hR.cof
  have r00 := hR.rows 0 0; have r01 := hR.rows 0 1; have r02 := hR.rows 0 2; have k22 := hR.cols 2 2
  simp at r00 r01 r02 k22
  have h00 : R 0 0 ≠ 0 := by intro h; rw [h] at h11; norm_num at h11
  have hr13 : -1 ≤ R 0 2 ∧ R 0 2 ≤ 1 := by
    constructor <;> nlinarith [mul_self_nonneg (R 0 0), mul_self_nonneg (R 0 1)]
  have h22 : 0 < R 2 2 := lt_of_lt_of_le (by norm_num) h33
  rw [dcm2_R, if_neg]
  swap
  · push Not
    refine ⟨h11, by rw [abs_of_pos h22]; exact h33, hr13.2, hr13.1⟩
  refine ⟨_, rfl, ?_⟩
  rw [euler_R]
  congr 1
  set hd := if Real.arctan (R 0 1 / R 0 0) < 0 then Real.arctan (R 0 1 / R 0 0) + Real.pi else Real.arctan (R 0 1 / R 0 0) with hhd
  simp only [cons_val_zero, cons_val_one, cons_val]
  -- pitch
  set D := Real.sqrt (1 - R 0 2 ^ 2) with hD
  have hDpos : 0 < D := Real.sqrt_pos.2 (by have := mul_self_pos.2 h00; nlinarith [mul_self_nonneg (R 0 1)])
  have hD2 : D ^ 2 = 1 - R 0 2 ^ 2 := Real.sq_sqrt (by nlinarith [mul_self_nonneg (R 0 0), mul_self_nonneg (R 0 1)])
  have hcp : Real.cos (-Real.arcsin (R 0 2)) = D := by rw [Real.cos_neg, Real.cos_arcsin]
  have hsp : Real.sin (-Real.arcsin (R 0 2)) = -R 0 2 := by rw [Real.sin_neg, Real.sin_arcsin hr13.1 hr13.2]
  obtain ⟨hcr, hsr⟩ := arctan_dir (y := R 1 2) h22 hDpos (by rw [hD2]; linear_combination -k22)
  obtain ⟨hch, hsh⟩ := heading_dir (D := D) h00 heast hDpos (by rw [hD2]; linear_combination -r00) hhd
  -- both matrices are rotations with the same first row and third column
  rw [bodyToNed_tr, hcp, hsp]
  generalize Real.cos hd = ch at *; generalize Real.sin hd = sh at *
  generalize Real.cos (Real.arctan (R 1 2 / R 2 2)) = cr at *; generalize Real.sin (Real.arctan (R 1 2 / R 2 2)) = sr at *
  have hDne : D ^ 2 ≠ 0 := by positivity
  have e21 : R 1 0 * D ^ 2 = -(R 0 0 * R 0 2 * R 1 2) - R 0 1 * R 2 2 := by
    linear_combination R 1 0 * (hD2 - r00) + R 0 0 * r01 + R 0 1 * c22
  have e22 : R 1 1 * D ^ 2 = -(R 0 1 * R 0 2 * R 1 2) + R 0 0 * R 2 2 := by
    linear_combination R 1 1 * (hD2 - r00) + R 0 1 * r01 - R 0 0 * c22
  have e31 : R 2 0 * D ^ 2 = -(R 0 0 * R 0 2 * R 2 2) + R 0 1 * R 1 2 := by
    linear_combination R 2 0 * (hD2 - r00) + R 0 0 * r02 - R 0 1 * c12
  have e32 : R 2 1 * D ^ 2 = -(R 0 1 * R 0 2 * R 2 2) - R 0 0 * R 1 2 := by
    linear_combination R 2 1 * (hD2 - r00) + R 0 1 * r02 + R 0 0 * c12
  ext i j
  fin_cases i <;> fin_cases j <;> simp
  · linarith
  · linarith
  · apply mul_right_cancel₀ hDne
    linear_combination (-(R 0 2) * ch * D) * hsr - R 0 2 * R 1 2 * hch - sh * D * hcr - R 2 2 * hsh - e21
  · apply mul_right_cancel₀ hDne
    linear_combination (-(R 0 2) * sh * D) * hsr - R 0 2 * R 1 2 * hsh + ch * D * hcr + R 2 2 * hch - e22
  · linarith
  · apply mul_right_cancel₀ hDne
    linear_combination (-(R 0 2) * ch * D) * hcr - R 0 2 * R 2 2 * hch + sh * D * hsr + R 1 2 * hsh - e31
  · apply mul_right_cancel₀ hDne
    linear_combination (-(R 0 2) * sh * D) * hcr - R 0 2 * R 2 2 * hsh - ch * D * hsr - R 1 2 * hch - e32
  · linarith

/-- non-vacuity: the rotation by 45 degrees about the vertical satisfies the hypotheses -/
example : IsRot (rotZ (-(Real.pi / 4))) ∧ (1e-9 : ℝ) ≤ |rotZ (-(Real.pi / 4)) 0 0| ∧ (1e-9 : ℝ) ≤ rotZ (-(Real.pi / 4)) 2 2
    ∧ 0 < rotZ (-(Real.pi / 4)) 0 1 := by
  have : (1 : ℝ) ≤ Real.sqrt 2 := Real.one_le_sqrt.2 (by norm_num)
  refine ⟨isRot_rotZ _, ?_, ?_, ?_⟩ <;> simp [rotZ]
  · rw [abs_of_pos (by positivity)]; linarith
  · norm_num

/-! ## C38 -/

section generic
variable {α : Type} [Add α] [Sub α] [Mul α] [Div α] [Neg α] [Flt α]

/-- C38. For every scalar arithmetic: each attitude conversion returns true exactly when both arguments have the right size, it then completes without
out-of-range access and the output keeps its size; otherwise it returns false and the output is unchanged. -/
theorem C38_attitude_dimensions (q p : DVec α) (R : DMat α) :
    (∃ b R', computeDcmFromQuaternion q R = .ok (b, R') ∧ (b = true ↔ q.n = 4 ∧ R.r = 3 ∧ R.c = 3) ∧ (R'.r = R.r ∧ R'.c = R.c) ∧ (b = false → R' = R))
    ∧ (∃ b q', computeQuaternionFromDcm R q = .ok (b, q') ∧ (b = true ↔ q.n = 4 ∧ R.r = 3 ∧ R.c = 3) ∧ q'.n = q.n ∧ (b = false → q' = q))
    ∧ (∃ b q', computeQuaternionFromRotationVec p q = .ok (b, q') ∧ (b = true ↔ p.n = 3 ∧ q.n = 4) ∧ q'.n = q.n ∧ (b = false → q' = q))
    ∧ (∃ b p', computeRotationVecFromQuaternion q p = .ok (b, p') ∧ (b = true ↔ p.n = 3 ∧ q.n = 4) ∧ p'.n = p.n ∧ (b = false → p' = p))
    ∧ (∃ b R', buildQuaternionEquivalent q R = .ok (b, R') ∧ (b = true ↔ q.n = 4 ∧ R.r = 4 ∧ R.c = 4) ∧ (R'.r = R.r ∧ R'.c = R.c)
        ∧ (b = false → R' = R)) := by
  obtain ⟨nq, q⟩ := q
  obtain ⟨np, p⟩ := p
  obtain ⟨r, c, R⟩ := R
  refine ⟨?_, ?_, ?_, ?_, ?_⟩
  · by_cases h : nq = 4 ∧ r = 3 ∧ c = 3
    · obtain ⟨rfl, rfl, rfl⟩ := h
      exact ⟨_, _, dcm_eval _ _, by simp, by simp, by simp⟩
    · refine ⟨false, ⟨r, c, R⟩, ?_, by simpa using h, by simp, by simp⟩
      simp only [computeDcmFromQuaternion]
      split_ifs <;> first | rfl | (exfalso; omega)
  · by_cases h : nq = 4 ∧ r = 3 ∧ c = 3
    · obtain ⟨rfl, rfl, rfl⟩ := h
      exact ⟨_, _, quat_eval _ _, by simp, by simp, by simp⟩
    · refine ⟨false, ⟨nq, q⟩, ?_, by simpa using h, by simp, by simp⟩
      simp only [computeQuaternionFromDcm]
      split_ifs <;> first | rfl | (exfalso; omega)
  · by_cases h : np = 3 ∧ nq = 4
    · obtain ⟨rfl, rfl⟩ := h
      exact ⟨_, _, rvq_eval _ _, by simp, by simp, by simp⟩
    · refine ⟨false, ⟨nq, q⟩, ?_, by simpa using h, by simp, by simp⟩
      simp only [computeQuaternionFromRotationVec]
      split_ifs <;> first | rfl | (exfalso; omega)
  · by_cases h : np = 3 ∧ nq = 4
    · obtain ⟨rfl, rfl⟩ := h
      exact ⟨_, _, qrv_eval _ _, by simp, by simp, by simp⟩
    · refine ⟨false, ⟨np, p⟩, ?_, by simpa using h, by simp, by simp⟩
      simp only [computeRotationVecFromQuaternion]
      split_ifs <;> first | rfl | (exfalso; omega)
  · by_cases h : nq = 4 ∧ r = 4 ∧ c = 4
    · obtain ⟨rfl, rfl, rfl⟩ := h
      exact ⟨_, _, qeq_eval _ _, by simp, by simp, by simp⟩
    · refine ⟨false, ⟨r, c, R⟩, ?_, by simpa using h, by simp, by simp⟩
      simp only [buildQuaternionEquivalent]
      split_ifs <;> first | rfl | (exfalso; omega)
end generic

end NavFuse.Props
