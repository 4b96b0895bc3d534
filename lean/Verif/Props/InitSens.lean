import Verif.Props.Init
import Verif.Props.AttitudeRnd

/-! # Property C116: sensitivity of coarse alignment to sensor errors -/

namespace NavFuse.Props.Align
open Matrix NavFuse.Init NavFuse.XR NavFuse.Spec NavFuse.Props

theorem len3_smul (c : ℝ) (v : V3 ℝ) : len3 (c • v) = |c| * len3 v := by
  rw [len3_norm, len3_norm, WithLp.toLp_smul, norm_smul, Real.norm_eq_abs]

theorem cross_mulVec_rot {R : M3 ℝ} (hR : IsRot R) (v : V3 ℝ) : len3 (Rᵀ *ᵥ v) = len3 v := by
  rw [mulVec_transpose]; exact hR.len3_vecMul v

/-- (the cross product, written out) -/
def cr (a w : V3 ℝ) : V3 ℝ := ![a 1 * w 2 - a 2 * w 1, a 2 * w 0 - a 0 * w 2, a 0 * w 1 - a 1 * w 0]

theorem len3_cr (a w : V3 ℝ) : len3 (cr a w) ≤ len3 a * len3 w := by
  refine abs_le_of_sq_le_sq' ?_ (mul_nonneg (len3_nonneg' _) (len3_nonneg' _)) |>.2
  rw [mul_pow, len3_sq, len3_sq, len3_sq]
  simp only [cr, cons_val_zero, cons_val_one, cons_val]
  nlinarith [sq_nonneg (a 0 * w 0 + a 1 * w 1 + a 2 * w 2)]

/-- the rows of the result in terms of the readings -/
theorem coarse_rows (lat wE g : ℝ) (a w : V3 ℝ) (hg : g ≠ 0) (hw : wE ≠ 0) (hc : Real.cos lat ≠ 0) :
    ((rA lat wE g)⁻¹ * rB a w) 0 = (wE * Real.cos lat)⁻¹ • (w + (-(wE * Real.sin lat * g⁻¹)) • a)
    ∧ ((rA lat wE g)⁻¹ * rB a w) 1 = (-(g * wE * Real.cos lat)⁻¹) • cr a w
    ∧ ((rA lat wE g)⁻¹ * rB a w) 2 = (-g⁻¹) • a := by
  have key : (rA lat wE g)⁻¹ * rB a w = of ![(wE * Real.cos lat)⁻¹ • (w + (-(wE * Real.sin lat * g⁻¹)) • a), (-(g * wE * Real.cos lat)⁻¹) • cr a w, (-g⁻¹) • a] := by
    have hA := det_rA hg hw hc
    have e : rB a w = rA lat wE g * of ![(wE * Real.cos lat)⁻¹ • (w + (-(wE * Real.sin lat * g⁻¹)) • a), (-(g * wE * Real.cos lat)⁻¹) • cr a w, (-g⁻¹) • a] := by
      ext i j
      fin_cases i <;> fin_cases j <;> simp [rA, rB, cr, mul_apply, Fin.sum_univ_three] <;> field_simp <;> ring
    rw [e, nonsing_inv_mul_cancel_left _ _ hA]
  rw [key]
  exact ⟨rfl, rfl, rfl⟩

/-- C116. Coarse alignment with sensor errors. A vehicle at rest with body-to-NED rotation `R`; its accelerometers are wrong by `δa`, its gyroscopes by
`δw`. The returned matrix then differs from `R` in the down row by exactly `|δa| / g`, in the north row by at most `|δw| / (wE |cos lat|)
+ |tan lat| |δa| / g`, in the east row by at most `|δw| / (wE |cos lat|) + |δa| / (g |cos lat|) + |δa| |δw| / (g wE |cos lat|)` (lengths of row
differences). The north row's bound is attained: without accelerometer error it is an equality. -/
theorem C116_alignment_errors (R : M3 ℝ) (hR : IsRot R) (lat wE g : ℝ) (hg : 0 < g) (hw : 0 < wE) (hc : Real.cos lat ≠ 0) (δa δw : V3 ℝ) :
    ∃ X : M3 ℝ, coarseAttitudeAlignment (fin lat) (fin wE) (fin g) (finV (Rᵀ *ᵥ restForce g + δa)) (finV (Rᵀ *ᵥ earthRate lat wE + δw)) = (true, finM X)
      ∧ len3 (X 2 - R 2) = len3 δa / g
      ∧ len3 (X 0 - R 0) ≤ len3 δw / (wE * |Real.cos lat|) + |Real.tan lat| * len3 δa / g
      ∧ len3 (X 1 - R 1) ≤ len3 δw / (wE * |Real.cos lat|) + len3 δa / (g * |Real.cos lat|) + len3 δa * len3 δw / (g * wE * |Real.cos lat|)
      ∧ (δa = 0 → len3 (X 0 - R 0) = len3 δw / (wE * |Real.cos lat|)) := by
  have hg' := hg.ne'
  have hw' := hw.ne'
  have hC : 0 < |Real.cos lat| := abs_pos.2 hc
  have h0 := C57_coarse_alignment R hR lat wE g hg' hw' hc
  rw [coarse_X lat wE g _ _ hg' hw' hc] at h0
  have hX0 : (rA lat wE g)⁻¹ * rB (Rᵀ *ᵥ restForce g) (Rᵀ *ᵥ earthRate lat wE) = R := by
    ext i j
    exact (fin_inj _ _).1 (congrFun (congrFun (congrArg Prod.snd h0) i) j)
  obtain ⟨r0, r1, r2⟩ := coarse_rows lat wE g (Rᵀ *ᵥ restForce g) (Rᵀ *ᵥ earthRate lat wE) hg' hw' hc
  rw [hX0] at r0 r1 r2
  set f := Rᵀ *ᵥ restForce g with hf
  set ω := Rᵀ *ᵥ earthRate lat wE with hω
  have lf : len3 f = g := by
    rw [hf, cross_mulVec_rot hR, len3]
    simp [restForce, Real.sqrt_sq hg.le]
  have lω : len3 ω = wE := by
    rw [hω, cross_mulVec_rot hR, len3]
    have : (earthRate lat wE 0) ^ 2 + (earthRate lat wE 1) ^ 2 + (earthRate lat wE 2) ^ 2 = wE ^ 2 := by
      simp [earthRate]; linear_combination wE ^ 2 * Real.sin_sq_add_cos_sq lat
    rw [this, Real.sqrt_sq hw.le]
  clear_value f ω
  obtain ⟨s0, s1, s2⟩ := coarse_rows lat wE g (f + δa) (ω + δw) hg' hw' hc
  have e0 : ((rA lat wE g)⁻¹ * rB (f + δa) (ω + δw)) 0 - R 0 = (wE * Real.cos lat)⁻¹ • δw + (-(Real.tan lat * g⁻¹)) • δa := by
    rw [s0, r0, Real.tan_eq_sin_div_cos]
    ext i
    simp only [Pi.sub_apply, Pi.smul_apply, Pi.add_apply, smul_eq_mul]
    field_simp
    ring
  refine ⟨_, coarse_X lat wE g _ _ hg' hw' hc, ?_, ?_, ?_, ?_⟩
  · have e : ((rA lat wE g)⁻¹ * rB (f + δa) (ω + δw)) 2 - R 2 = (-g⁻¹) • δa := by rw [s2, r2, smul_add]; abel
    rw [e, len3_smul, abs_neg, abs_of_pos (inv_pos.2 hg), inv_mul_eq_div]
  · rw [e0]
    refine (len3_add _ _).trans (le_of_eq ?_)
    rw [len3_smul, len3_smul, abs_neg, abs_mul, abs_inv, abs_inv, abs_mul, abs_of_pos hg, abs_of_pos hw]
    field_simp
  · have e : ((rA lat wE g)⁻¹ * rB (f + δa) (ω + δw)) 1 - R 1 = (-(g * wE * Real.cos lat)⁻¹) • ((cr f δw + cr δa ω) + cr δa δw) := by
      rw [s1, r1, ← smul_sub]
      congr 1
      ext i
      fin_cases i <;> simp [cr] <;> ring
    rw [e, len3_smul, abs_neg, abs_inv, abs_mul, abs_mul, abs_of_pos hg, abs_of_pos hw]
    have l1 := len3_add (cr f δw + cr δa ω) (cr δa δw)
    have l2 := len3_add (cr f δw) (cr δa ω)
    have c1 := len3_cr f δw
    have c2 := len3_cr δa ω
    have c3 := len3_cr δa δw
    rw [lf] at c1
    rw [lω] at c2
    have : len3 δw / (wE * |Real.cos lat|) + len3 δa / (g * |Real.cos lat|) + len3 δa * len3 δw / (g * wE * |Real.cos lat|)
        = (g * wE * |Real.cos lat|)⁻¹ * (g * len3 δw + len3 δa * wE + len3 δa * len3 δw) := by
      field_simp
    rw [this]
    exact mul_le_mul_of_nonneg_left (by linarith) (by positivity)
  · rintro rfl
    rw [e0, smul_zero, add_zero, len3_smul, abs_inv, abs_mul, abs_of_pos hw, inv_mul_eq_div]

/-- an attitude with all three angles, 45 degrees north, accelerometers wrong by a milli-g and gyroscopes by a thousandth of the Earth's rate -/
example : IsRot (bodyToNed 0.1 0.2 0.3) ∧ (0 : ℝ) < 9.8 ∧ (0 : ℝ) < 7.292115e-5 ∧ Real.cos (Real.pi / 4) ≠ 0
    ∧ len3 (![0.0098, 0, 0] : V3 ℝ) / 9.8 = 1 / 1000 := by
  refine ⟨((isRot_rotZ _).mul (isRot_rotY _)).mul (isRot_rotX _), by norm_num, by norm_num, ?_, ?_⟩
  · rw [Real.cos_pi_div_four]; positivity
  · have : len3 (![0.0098, 0, 0] : V3 ℝ) = 0.0098 := by
      rw [len3]; simp; exact Real.sqrt_sq (by norm_num)
    rw [this]; norm_num

end NavFuse.Props.Align
