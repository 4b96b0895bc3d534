import Verif.Props.Init
import Verif.Props.StrapdownNav

/-! # Property C127: from coarse alignment to the navigator -/

namespace NavFuse.Props
open Matrix NavFuse.Spec NavFuse.Strapdown NavFuse.Attitude NavFuse.Init NavFuse.XR Align

/-- on finite matrices that are accepted, `dcm2Euler` returns the same angles with and without special values -/
theorem dcm2_X (R : M3 ℝ) (h11 : 1e-9 ≤ |R 0 0|) (h33 : 1e-9 ≤ |R 2 2|) (h13 : -1 ≤ R 0 2 ∧ R 0 2 ≤ 1) (e : V3 XR) (e' : V3 ℝ) :
    dcm2Euler (finM R) e = (true, finV (dcm2Euler R e').2) := by
  have n11 : R 0 0 ≠ 0 := by intro h; rw [h] at h11; norm_num at h11
  have n33 : R 2 2 ≠ 0 := by intro h; rw [h] at h33; norm_num at h33
  rw [dcm2_R, if_neg (by push Not; exact ⟨h11, h33, h13.2, h13.1⟩)]
  simp only [dcm2Euler, finM, of_apply, X_abs, X_lit, X_lt, fin_div _ _ n11, fin_div _ _ n33, X_atan, X_asin _ h13, X_pi, xsimp, rsimp]
  have b : ∀ x y : ℝ, y ≤ x → Flt.lt x y = false := fun x y h => by rw [Bool.eq_false_iff, ne_eq, R_lt]; exact not_lt.2 h
  rw [b _ _ h11, b _ _ h33, b _ _ h13.2, b _ _ h13.1]
  simp only [Bool.or_self, Bool.false_eq_true, if_false]
  congr 1
  ext i
  fin_cases i
  · rfl
  · rfl
  · by_cases h : Real.arctan (R 0 1 / R 0 0) < 0 <;> simp [h, finV, xsimp]

/-- what happens between the alignment of a resting vehicle and navigation: coarse alignment from the accelerometer and gyroscope readings, Euler angles
from the matrix, `initialize` with these angles -/
noncomputable def handover (s : St XR) (lla vNed : V3 XR) (t : Int) (lat wE g : ℝ) (a w : V3 ℝ) (e : V3 XR) : Bool × Bool × Bool × St XR :=
  let A := coarseAttitudeAlignment (fin lat) (fin wE) (fin g) (finV a) (finV w)
  let E := dcm2Euler A.2 e
  let I := Strapdown.init s lla vNed E.2 t
  (A.1, E.1, I.1, I.2)

theorem handover_rot (s : St XR) (lla vNed : V3 XR) (t : Int) (lat wE g : ℝ) (e : V3 XR) (R R' : M3 ℝ) (hR : IsRot R) (hg : g ≠ 0) (hw : wE ≠ 0)
    (hc : Real.cos lat ≠ 0) (h11 : 1e-9 ≤ |R 0 0|) (h33 : 1e-9 ≤ R 2 2)
    (h' : ∃ a, dcm2Euler R 0 = (true, a) ∧ euler2Dcm a = (true, R')) :
    ∃ s', handover s lla vNed t lat wE g (Rᵀ *ᵥ restForce g) (Rᵀ *ᵥ earthRate lat wE) e = (true, true, true, s') ∧ s'.RB2N = some (finM R') := by
  have h13 : -1 ≤ R 0 2 ∧ R 0 2 ≤ 1 := by
    have := hR.rows 0 0
    simp at this
    constructor <;> nlinarith [mul_self_nonneg (R 0 0), mul_self_nonneg (R 0 1)]
  have p33 : 0 < R 2 2 := lt_of_lt_of_le (by norm_num) h33
  obtain ⟨a, ha, hR'⟩ := h'
  refine ⟨(Strapdown.init s lla vNed (finV a) t).2, ?_, ?_⟩
  · simp only [handover]
    rw [C57_coarse_alignment R hR lat wE g hg hw hc, dcm2_X R h11 (by rw [abs_of_pos p33]; exact h33) h13 e 0, ha, init_eval]
  rw [(C92_initial_attitude_partial s lla vNed a t).1]
  rw [euler_R] at hR'
  rw [show (bodyToNed (a 0) (a 1) (a 2))ᵀ = R' from (Prod.ext_iff.1 hR').2]

/-- a half turn about the third axis -/
def halfTurn : M3 ℝ := !![-1, 0, 0; 0, -1, 0; 0, 0, 1]

theorem mul_halfTurn (R : M3 ℝ) : R * halfTurn = !![-R 0 0, -R 0 1, R 0 2; -R 1 0, -R 1 1, R 1 2; -R 2 0, -R 2 1, R 2 2] := by
  ext i j; fin_cases i <;> fin_cases j <;> simp [halfTurn, mul_apply, Fin.sum_univ_three]

theorem halfTurn_isRot : IsRot halfTurn := by
  have : halfTurn = rotZ Real.pi := by
    ext i j; fin_cases i <;> fin_cases j <;> simp [halfTurn, rotZ]
  rw [this]; exact isRot_rotZ _

/-- the angles `dcm2Euler` returns do not change when the first two columns change sign -/
theorem dcm2_halfTurn (R : M3 ℝ) (e : V3 ℝ) : dcm2Euler (R * halfTurn) e = dcm2Euler R e := by
  rw [dcm2_R, dcm2_R, mul_halfTurn]
  simp [abs_neg, neg_div_neg_eq]

/-- C127, what does hold: for a resting vehicle whose first body axis, seen from the north axis, makes `R 0 1 > 0` (for a level vehicle: a westerly heading), the navigator starts with
exactly the true body-to-NED attitude: the two misuses of the convention (`dcm2Euler` of a body-to-NED matrix, `initialize` storing a NED-to-body matrix) cancel.
(Full claim: for every attitude away from the singularities; missing: `R 0 1 < 0`, see `C127_handover_fails`.) -/
theorem C127_handover_partial (s : St XR) (lla vNed : V3 XR) (t : Int) (lat wE g : ℝ) (e : V3 XR) (R : M3 ℝ) (hR : IsRot R) (hg : g ≠ 0) (hw : wE ≠ 0)
    (hc : Real.cos lat ≠ 0) (h11 : 1e-9 ≤ |R 0 0|) (h33 : 1e-9 ≤ R 2 2) (h12 : 0 < R 0 1 ∨ (R 0 1 = 0 ∧ 0 < R 0 0)) :
    ∃ s', handover s lla vNed t lat wE g (Rᵀ *ᵥ restForce g) (Rᵀ *ᵥ earthRate lat wE) e = (true, true, true, s') ∧ s'.RB2N = some (finM R) :=
  handover_rot s lla vNed t lat wE g e R R hR hg hw hc h11 h33 (C36_matrix_round_trip_partial R hR h11 h33 h12 0)

/-- C127 fails: on the other half of the attitudes (for a level vehicle: every easterly heading) alignment, conversion and `initialize` all report success, but the navigator starts with
the vehicle turned by half a turn about its own vertical axis: it believes to look backwards. -/
theorem C127_handover_fails (s : St XR) (lla vNed : V3 XR) (t : Int) (lat wE g : ℝ) (e : V3 XR) (R : M3 ℝ) (hR : IsRot R) (hg : g ≠ 0) (hw : wE ≠ 0)
    (hc : Real.cos lat ≠ 0) (h11 : 1e-9 ≤ |R 0 0|) (h33 : 1e-9 ≤ R 2 2) (h12 : R 0 1 < 0 ∨ (R 0 1 = 0 ∧ R 0 0 < 0)) :
    ∃ s', handover s lla vNed t lat wE g (Rᵀ *ᵥ restForce g) (Rᵀ *ᵥ earthRate lat wE) e = (true, true, true, s')
      ∧ s'.RB2N = some (finM (R * halfTurn)) ∧ (R * halfTurn) *ᵥ ![1, 0, 0] = -(R *ᵥ ![1, 0, 0]) ∧ s'.RB2N ≠ some (finM R) := by
  have hD := mul_halfTurn R
  have k := C36_matrix_round_trip_partial (R * halfTurn) (hR.mul halfTurn_isRot) (by rw [hD]; simpa using h11) (by rw [hD]; simpa using h33)
    (by rw [hD]; simpa using h12) 0
  rw [dcm2_halfTurn] at k
  obtain ⟨s', h1, h2⟩ := handover_rot s lla vNed t lat wE g e R _ hR hg hw hc h11 h33 k
  refine ⟨s', h1, h2, ?_, ?_⟩
  · rw [hD]; ext i; fin_cases i <;> simp [mulVec, dotProduct, Fin.sum_univ_three]
  · rw [h2, hD]
    intro h
    have h0 := congrFun (congrFun (Option.some.inj h) 0) 0
    simp only [finM, of_apply] at h0
    have h0 : -R 0 0 = R 0 0 := by simpa using h0
    have : R 0 0 = 0 := by linarith
    rw [this] at h11; norm_num at h11

/-- a level vehicle with heading `ψ`: the two cases are the westerly and the easterly headings -/
theorem level_entries (ψ : ℝ) : bodyToNed 0 0 ψ 0 0 = Real.cos ψ ∧ bodyToNed 0 0 ψ 0 1 = -Real.sin ψ ∧ bodyToNed 0 0 ψ 2 2 = 1 := by
  refine ⟨?_, ?_, ?_⟩ <;> simp [bodyToNed, rotX, rotY, rotZ, mul_apply, Fin.sum_univ_three]

/-- C127 fails for a level vehicle with easterly heading. -/
theorem C127_easterly_fails (s : St XR) (lla vNed : V3 XR) (t : Int) (lat wE g ψ : ℝ) (e : V3 XR) (hg : g ≠ 0) (hw : wE ≠ 0) (hc : Real.cos lat ≠ 0)
    (hψ : 0 < ψ ∧ ψ < Real.pi) (hψ' : 1e-9 ≤ |Real.cos ψ|) :
    ∃ s', handover s lla vNed t lat wE g ((bodyToNed 0 0 ψ)ᵀ *ᵥ restForce g) ((bodyToNed 0 0 ψ)ᵀ *ᵥ earthRate lat wE) e = (true, true, true, s')
      ∧ s'.RB2N = some (finM (bodyToNed 0 0 (ψ + Real.pi))) := by
  obtain ⟨a, b, c⟩ := level_entries ψ
  obtain ⟨s', h1, h2, -, -⟩ := C127_handover_fails s lla vNed t lat wE g e (bodyToNed 0 0 ψ) (bodyToNed_isRot _ _ _) hg hw hc (by rw [a]; exact hψ')
    (by rw [c]; norm_num) (by rw [b]; left; linarith [Real.sin_pos_of_pos_of_lt_pi hψ.1 hψ.2])
  refine ⟨s', h1, ?_⟩
  rw [h2, mul_halfTurn]
  congr 2
  ext i j
  fin_cases i <;> fin_cases j <;> simp [bodyToNed, rotX, rotY, rotZ, mul_apply, Fin.sum_univ_three, Real.sin_add_pi, Real.cos_add_pi]

/-- a level vehicle with heading 1 rad meets the hypotheses of the negative part, with heading -1 rad those of the positive one -/
example : (1e-9 ≤ |Real.cos (1 : ℝ)|) ∧ (0 < (1 : ℝ) ∧ (1 : ℝ) < Real.pi) ∧ 0 < bodyToNed 0 0 (-1) 0 1 := by
  obtain ⟨-, b, -⟩ := level_entries (-1)
  have h1 : (1 : ℝ) < Real.pi := by linarith [Real.pi_gt_three]
  have h2 : 0 < Real.sin 1 := Real.sin_pos_of_pos_of_lt_pi one_pos h1
  have h3 := Real.cos_one_pos
  have h4 : (1 / 2 : ℝ) ≤ Real.cos 1 := by have := Real.one_sub_sq_div_two_le_cos (x := 1); linarith
  refine ⟨by rw [abs_of_pos h3]; norm_num at *; linarith, ⟨one_pos, h1⟩, by rw [b]; simpa using h2⟩

end NavFuse.Props
