import Verif.Props.Euler
import Verif.Props.RotVec
import Mathlib.Analysis.SpecialFunctions.Trigonometric.Bounds
/-! Exact answers for the attitude conversions: on which rotation matrices and on which angle triples the Euler angle round trip works (C36), for which
rotation vectors the quaternion round trip works (C31), and for which attitudes the matrix of `euler2Dcm` is the one its name promises (C35). -/

namespace NavFuse.Props
open Matrix NavFuse.Spec NavFuse.Attitude NavFuse.XR

/-! ## C36 -/

theorem heading_range {x : ℝ} {t : ℝ} (ht : t = if Real.arctan x < 0 then Real.arctan x + Real.pi else Real.arctan x) :
    0 ≤ t ∧ t < Real.pi := by
  have h1 := Real.arctan_lt_pi_div_two x
  have h2 := Real.neg_pi_div_two_lt_arctan x
  have := Real.pi_pos
  rw [ht]; split_ifs with h
  · constructor <;> linarith
  · push Not at h; constructor <;> linarith

/-- C36 (matrix form), exactly. `dcm2Euler` accepts a rotation matrix just when neither its first nor its last diagonal entry is within 1e-9 of zero. The
angles it then returns describe the matrix that was passed in if and only if the vehicle is the right way up and its forward axis points into the eastern
half plane, due north included and due south excluded. -/
theorem C36_matrix_characterised (R : M3 ℝ) (hR : IsRot R) (e : V3 ℝ) :
    ((dcm2Euler R e).1 = true ↔ 1e-9 ≤ |R 0 0| ∧ 1e-9 ≤ |R 2 2|)
    ∧ ((dcm2Euler R e).1 = true →
        (euler2Dcm (dcm2Euler R e).2 = (true, R) ↔ 0 < R 2 2 ∧ (0 < R 0 1 ∨ (R 0 1 = 0 ∧ 0 < R 0 0)))) := by
  have hacc : (dcm2Euler R e).1 = true ↔ 1e-9 ≤ |R 0 0| ∧ 1e-9 ≤ |R 2 2| := by
    have := (C37_rejection_partial R e).2.2.1 hR
    rw [← Bool.not_eq_false, this]
    push Not; rfl
  refine ⟨hacc, fun hok => ?_⟩
  obtain ⟨h11, h33⟩ := hacc.1 hok
  have h00 : R 0 0 ≠ 0 := by intro h; rw [h] at h11; norm_num at h11
  have h22 : R 2 2 ≠ 0 := by intro h; rw [h] at h33; norm_num at h33
  constructor
  · intro h
    rw [dcm2_R, if_neg (by
      have hb := (C37_rejection_partial R e).1
      rw [hok] at hb; simpa using hb)] at h
    rw [euler_R, bodyToNed_tr] at h
    have hm := congrArg Prod.snd h
    simp only [cons_val_zero, cons_val_one, cons_val] at hm
    set hd := if Real.arctan (R 0 1 / R 0 0) < 0 then Real.arctan (R 0 1 / R 0 0) + Real.pi else Real.arctan (R 0 1 / R 0 0) with hhd
    obtain ⟨hd0, hdpi⟩ := heading_range hhd
    have m00 : Real.cos (-Real.arcsin (R 0 2)) * Real.cos hd = R 0 0 := congrFun (congrFun hm 0) 0
    have m01 : Real.cos (-Real.arcsin (R 0 2)) * Real.sin hd = R 0 1 := congrFun (congrFun hm 0) 1
    have m22 : Real.cos (Real.arctan (R 1 2 / R 2 2)) * Real.cos (-Real.arcsin (R 0 2)) = R 2 2 := congrFun (congrFun hm 2) 2
    have hcp : 0 ≤ Real.cos (-Real.arcsin (R 0 2)) := by rw [Real.cos_neg]; exact Real.cos_arcsin_nonneg _
    have hcr := Real.cos_arctan_pos (R 1 2 / R 2 2)
    have hcp' : 0 < Real.cos (-Real.arcsin (R 0 2)) := lt_of_le_of_ne hcp (by intro h0; rw [← h0] at m22; simp at m22; exact h22 m22.symm)
    refine ⟨by rw [← m22]; positivity, ?_⟩
    rcases hd0.eq_or_lt with hz | hz
    · right; rw [← m01, ← m00, ← hz]; simpa using hcp'
    · left; rw [← m01]; exact mul_pos hcp' (Real.sin_pos_of_pos_of_lt_pi hz hdpi)
  · rintro ⟨hup, heast⟩
    obtain ⟨a, ha, hb⟩ := C36_matrix_round_trip_partial R hR h11 (by rwa [abs_of_pos hup] at h33) heast e
    rw [ha]; exact hb

/-- both outcomes occur: north-east is recovered, north-west is not -/
example (e : V3 ℝ) : euler2Dcm (dcm2Euler (rotZ (-(Real.pi / 4))) e).2 = (true, rotZ (-(Real.pi / 4)))
    ∧ euler2Dcm (dcm2Euler (rotZ (Real.pi / 4)) e).2 ≠ (true, rotZ (Real.pi / 4)) := by
  have h2 : (1 : ℝ) ≤ Real.sqrt 2 := Real.one_le_sqrt.2 (by norm_num)
  have ha : ∀ s : ℝ, s = 1 ∨ s = -1 → (dcm2Euler (rotZ (s * (Real.pi / 4))) e).1 = true := by
    intro s hs
    rw [(C36_matrix_characterised _ (isRot_rotZ _) e).1]
    rcases hs with rfl | rfl <;> simp [rotZ] <;> refine ⟨?_, by norm_num⟩ <;> rw [abs_of_pos (by positivity)] <;> linarith
  constructor
  · have := ha (-1) (Or.inr rfl)
    rw [neg_one_mul] at this
    rw [(C36_matrix_characterised _ (isRot_rotZ _) e).2 this]
    simp [rotZ]
  · have := ha 1 (Or.inl rfl)
    rw [one_mul] at this
    rw [Ne, (C36_matrix_characterised _ (isRot_rotZ _) e).2 this]
    simp only [rotZ, not_and, not_or]
    intro _
    have : 0 < Real.sin (Real.pi / 4) := by rw [Real.sin_pi_div_four]; positivity
    constructor
    · simp; positivity
    · simp 

/-- C36 (angle form), exactly. For a pitch strictly inside `(-π/2, π/2)` and an attitude that is accepted, the three angles come back if and only if the
roll lies in `(-π/2, π/2)` and the heading in `[0, π)`. -/
theorem C36_angles_characterised (r p h : ℝ) (hp : p ∈ Set.Ioo (-(Real.pi / 2)) (Real.pi / 2))
    (h11 : 1e-9 ≤ |Real.cos p * Real.cos h|) (h33 : 1e-9 ≤ |Real.cos r * Real.cos p|) (e : V3 ℝ) :
    dcm2Euler (euler2Dcm ![r, p, h]).2 e = (true, ![r, p, h])
      ↔ r ∈ Set.Ioo (-(Real.pi / 2)) (Real.pi / 2) ∧ h ∈ Set.Ico 0 Real.pi := by
  constructor
  · intro heq
    have hb := (C37_rejection_partial (euler2Dcm ![r, p, h]).2 e).1
    rw [heq] at hb
    rw [dcm2_R, if_neg (by simpa using hb)] at heq
    · have hv := congrArg Prod.snd heq
      have v0 : Real.arctan _ = r := congrFun hv 0
      have v2 := congrFun hv 2
      simp only [cons_val] at v2
      refine ⟨?_, ?_⟩
      · rw [← v0]; exact ⟨Real.neg_pi_div_two_lt_arctan _, Real.arctan_lt_pi_div_two _⟩
      · exact heading_range v2.symm
  · rintro ⟨hr, hh⟩
    exact C36_angles_round_trip_partial r p h hr hp hh h11 h33 e

/-- both sides occur: heading 135 degrees is returned, heading −45 degrees is not (its opposite is) -/
example (e : V3 ℝ) : dcm2Euler (euler2Dcm ![0, 0, -(Real.pi / 4)]).2 e ≠ (true, ![0, 0, -(Real.pi / 4)]) := by
  have h2 : (1 : ℝ) ≤ Real.sqrt 2 := Real.one_le_sqrt.2 (by norm_num)
  rw [Ne, C36_angles_characterised 0 0 _ ⟨by linarith [Real.pi_pos], by linarith [Real.pi_pos]⟩ (by
    rw [Real.cos_zero, one_mul, Real.cos_neg, Real.cos_pi_div_four, abs_of_pos (by positivity)]; linarith) (by simp; norm_num)]
  rintro ⟨-, h, -⟩
  linarith [Real.pi_pos]

/-! ## C31 -/

/-- C31, exactly: no rotation vector other than zero, of length at most π, survives the round trip. Vectors whose half angle has a sine above the cut-off are
negated, the shorter ones are replaced by zero. -/
theorem C31_round_trip_never_fails (φ : Fin 3 → ℝ) (hne : φ ≠ 0) (hpi : len3 φ ≤ Real.pi) (q0 : Fin 4 → ℝ) (p0 : Fin 3 → ℝ) :
    ∃ q p, computeQuaternionFromRotationVec ⟨3, φ⟩ ⟨4, q0⟩ = .ok (true, ⟨4, q⟩)
      ∧ computeRotationVecFromQuaternion ⟨4, q⟩ ⟨3, p0⟩ = .ok (true, ⟨3, p⟩)
      ∧ p = (if 1.0e-6 < Real.sin (len3 φ / 2) then -φ else 0) ∧ p ≠ φ := by
  by_cases hcut : 1.0e-6 < Real.sin (len3 φ / 2)
  · obtain ⟨q, p, h1, h2, h3, h4⟩ := C31_round_trip_negates_fails φ hpi hcut q0 p0
    exact ⟨q, p, h1, h2, by rw [if_pos hcut, h3], h4⟩
  · refine ⟨_, _, rvq_eval φ q0, qrv_eval _ _, ?_⟩
    have hz : qrvG (rvqG φ) = 0 := by
      have hp := len3_pos hne
      have hc : 0 ≤ Real.cos (len3 φ / 2) := Real.cos_nonneg_of_mem_Icc ⟨by linarith, by linarith⟩
      have hs : 0 ≤ Real.sin (len3 φ / 2) := Real.sin_nonneg_of_nonneg_of_le_pi (by linarith) (by linarith)
      have hpv : posVec (rvqG φ) = Real.sin (len3 φ / 2) • ((len3 φ)⁻¹ • φ) := by
        rw [posVec, rvq_R, if_neg (by simpa using hc)]
        ext i; fin_cases i <;> simp
      have hl : len3 (posVec (rvqG φ)) = Real.sin (len3 φ / 2) := by
        rw [hpv, len3_smul, len3_smul, abs_of_nonneg hs, abs_of_pos (inv_pos.2 hp), inv_mul_cancel₀ hp.ne', mul_one]
      rw [qrv_R, hl, if_neg hcut]
    rw [hz, if_neg hcut]
    exact ⟨rfl, fun h => hne h.symm⟩

/-- a rotation below the cut-off: a millionth of a radian about the first axis -/
example : (![1e-6, 0, 0] : Fin 3 → ℝ) ≠ 0 ∧ len3 ![1e-6, 0, 0] ≤ Real.pi ∧ ¬ 1.0e-6 < Real.sin (len3 ![1e-6, 0, 0] / 2) := by
  have h : len3 ![1e-6, 0, 0] = 1e-6 := by
    have : len3 ![1e-6, 0, 0] = Real.sqrt ((1e-6 : ℝ) ^ 2) := by simp [len3]
    rw [this, Real.sqrt_sq (by norm_num)]
  rw [h]
  refine ⟨fun h => by have := congrFun h 0; norm_num at this, by linarith [Real.one_le_pi_div_two], ?_⟩
  have := Real.sin_lt (x := 1e-6 / 2) (by norm_num)
  norm_num at this ⊢; linarith

/-- C31 at the zero vector, with IEEE special values: the quaternion has three NaN components (C30), and the way back still gives zero, because the
comparison of a NaN with the cut-off is false. The two faults cancel. -/
theorem C31_zero_vector_partial (q0 : Fin 4 → XR) (p0 : Fin 3 → XR) :
    ∃ q p, computeQuaternionFromRotationVec ⟨3, finV 0⟩ ⟨4, q0⟩ = .ok (true, ⟨4, q⟩) ∧ q 1 = nan
      ∧ computeRotationVecFromQuaternion ⟨4, q⟩ ⟨3, p0⟩ = .ok (true, ⟨3, p⟩) ∧ p = finV 0 := by
  refine ⟨_, _, C30_zero_vector_fails q0, rfl, qrv_eval _ _, ?_⟩
  have h0 : (![nan, nan, nan] : V3 XR) = fun _ => nan := by ext i; fin_cases i <;> rfl
  have hn : vnorm (fun _ : Fin 3 => nan) = nan := by
    rw [vnorm, vsqNorm, vdot]
    simp only [nan_mul]
    rw [fsum, eval_nan _ _ 0 (((Flt.order XR).perm 2).mem_iff.2 (List.mem_finRange 0)) rfl, X_sqrt_nan]
  have hq : qrvG ![fin 1, nan, nan, nan] = vsmul (Flt.lit 0) ![Flt.lit 1, Flt.lit 0, Flt.lit 0] := by
    simp only [qrvG, cons_val_zero, cons_val_one, cons_val, h0, nan_mul, ite_self, hn, X_lt_nan, if_neg Bool.false_ne_true]
  rw [hq]
  ext i
  fin_cases i <;> simp [vsmul, xsimp]

/-! ## C35 -/

/-- C35, exactly: the matrix that `euler2Dcm` returns is the body-to-NED matrix if and only if that attitude, applied twice, is the identity: no rotation at
all or a half turn. -/
theorem C35_characterised (e : V3 ℝ) :
    euler2Dcm e = (true, bodyToNed (e 0) (e 1) (e 2)) ↔ bodyToNed (e 0) (e 1) (e 2) * bodyToNed (e 0) (e 1) (e 2) = 1 := by
  have hR := bodyToNed_isRot (e 0) (e 1) (e 2)
  rw [euler_R]
  simp only [Prod.mk.injEq, true_and]
  constructor
  · intro h
    nth_rewrite 2 [← h]
    exact hR.1
  · intro h
    calc (bodyToNed (e 0) (e 1) (e 2))ᵀ = (bodyToNed (e 0) (e 1) (e 2))ᵀ * (bodyToNed (e 0) (e 1) (e 2) * bodyToNed (e 0) (e 1) (e 2)) := by
          rw [h, Matrix.mul_one]
      _ = bodyToNed (e 0) (e 1) (e 2) := by rw [← Matrix.mul_assoc, hR.tr_mul, Matrix.one_mul]

/-- for a level vehicle: right exactly when it heads due north or due south -/
theorem C35_level_characterised (h : ℝ) : euler2Dcm ![0, 0, h] = (true, bodyToNed 0 0 h) ↔ Real.sin h = 0 := by
  have e2 : bodyToNed 0 0 h = !![Real.cos h, -Real.sin h, 0; Real.sin h, Real.cos h, 0; 0, 0, 1] := by
    rw [← transpose_transpose (bodyToNed 0 0 h), bodyToNed_tr]
    ext i j; fin_cases i <;> fin_cases j <;> simp
  have e1 : (euler2Dcm ![0, 0, h]) = (true, (bodyToNed 0 0 h)ᵀ) := by rw [euler_R]; simp
  rw [e1, e2]
  simp only [Prod.mk.injEq, true_and]
  constructor
  · intro hm
    have : Real.sin h = -Real.sin h := congrFun (congrFun hm 0) 1
    linarith
  · intro hs
    ext i j; fin_cases i <;> fin_cases j <;> simp [hs]

/-- both outcomes occur: due south and due east -/
example : euler2Dcm ![0, 0, Real.pi] = (true, bodyToNed 0 0 Real.pi) ∧ euler2Dcm ![0, 0, Real.pi / 2] ≠ (true, bodyToNed 0 0 (Real.pi / 2)) := by
  rw [Ne, C35_level_characterised, C35_level_characterised]; simp

end NavFuse.Props
