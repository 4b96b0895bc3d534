import Verif.SZ
import Verif.Model.Attitude
import Verif.Model.Geodesy
import Verif.Props.StrapdownNav
import Verif.Lemmas.Bowring
import Verif.Lemmas.AttitudeEval
import Verif.Model.Compensator
import Verif.Props.Init

/-! # C175: the sign of a zero -/

set_option linter.unusedSimpArgs false

namespace NavFuse.Props
open SZ XR Gravity Rotations NavUtils Strapdown Spec Matrix Attitude

/-! ## values of the constants -/

theorem a_sz : (Gravity.a : SZ).x = Gravity.a := rfl
theorem b_sz : (Gravity.b : SZ).x = Gravity.b := rfl
theorem wE_sz : (Gravity.wE : SZ).x = Gravity.wE := rfl
theorem gEq_sz : (Gravity.gEq : SZ).x = Gravity.gEq := rfl
theorem gPole_sz : (Gravity.gPole : SZ).x = Gravity.gPole := rfl
theorem f_sz : (Gravity.f : SZ).x = Gravity.f := div_x _ (pl_lit _)
theorem eSq_sz : (eSqG : SZ).x = eSqG := by simp only [eSqG, sub_x, mul_x, lit_x, powi_x, f_sz]
theorem m_sz (c : SZ) : (c / Gravity.kM).x = c.x / Gravity.kM :=
  div_x c (pl_of_ne (by
    show ((Flt.lit _ : XR) * Flt.lit _) ≠ _
    simp only [xsimp, ne_eq, XR.fin_inj]
    norm_num))

theorem bad_sz (lat lon : SZ) : latLonBad lat lon = latLonBad lat.x lon.x := by
  simp only [latLonBad, lt_x, abs_x, pi_x, div_x _ (pl_lit _), lit_x]

theorem root_sz (u : SZ) : Pl (Flt.sqrt (Flt.lit 1 - u)) := pl_sqrt (pl_sub _ (pl_lit 1))

/-! ## the functions in which no sign is observable -/

/-- C175, geodetic to ECEF coordinates. -/
theorem C175_lla2Ecef (lat lon alt : SZ) (r0 : V3 SZ) : Prod.map id vx (lla2Ecef lat lon alt r0) = lla2Ecef lat.x lon.x alt.x (vx r0) := by
  unfold lla2Ecef
  rw [bad_sz]
  split
  · rfl
  · refine Prod.ext rfl (funext fun i => ?_)
    fin_cases i <;> simp [div_x _ (root_sz _), f_sz, a_sz]

/-- C175, the frames. -/
theorem C175_ned2Ecef (lat lon : SZ) (R0 : M3 SZ) : Prod.map id mx (computeRNed2Ecef lat lon R0) = computeRNed2Ecef lat.x lon.x (mx R0) := by
  unfold computeRNed2Ecef
  rw [bad_sz]
  split
  · rfl
  · refine Prod.ext rfl (Matrix.ext fun i j => ?_)
    fin_cases i <;> fin_cases j <;> simp

theorem C175_ecef2Ned (lat lon : SZ) (R0 : M3 SZ) : Prod.map id mx (computeREcef2Ned lat lon R0) = computeREcef2Ned lat.x lon.x (mx R0) := by
  unfold computeREcef2Ned
  rw [bad_sz]
  split
  · rfl
  · refine Prod.ext rfl (Matrix.ext fun i j => ?_)
    fin_cases i <;> fin_cases j <;> simp

/-- C175, gravity from a position. -/
theorem C175_simpleGravity (r : V3 SZ) : Prod.map id vx (simpleGravity r) = simpleGravity (vx r) := by
  refine Prod.ext rfl ?_
  show vx (vsmul _ _) = vsmul _ _
  rw [vsmul_x, vnormalized_x, div_x _ (pl_vsqNorm r), vsqNorm_x]
  rfl

/-- C175, gravity from latitude and height. -/
theorem C175_gravityNed (lat h : SZ) : Prod.map id vx (gravityNed lat h) = gravityNed lat.x h.x := by
  have ha : Pl (Flt.powi (Gravity.a : SZ) 2) := pl_powi_even _ rfl
  have ha1 : Pl (Gravity.a : SZ) := pl_lit _
  have hden : Pl (Flt.sqrt (Flt.powi (Gravity.a : SZ) 2 * Flt.powi (Flt.cos lat) 2 + Flt.powi (Gravity.b : SZ) 2 * Flt.powi (Flt.sin lat) 2)) := by
    exact pl_sqrt (pl_add_right _ (pl_mul (sg_sq _) (sg_sq _)))
  refine Prod.ext rfl (funext fun i => ?_)
  fin_cases i <;> simp [gravityNed, div_x _ (pl_lit _), div_x _ ha, div_x _ ha1, div_x _ hden, m_sz, f_sz, a_sz, b_sz, wE_sz, gEq_sz, gPole_sz]

/-- C175, Euler angles to a matrix. -/
theorem C175_euler2Dcm (e : V3 SZ) : Prod.map id mx (euler2Dcm e) = euler2Dcm (vx e) := by
  refine Prod.ext rfl ?_
  show mx (mmul (mmul _ _) _) = mmul (mmul _ _) _
  rw [mmul_x, mmul_x]
  congr 1
  · congr 1 <;> (ext i j; fin_cases i <;> fin_cases j <;> simp)
  · ext i j; fin_cases i <;> fin_cases j <;> simp

/-- a value accepted by the guard of `dcm2Euler` is not zero -/
theorem guard_sz {v : SZ} (h : Flt.lt (Flt.abs v.x) (Flt.lit 1e-9) = false) : Pl v := pl_of_ne fun e => by
  rw [e] at h
  simp [xsimp, Flt.abs, Flt.lt] at h
  norm_num at h

/-- C175, a matrix to Euler angles. -/
theorem C175_dcm2Euler (R : M3 SZ) (e0 : V3 SZ) : Prod.map id vx (dcm2Euler R e0) = dcm2Euler (mx R) (vx e0) := by
  by_cases h1 : (Flt.lt (Flt.abs (R 0 0).x) (Flt.lit 1e-9) || Flt.lt (Flt.abs (R 2 2).x) (Flt.lit 1e-9)) = true
  · exact (congrArg (Prod.map id vx) (if_pos h1)).trans (if_pos h1).symm
  refine (congrArg (Prod.map id vx) (if_neg h1)).trans (Eq.trans ?_ (if_neg h1).symm)
  by_cases h2 : (Flt.lt (Flt.lit 1) (R 0 2).x || Flt.lt (R 0 2).x (Flt.lit (-1))) = true
  · exact (congrArg (Prod.map id vx) (if_pos h2)).trans (if_pos h2).symm
  refine (congrArg (Prod.map id vx) (if_neg h2)).trans (Eq.trans ?_ (if_neg h2).symm)
  rw [Bool.or_eq_true, not_or, Bool.not_eq_true, Bool.not_eq_true] at h1
  refine Prod.ext rfl (funext fun i => ?_)
  fin_cases i
  · simp [div_x _ (guard_sz h1.2)]
  · simp
  · have e := congrArg Flt.atan (div_x (R 0 1) (guard_sz h1.1))
    rw [← atan_x] at e
    by_cases h3 : Flt.lt (Flt.atan ((R 0 1).x / (R 0 0).x)) (Flt.lit 0) = true
    · have h4 : Flt.lt (Flt.atan (R 0 1 / R 0 0)).x (Flt.lit 0) = true := by rw [e]; exact h3
      refine (congrArg SZ.x (if_pos h4)).trans (Eq.trans ?_ (if_pos h3).symm)
      rw [add_x, e]; rfl
    · have h4 : ¬ Flt.lt (Flt.atan (R 0 1 / R 0 0)).x (Flt.lit 0) = true := by rw [e]; exact h3
      exact (congrArg SZ.x (if_neg h4)).trans (Eq.trans e (if_neg h3).symm)

/-- the values of a dynamically sized vector -/
def dvx (v : DVec SZ) : DVec XR := ⟨v.n, vx v.v⟩
/-- the values of a dynamically sized matrix -/
def dmx (A : DMat SZ) : DMat XR := ⟨A.r, A.c, mx A.m⟩

theorem dcmG_sz (q : Fin 4 → SZ) : mx (dcmG q) = dcmG (vx q) := by
  have h : Pl ((q 0 * q 0) + (q 1 * q 1) + (q 2 * q 2) + (q 3 * q 3)) := pl_add_right _ (pl_self _)
  ext i j
  fin_cases i <;> fin_cases j <;> simp [dcmG, div_x _ h]

/-- C175, a quaternion to a matrix. -/
theorem C175_dcmFromQuaternion (q : DVec SZ) (R0 : DMat SZ) :
    Except.map (Prod.map id dmx) (computeDcmFromQuaternion q R0) = computeDcmFromQuaternion (dvx q) (dmx R0) := by
  obtain ⟨n, q⟩ := q
  obtain ⟨r, c, R0⟩ := R0
  by_cases hn : n = 4
  · subst hn
    by_cases hr : r = 3 ∧ c = 3
    · obtain ⟨rfl, rfl⟩ := hr
      rw [dcm_eval]
      show _ = computeDcmFromQuaternion ⟨4, vx q⟩ ⟨3, 3, mx R0⟩
      rw [dcm_eval, ← dcmG_sz]
      rfl
    · have : r ≠ 3 ∨ c ≠ 3 := by tauto
      simp [computeDcmFromQuaternion, dvx, dmx, this, Except.map]
  · simp [computeDcmFromQuaternion, dvx, dmx, hn, Except.map]

theorem root4_sz (t : SZ) (h : Pl t) : Pl ((Flt.lit 4 : SZ) * Flt.sqrt ((Flt.lit 0.25 : SZ) * t)) :=
  pl_mul_pos (v := 4) (by simp [xsimp]) (by norm_num) (pl_sqrt (pl_mul_pos (v := 0.25) (by simp [xsimp]) (by norm_num) h))

theorem quatG_sz (R : M3 SZ) : vx (quatG R) = quatG (mx R) := by
  have h0 := root4_sz (Flt.lit 1 + R 0 0 + R 1 1 + R 2 2) (pl_add_left _ (pl_add_left _ (pl_add_left _ (pl_lit 1))))
  have h1 := root4_sz (Flt.lit 1 + R 0 0 - R 1 1 - R 2 2) (pl_sub _ (pl_sub _ (pl_add_left _ (pl_lit 1))))
  have h2 := root4_sz (Flt.lit 1 - R 0 0 + R 1 1 - R 2 2) (pl_sub _ (pl_add_left _ (pl_sub _ (pl_lit 1))))
  have h3 := root4_sz (Flt.lit 1 - R 0 0 - R 1 1 + R 2 2) (pl_add_left _ (pl_sub _ (pl_sub _ (pl_lit 1))))
  let R' := mx R
  let c0 : XR := Flt.lit 0.25 * (Flt.lit 1 + R' 0 0 + R' 1 1 + R' 2 2)
  let c1 : XR := Flt.lit 0.25 * (Flt.lit 1 + R' 0 0 - R' 1 1 - R' 2 2)
  let c2 : XR := Flt.lit 0.25 * (Flt.lit 1 - R' 0 0 + R' 1 1 - R' 2 2)
  let c3 : XR := Flt.lit 0.25 * (Flt.lit 1 - R' 0 0 - R' 1 1 + R' 2 2)
  by_cases g0 : (Flt.lt c1 c0 && Flt.lt c2 c0 && Flt.lt c3 c0) = true
  · refine (congrArg vx (if_pos g0)).trans (Eq.trans ?_ (if_pos g0).symm)
    ext i; fin_cases i <;> simp [div_x _ h0]
  refine (congrArg vx (if_neg g0)).trans (Eq.trans ?_ (if_neg g0).symm)
  by_cases g1 : (Flt.lt c0 c1 && Flt.lt c2 c1 && Flt.lt c3 c1) = true
  · refine (congrArg vx (if_pos g1)).trans (Eq.trans ?_ (if_pos g1).symm)
    ext i; fin_cases i <;> simp [div_x _ h1]
  refine (congrArg vx (if_neg g1)).trans (Eq.trans ?_ (if_neg g1).symm)
  by_cases g2 : (Flt.lt c0 c2 && Flt.lt c1 c2 && Flt.lt c3 c2) = true
  · refine (congrArg vx (if_pos g2)).trans (Eq.trans ?_ (if_pos g2).symm)
    ext i; fin_cases i <;> simp [div_x _ h2]
  refine (congrArg vx (if_neg g2)).trans (Eq.trans ?_ (if_neg g2).symm)
  ext i; fin_cases i <;> simp [div_x _ h3]

/-- C175, a matrix to a quaternion. -/
theorem C175_quaternionFromDcm (R : DMat SZ) (q0 : DVec SZ) :
    Except.map (Prod.map id dvx) (computeQuaternionFromDcm R q0) = computeQuaternionFromDcm (dmx R) (dvx q0) := by
  obtain ⟨n, q⟩ := q0
  obtain ⟨r, c, R⟩ := R
  by_cases hn : n = 4
  · subst hn
    by_cases hr : r = 3 ∧ c = 3
    · obtain ⟨rfl, rfl⟩ := hr
      rw [quat_eval]
      show _ = computeQuaternionFromDcm ⟨3, 3, mx R⟩ ⟨4, vx q⟩
      rw [quat_eval, ← quatG_sz]
      rfl
    · have : r ≠ 3 ∨ c ≠ 3 := by tauto
      simp [computeQuaternionFromDcm, dvx, dmx, this, Except.map]
  · simp [computeQuaternionFromDcm, dvx, dmx, hn, Except.map]

theorem rvqG_sz (p : V3 SZ) : vx (rvqG p) = rvqG (vx p) := by
  have h : Pl (Flt.sqrt ((p 0 * p 0) + (p 1 * p 1) + (p 2 * p 2))) := pl_sqrt (pl_add_right _ (pl_self _))
  ext i
  fin_cases i <;> simp [rvqG, div_x _ h, div_x _ (pl_lit _)]

/-- C175, a rotation vector to a quaternion. -/
theorem C175_quaternionFromRotationVec (p q0 : DVec SZ) :
    Except.map (Prod.map id dvx) (computeQuaternionFromRotationVec p q0) = computeQuaternionFromRotationVec (dvx p) (dvx q0) := by
  obtain ⟨n, q⟩ := q0
  obtain ⟨r, p⟩ := p
  by_cases hr : r = 3
  · subst hr
    by_cases hn : n = 4
    · subst hn
      rw [rvq_eval]
      show _ = computeQuaternionFromRotationVec ⟨3, vx p⟩ ⟨4, vx q⟩
      rw [rvq_eval, ← rvqG_sz]
      rfl
    · simp [computeQuaternionFromRotationVec, dvx, hn, Except.map]
  · simp [computeQuaternionFromRotationVec, dvx, hr, Except.map]

section
variable {α : Type} [Add α] [Sub α] [Mul α] [Div α] [Neg α] [Flt α]

/-- the two halves of `computeRotationVecFromQuaternion` -/
def qrvHead (q : Fin 4 → α) : V3 α := if Flt.lt (q 0) (Flt.lit 0) then (fun i => ![q 1, q 2, q 3] i * Flt.lit (-1)) else ![q 1, q 2, q 3]
def qrvTail (v : V3 α) : V3 α :=
  let r : α × V3 α :=
    if Flt.lt (Flt.lit 1.0e-6) (vnorm v) then (Flt.lit (-2) * Flt.asin (vnorm v), vdiv v (vnorm v))
    else (Flt.lit 0, ![Flt.lit 1, Flt.lit 0, Flt.lit 0])
  vsmul r.1 r.2
omit [Sub α] [Neg α] in
theorem qrvG_split (q : Fin 4 → α) : qrvG q = qrvTail (qrvHead q) := rfl
end

theorem qrvG_sz (q : Fin 4 → SZ) : vx (qrvG q) = qrvG (vx q) := by
  have hv : vx (qrvHead q) = qrvHead (vx q) := by
    by_cases h : Flt.lt (q 0).x (Flt.lit 0) = true
    · refine (congrArg vx (if_pos h)).trans (Eq.trans ?_ (if_pos h).symm)
      ext i; fin_cases i <;> rfl
    · refine (congrArg vx (if_neg h)).trans (Eq.trans ?_ (if_neg h).symm)
      ext i; fin_cases i <;> rfl
  rw [qrvG_split, qrvG_split, ← hv]
  generalize qrvHead q = v
  by_cases h : Flt.lt (Flt.lit 1.0e-6) (vnorm (vx v)) = true
  · have h' : Flt.lt (Flt.lit 1.0e-6) (vnorm v) = true := by rw [lt_x, vnorm_x]; exact h
    rw [qrvTail, qrvTail, if_pos h, if_pos h']
    show vx (vsmul _ _) = vsmul _ _
    rw [vsmul_x, vdiv_x _ (pl_vnorm v), mul_x, asin_x, vnorm_x]
    rfl
  · have h' : ¬ Flt.lt (Flt.lit 1.0e-6) (vnorm v) = true := by rw [lt_x, vnorm_x]; exact h
    rw [qrvTail, qrvTail, if_neg h, if_neg h']
    ext i
    fin_cases i <;> rfl

/-- C175, a quaternion to a rotation vector. -/
theorem C175_rotationVecFromQuaternion (q p0 : DVec SZ) :
    Except.map (Prod.map id dvx) (computeRotationVecFromQuaternion q p0) = computeRotationVecFromQuaternion (dvx q) (dvx p0) := by
  obtain ⟨n, q⟩ := q
  obtain ⟨r, p⟩ := p0
  by_cases hr : r = 3
  · subst hr
    by_cases hn : n = 4
    · subst hn
      rw [qrv_eval]
      show _ = computeRotationVecFromQuaternion ⟨4, vx q⟩ ⟨3, vx p⟩
      rw [qrv_eval, ← qrvG_sz]
      rfl
    · simp [computeRotationVecFromQuaternion, dvx, hn, Except.map]
  · simp [computeRotationVecFromQuaternion, dvx, hr, Except.map]

/-- C175, the matrix of a quaternion product. -/
theorem C175_quaternionEquivalent (q : DVec SZ) (Q0 : DMat SZ) :
    Except.map (Prod.map id dmx) (buildQuaternionEquivalent q Q0) = buildQuaternionEquivalent (dvx q) (dmx Q0) := by
  obtain ⟨n, q⟩ := q
  obtain ⟨r, c, Q0⟩ := Q0
  by_cases hn : n = 4
  · subst hn
    by_cases hr : r = 4 ∧ c = 4
    · obtain ⟨rfl, rfl⟩ := hr
      rw [qeq_eval]
      show _ = buildQuaternionEquivalent ⟨4, vx q⟩ ⟨4, 4, mx Q0⟩
      have e : mx (qeqG q) = qeqG (vx q) := by ext i j; fin_cases i <;> fin_cases j <;> rfl
      rw [qeq_eval, ← e]
      rfl
    · have : r ≠ 4 ∨ c ≠ 4 := by tauto
      simp [buildQuaternionEquivalent, dvx, dmx, this, Except.map]
  · simp [buildQuaternionEquivalent, dvx, dmx, hn, Except.map]

/-- C175, the sensor compensation. -/
theorem C175_applyErrors (b : V3 SZ) (m : DVec SZ) (sf meas : V3 SZ) :
    Except.map (Prod.map id vx) (Compensator.applyErrors b m sf meas) = Compensator.applyErrors (vx b) (dvx m) (vx sf) (vx meas) := by
  have hg : ∀ i, (dvx m).get i = Except.map SZ.x (m.get i) := fun i => by
    show (if h : i < m.n then _ else _) = Except.map SZ.x (if h : i < m.n then _ else _)
    split <;> rfl
  unfold Compensator.applyErrors
  simp only [hg]
  cases m.get 0 with
  | error e => rfl
  | ok m0 =>
  cases m.get 1 with
  | error e => rfl
  | ok m1 =>
  cases m.get 2 with
  | error e => rfl
  | ok m2 =>
  cases m.get 3 with
  | error e => rfl
  | ok m3 =>
  cases m.get 4 with
  | error e => rfl
  | ok m4 =>
  cases m.get 5 with
  | error e => rfl
  | ok m5 =>
  refine congrArg Except.ok (Prod.ext rfl ?_)
  refine (mvec_x _ _).trans ?_
  rw [mmul_x, vsub_x]
  congr 2 <;> (ext i j; fin_cases i <;> fin_cases j <;> rfl)

theorem cof_sz (A : M3 SZ) (i j : Fin 3) : (cofactor3 A i j).x = cofactor3 (mx A) i j := rfl

/-- C175, coarse alignment: wherever it is defined, for any measurements, also infinite ones and NaN. -/
theorem C175_coarseAlignment (lat wE g : SZ) (aB wB : V3 SZ) (φ w γ : ℝ) (hl : lat.x = .fin φ) (hw : wE.x = .fin w) (hg : g.x = .fin γ)
    (hφ : Real.cos φ ≠ 0) (hw0 : w ≠ 0) (hγ : γ ≠ 0) :
    Prod.map id mx (Init.coarseAttitudeAlignment lat wE g aB wB) = Init.coarseAttitudeAlignment lat.x wE.x g.x (vx aB) (vx wB) := by
  have hA : mx (Init.alignA lat wE g) = Init.alignA lat.x wE.x g.x := by
    ext i j; fin_cases i <;> fin_cases j <;> rfl
  have hB : mx (Init.alignB aB wB) = Init.alignB (vx aB) (vx wB) := by
    ext i j; fin_cases i <;> fin_cases j <;> rfl
  refine Prod.ext rfl ?_
  show mx (mmul _ _) = mmul _ _
  rw [mmul_x, hB, ← hA]
  congr 1
  have hd : (fsum fun i => cofactor3 (Init.alignA lat wE g) i 0 * Init.alignA lat wE g i 0).x
      = fsum fun i => cofactor3 (mx (Init.alignA lat wE g)) i 0 * mx (Init.alignA lat wE g) i 0 := fsum_x _
  have hn : (fsum fun i => cofactor3 (mx (Init.alignA lat wE g)) i 0 * mx (Init.alignA lat wE g) i 0) ≠ .fin 0 := by
    rw [hA, hl, hw, hg, Align.alignA_X]
    simp only [cofactor3, xsimp, ne_eq, Fin.sum_univ_three]
    have : γ * w * Real.cos φ ≠ 0 := mul_ne_zero (mul_ne_zero hγ hw0) hφ
    simp
    tauto
  ext i j
  show (cofactor3 _ _ _ * (_ / _) : SZ).x = cofactor3 _ _ _ * (_ / _)
  rw [mul_x, div_x _ (pl_of_ne (by rw [hd]; exact hn)), hd]
  rfl

/-- at the equator, with the earth's rate and standard gravity -/
example : Real.cos 0 ≠ 0 ∧ (7.292115e-5 : ℝ) ≠ 0 ∧ (9.8 : ℝ) ≠ 0 := by norm_num

/-! ## one navigation step -/

theorem skew_sz (v : V3 SZ) : mx (skewSymmetric v).2 = (skewSymmetric (vx v)).2 := by
  ext i j; fin_cases i <;> fin_cases j <;> rfl

theorem attInc_sz (dTh : V3 SZ) : mx (attInc dTh) = attInc (vx dTh) := by
  simp only [attInc, madd_x, mid_x, mmul_x, msmul_x, skew_sz, div_x _ (pl_vnorm dTh), div_x _ (pl_self (vnorm dTh)), sin_x, cos_x, sub_x, lit_x, mul_x,
    vnorm_x]

theorem meridian_sz (lat : SZ) : Pl ((Gravity.a * (Flt.lit 1 - eSqG)) / Flt.powq (Flt.lit 1 - (eSqG * Flt.powi (Flt.sin lat) 2)) 1.5) := by
  apply pl_of_ne
  rw [div_x _ (pl_powq _ _)]
  simp only [mul_x, sub_x, lit_x, powq_x, powi_x, sin_x, a_sz, eSq_sz, a_X, eSq_X]
  cases lat.x with
  | fin φ =>
    have hw := w_pos φ
    have hp : (1 - ecc2 * Real.sin φ ^ 2) ^ ((1.5 : ℚ) : ℝ) ≠ 0 := by
      rw [pow15 hw]; exact pow_ne_zero _ (Real.sqrt_pos.2 hw).ne'
    rw [Rat.cast_ofScientific] at hp
    simp only [xsimp, Rat.cast_one, X_powq _ _ hw, Rat.cast_ofScientific, fin_div _ _ hp, ne_eq]
    exact div_ne_zero (mul_ne_zero semiMajor_pos.ne' (sub_pos.2 ecc2_lt).ne') hp
  | nan => intro h; cases h
  | pinf => intro h; cases h
  | ninf => intro h; cases h

/-- the divisor of the longitude rate -/
def lonDen {α : Type} [Add α] [Sub α] [Mul α] [Div α] [Neg α] [Flt α] (y : Fin 6 → α) : α :=
  (Gravity.a / Flt.sqrt (Flt.lit 1 - (eSqG * Flt.powi (Flt.sin (y 0)) 2)) + y 2) * Flt.cos (y 0)

theorem lonDen_sz (y : Fin 6 → SZ) : (lonDen y).x = lonDen (vx y) := by
  simp [lonDen, div_x _ (root_sz _), a_sz, eSq_sz]

theorem dyn_sz (dVN gN : V3 SZ) (dt : SZ) (y : Fin 6 → SZ) (hdt : Pl dt) (h : lonDen (vx y) ≠ .fin 0) :
    vx (dynG dVN gN dt y) = dynG (vx dVN) (vx gN) dt.x (vx y) := by
  have h1 : Pl (lonDen y) := pl_of_ne (by rw [lonDen_sz]; exact h)
  rw [lonDen] at h1
  have h2 : Pl _ := pl_add_left (y 2) (meridian_sz (y 0))
  ext i
  fin_cases i <;> simp [dynG, vdiv, div_x _ (root_sz _), div_x _ h1, div_x _ h2, div_x _ hdt, div_x _ (pl_powq _ _), a_sz, eSq_sz, wE_sz]

theorem add_finite {a b : XR} (h : (a + b).Finite) : a.Finite ∧ b.Finite := by
  obtain ⟨v, h⟩ := h
  cases a <;> cases b <;> first | exact ⟨⟨_, rfl⟩, ⟨_, rfl⟩⟩ | (exfalso; cases h)

theorem mul_finite {a b : XR} (h : (a * b).Finite) : b.Finite := by
  obtain ⟨v, h⟩ := h
  change XR.mul a b = _ at h
  cases b with
  | fin w => exact ⟨w, rfl⟩
  | nan => cases a <;> cases h
  | pinf =>
    exfalso
    cases a <;> simp [XR.mul, XR.infSign] at h
    split_ifs at h
  | ninf =>
    exfalso
    cases a <;> simp [XR.mul, XR.infSign] at h
    split_ifs at h

theorem lon_rate_ne {dVN gN : V3 XR} {dt : XR} {y : Fin 6 → XR} (h : (dynG dVN gN dt y 1).Finite) : lonDen y ≠ .fin 0 := fun e => by
  have : dynG dVN gN dt y 1 = y 4 / lonDen y := rfl
  rw [this, e] at h
  exact div_zero_not_finite _ h

theorem rk4_sz (dVN gN : V3 SZ) (dt : SZ) (y : Fin 6 → SZ) (hdt : Pl dt) (h : (rk4G (vx dVN) (vx gN) dt.x (vx y) 1).Finite) :
    vx (rk4G dVN gN dt y) = rk4G (vx dVN) (vx gN) dt.x (vx y) := by
  have h6 : (Flt.lit 1 / Flt.lit 6 : SZ).x = Flt.lit 1 / Flt.lit 6 := div_x _ (pl_lit _)
  have h3 : (Flt.lit 1 / Flt.lit 3 : SZ).x = Flt.lit 1 / Flt.lit 3 := div_x _ (pl_lit _)
  have hv : ∀ v : Fin 6 → SZ, vx (vdiv v (Flt.lit 2)) = vdiv (vx v) (Flt.lit 2) := fun v => vdiv_x v (pl_lit 2)
  simp only [rk4G, vadd, vsmul] at h
  obtain ⟨h, k4⟩ := add_finite h
  obtain ⟨h, k3⟩ := add_finite h
  obtain ⟨h, k2⟩ := add_finite h
  obtain ⟨-, k1⟩ := add_finite h
  have d1 := dyn_sz dVN gN dt y hdt (lon_rate_ne (mul_finite (mul_finite k1)))
  have e2 := lon_rate_ne (mul_finite (mul_finite k2))
  have e3 := lon_rate_ne (mul_finite (mul_finite k3))
  have e4 := lon_rate_ne (mul_finite (mul_finite k4))
  have q1 : vx (vsmul dt (dynG dVN gN dt y)) = vsmul dt.x (dynG (vx dVN) (vx gN) dt.x (vx y)) := by rw [vsmul_x, d1]
  have y2 : vx (vadd y (vdiv (vsmul dt (dynG dVN gN dt y)) (Flt.lit 2))) = vadd (vx y) (vdiv (vsmul dt.x (dynG (vx dVN) (vx gN) dt.x (vx y))) (Flt.lit 2)) := by
    rw [vadd_x, hv, q1]
  have d2 := dyn_sz dVN gN dt (vadd y (vdiv (vsmul dt (dynG dVN gN dt y)) (Flt.lit 2))) hdt (by rw [y2]; exact e2)
  rw [y2] at d2
  simp only [rk4G]
  clear k1 k2 k3 k4 h e2
  generalize vadd y (vdiv (vsmul dt (dynG dVN gN dt y)) (Flt.lit 2)) = Y2 at *
  have q2 : vx (vsmul dt (dynG dVN gN dt Y2)) = vsmul dt.x (dynG (vx dVN) (vx gN) dt.x (vadd (vx y) (vdiv (vsmul dt.x (dynG (vx dVN) (vx gN) dt.x (vx y)))
      (Flt.lit 2)))) := by rw [vsmul_x, d2]
  have y3 := (vadd_x y (vdiv (vsmul dt (dynG dVN gN dt Y2)) (Flt.lit 2))).trans (congrArg (vadd (vx y)) ((hv _).trans (congrArg (fun w => vdiv w (Flt.lit 2)) q2)))
  have d3 := dyn_sz dVN gN dt (vadd y (vdiv (vsmul dt (dynG dVN gN dt Y2)) (Flt.lit 2))) hdt (by rw [y3]; exact e3)
  rw [y3] at d3
  generalize vadd y (vdiv (vsmul dt (dynG dVN gN dt Y2)) (Flt.lit 2)) = Y3 at *
  have q3 := (vsmul_x dt (dynG dVN gN dt Y3)).trans (congrArg _ d3)
  have y4 := (vadd_x y (vsmul dt (dynG dVN gN dt Y3))).trans (congrArg (vadd (vx y)) q3)
  have d4 := dyn_sz dVN gN dt (vadd y (vsmul dt (dynG dVN gN dt Y3))) hdt (by rw [y4]; exact e4)
  rw [y4] at d4
  generalize vadd y (vsmul dt (dynG dVN gN dt Y3)) = Y4 at *
  have q4 := (vsmul_x dt (dynG dVN gN dt Y4)).trans (congrArg _ d4)
  simp only [vadd_x, vsmul_x _ (vsmul _ _), h6, h3, q1, q2, q3, q4]

/-- the values of a navigation state -/
def stx (s : St SZ) : St XR :=
  ⟨s.lla.map vx, s.vNed.map vx, s.RB2N.map mx, s.tov, s.dt.map SZ.x, s.llaPrev.map vx, s.vNedPrev.map vx, s.RB2NPrev.map mx, s.tovPrev⟩

theorem dt_sz (d : ℤ) : Pl (Flt.ofInt d / Flt.lit 1e6 : SZ) := fun ⟨e, es⟩ => by
  rw [div_x _ (pl_lit _), ofInt_x, lit_x, X_ofInt, X_lit, fin_div _ _ (by norm_num), fin_inj, div_eq_zero_iff] at e
  have hd : (d : ℝ) = 0 := e.resolve_right (by norm_num)
  change Bool.xor (sg ⟨Flt.ofInt d, false⟩) (sg ⟨Flt.lit 1e6, false⟩) = true at es
  rw [sg_pos (a := ⟨Flt.lit 1e6, false⟩) (v := 1e6) (by simp [xsimp]) (by norm_num), sg_zero (a := ⟨Flt.ofInt d, false⟩) (by simp [xsimp, hd])] at es
  cases es

theorem integrate_sz (s : St SZ) (lla vNed dV dTh : V3 SZ) (R : M3 SZ) (t tov : Int) (h : Ready s lla vNed R t)
    (ht : -2 ^ 63 ≤ tov - t ∧ tov - t < 2 ^ 63) (hfin : (nextY (vx lla) (vx vNed) (vx dV) (mx R) (vx dTh) (tov - t) 1).Finite) :
    Except.map (Prod.map id stx) (integrate s dV dTh tov) = integrate (stx s) (vx dV) (vx dTh) tov := by
  have hr : Ready (stx s) (vx lla) (vx vNed) (mx R) t := by
    obtain ⟨h1, h2, h3, h4⟩ := h
    simp [Ready, stx, h1, h2, h3, h4]
  have hdx : (Flt.ofInt (tov - t) / Flt.lit 1e6 : SZ).x = Flt.ofInt (tov - t) / Flt.lit 1e6 := div_x _ (pl_lit _)
  have hdt := dt_sz (tov - t)
  have hY : vx (nextY lla vNed dV R dTh (tov - t)) = nextY (vx lla) (vx vNed) (vx dV) (mx R) (vx dTh) (tov - t) := by
    have e0 : vx ![lla 0, lla 1, lla 2, vNed 0, vNed 1, vNed 2] = ![vx lla 0, vx lla 1, vx lla 2, vx vNed 0, vx vNed 1, vx vNed 2] := by
      ext i; fin_cases i <;> rfl
    have e1 : vx (mvec (mmul R (attInc dTh)) dV) = mvec (mmul (mx R) (attInc (vx dTh))) (vx dV) := by rw [mvec_x, mmul_x, attInc_sz]
    have e2 : vx (Gravity.gravityNed (lla 0) (lla 2)).2 = (Gravity.gravityNed (vx lla 0) (vx lla 2)).2 := congrArg Prod.snd (C175_gravityNed (lla 0) (lla 2))
    rw [nextY, nextY, rk4_sz _ _ _ _ hdt (by rw [e0, e1, e2, hdx]; exact hfin), e0, e1, e2, hdx]
  have hYi : ∀ i, (nextY lla vNed dV R dTh (tov - t) i).x = nextY (vx lla) (vx vNed) (vx dV) (mx R) (vx dTh) (tov - t) i := fun i => congrFun hY i
  rw [integrate_eval s lla vNed dV dTh R t tov h ht, integrate_eval _ _ _ _ _ _ t tov hr ht]
  refine congrArg Except.ok (Prod.ext rfl ?_)
  show stx _ = _
  simp only [stx, Option.map_some, mmul_x, attInc_sz, hdx, ← hYi]
  congr 2 <;> (ext i; fin_cases i <;> rfl)

/-- the values of the arguments of a call -/
def callx : Call SZ → Call XR
  | .init lla vNed rph t => .init (vx lla) (vx vNed) (vx rph) t
  | .integ dV dTh t => .integ (vx dV) (vx dTh) t

/-- every longitude along a history of calls is finite -/
def LonFinite : St XR → List (Call XR) → Prop
  | _, [] => True
  | s, c :: cs => ∀ r, call s c = .ok r → (∀ l, r.2.lla = some l → (l 1).Finite) ∧ LonFinite r.2 cs

theorem init_sz (s : St SZ) (lla vNed rph : V3 SZ) (t : Int) :
    Prod.map id stx (Strapdown.init s lla vNed rph t) = Strapdown.init (stx s) (vx lla) (vx vNed) (vx rph) t := by
  rw [init_eval, init_eval]
  refine Prod.ext rfl ?_
  have e : mx (euler2Dcm rph).2 = (euler2Dcm (vx rph)).2 := congrArg Prod.snd (C175_euler2Dcm rph)
  simp only [Prod.map, stx, Option.map_some, e]

theorem call_sz (s : St SZ) (lla vNed : V3 SZ) (R : M3 SZ) (t : Int) (h : Ready s lla vNed R t) (c : Call SZ) (cs : List (Call SZ))
    (hf : TimesFit t (c :: cs)) (hl : LonFinite (stx s) (callx c :: cs.map callx)) :
    Except.map (Prod.map id stx) (call s c) = call (stx s) (callx c) := by
  cases c with
  | init lla vNed rph t' => exact congrArg Except.ok (init_sz s lla vNed rph t')
  | integ dV dTh t' =>
    have hr : Ready (stx s) (vx lla) (vx vNed) (mx R) t := by
      obtain ⟨h1, h2, h3, h4⟩ := h
      simp [Ready, stx, h1, h2, h3, h4]
    refine integrate_sz s lla vNed dV dTh R t t' h hf.1 ?_
    exact (hl _ (integrate_eval (stx s) _ _ (vx dV) (vx dTh) _ t t' hr hf.1)).1 _ rfl

theorem timesFit_sz (cs : List (Call SZ)) (t : Int) (h : TimesFit t cs) : TimesFit t (cs.map callx) := by
  induction cs generalizing t with
  | nil => trivial
  | cons c cs ih =>
    cases c with
    | init => exact ih _ h
    | integ => exact ⟨h.1, ih _ h.2⟩

theorem run_sz (cs : List (Call SZ)) (s : St SZ) (lla vNed : V3 SZ) (R : M3 SZ) (t : Int) (h : Ready s lla vNed R t) (hf : TimesFit t cs)
    (hl : LonFinite (stx s) (cs.map callx)) : Except.map (Prod.map id stx) (run s cs) = run (stx s) (cs.map callx) := by
  induction cs generalizing s lla vNed R t with
  | nil => rfl
  | cons c cs ih =>
    obtain ⟨s1, e1, ⟨l, v, R', h1⟩, hf1⟩ := call_ready s lla vNed R t h c cs hf
    have e2 := call_sz s lla vNed R t h c cs hf hl
    rw [e1] at e2
    change Except.ok (true, stx s1) = _ at e2
    have e3 := ih s1 l v R' c.tov h1 hf1 (hl _ e2.symm).2
    simp only [List.map_cons, run, e1, ← e2, osimp, ← e3]
    cases run s1 cs <;> rfl

/-- C175, navigation: initialise a navigator in any state, then make any calls. As long as the longitude stays finite, the signs of the zeros among the
initial values and the samples have no effect: every value the navigator holds at the end is what it would be without signs. -/
theorem C175_navigator (s : St SZ) (lla vNed rph : V3 SZ) (t : Int) (cs : List (Call SZ)) (hf : TimesFit t cs)
    (hl : LonFinite (stx s) (.init (vx lla) (vx vNed) (vx rph) t :: cs.map callx)) :
    Except.map (Prod.map id stx) (run s (.init lla vNed rph t :: cs)) = run (stx s) (.init (vx lla) (vx vNed) (vx rph) t :: cs.map callx) := by
  have e := run_sz cs _ lla vNed _ t (init_ready s lla vNed rph t) hf (by
    have := (hl _ rfl).2
    rw [← init_sz] at this
    exact this)
  have e0 := congrArg Prod.snd (init_sz s lla vNed rph t)
  simp only [run, call, osimp]
  rw [← e0, Prod.map_snd, ← e]
  cases run (Strapdown.init s lla vNed rph t).2 cs <;> rfl

/-- a vehicle at rest whose velocity is a vector of negative zeros, turned by a gyroscope sample: the longitude stays finite, so `C175_navigator` applies -/
example (lla φ : V3 ℝ) (hφ : φ ≠ 0) (hp : RegularPos (lla 0) (lla 2)) :
    ∃ dV : V3 ℝ, LonFinite (stx {}) (.init (vx fun i => ⟨.fin (lla i), true⟩) (vx fun _ => ⟨.fin 0, true⟩) (vx fun _ => ⟨.fin 0, true⟩) 0
      :: [Call.integ (fun i => ⟨.fin (dV i), false⟩) (fun i => ⟨.fin (φ i), false⟩) 1].map callx) := by
  have hR : IsRot (bodyToNed ((0 : V3 ℝ) 0) ((0 : V3 ℝ) 1) ((0 : V3 ℝ) 2))ᵀ := (bodyToNed_isRot _ _ _).transpose
  have hex : ∀ (R : M3 ℝ) (w : V3 ℝ), IsRot R → ∃ dV, R *ᵥ rotByVec φ dV = w := fun R w hR =>
    ⟨(attInc φ)ᵀ *ᵥ (Rᵀ *ᵥ w), by rw [← attInc_R φ _ hφ, mulVec_mulVec (Rᵀ *ᵥ w), (attInc_isRot φ hφ).1, one_mulVec, mulVec_mulVec, hR.1, one_mulVec]⟩
  obtain ⟨dV, hdV⟩ := hex _ (-((((1 - 0 : ℤ) : ℝ) / 1000000) • (Gravity.gravityNed (lla 0) (lla 2)).2)) hR
  refine ⟨dV, fun q e => ?_⟩
  injection e with e
  subst e
  refine ⟨fun l hl => by injection hl with hl; subst hl; exact ⟨_, rfl⟩, fun q e => ?_⟩
  refine ⟨fun l hl => ?_, trivial⟩
  obtain ⟨s', e', h1, -⟩ := C90_at_rest (Strapdown.init (stx {}) (finV lla) (finV 0) (finV 0) 0).2 lla φ
    (bodyToNed ((0 : V3 ℝ) 0) ((0 : V3 ℝ) 1) ((0 : V3 ℝ) 2))ᵀ 0 1 ⟨rfl, rfl, congrArg some (congrArg Prod.snd (C34_finite 0)), rfl⟩ hφ (by norm_num)
    (by norm_num) hp dV hdV
  change integrate _ _ _ _ = _ at e
  have : Except.ok (true, s') = Except.ok q := e'.symm.trans e
  injection this with this
  subst this
  rw [h1] at hl
  injection hl with hl
  subst hl
  exact ⟨_, rfl⟩

/-! ## ECEF to geodetic coordinates: the one place where a sign is observable -/

theorem e2_sz : (Flt.powi (Flt.sqrt (Flt.lit 1 - Flt.powi (Flt.lit 1 - (Gravity.f : SZ)) 2)) 2).x = .fin ecc2 := by
  simp only [powi_x, sqrt_x, sub_x, lit_x, f_sz, e_X, X_powi, Real.sq_sqrt ecc2_pos.le]

theorem k_sz : (Flt.powi (Flt.sqrt ((Flt.powi (Gravity.a : SZ) 2 - Flt.powi Gravity.b 2) / Flt.powi Gravity.b 2)) 2 * Gravity.b).x = .fin kC := by
  have hb : polarC ^ 2 ≠ 0 := (pow_pos polarC_pos 2).ne'
  have hep : 0 ≤ (semiMajor ^ 2 - polarC ^ 2) / polarC ^ 2 := by norm_num [semiMajor, polarC]
  have hbX : (Gravity.b : XR) = fin polarC := by rw [b_X, b_R]
  simp only [mul_x, powi_x, sqrt_x, div_x _ (pl_powi_even (Gravity.b : SZ) (n := 2) rfl), sub_x, a_sz, b_sz, a_X, hbX, xsimp, fin_div _ _ hb, X_sqrt _ hep]
  rw [Real.sq_sqrt hep, kC]
  have := polarC_pos.ne'
  field_simp

theorem cos_pm_pi {φ ψ : ℝ} (h : φ = ψ ∨ φ = -Real.pi ∧ ψ = Real.pi) : Real.cos φ = Real.cos ψ ∧ Real.sin φ = Real.sin ψ := by
  rcases h with rfl | ⟨rfl, rfl⟩
  · exact ⟨rfl, rfl⟩
  · simp

theorem latY_zero (p z : ℝ) : latYR p z = 0 ↔ z = 0 := by
  rw [latYR, thR, Complex.sin_arg]
  have hn := norm_nonneg (⟨polarC * p, semiMajor * z⟩ : ℂ)
  have hk := kC_pos
  have ha := semiMajor_pos
  show z + kC * (semiMajor * z / _) ^ 3 = 0 ↔ _
  generalize ‖(⟨polarC * p, semiMajor * z⟩ : ℂ)‖ = D at *
  have e : z + kC * (semiMajor * z / D) ^ 3 = z * (1 + kC * semiMajor * (semiMajor * z) ^ 2 / D ^ 3) := by ring
  rw [e, mul_eq_zero, or_iff_left]
  have : 0 ≤ kC * semiMajor * (semiMajor * z) ^ 2 / D ^ 3 := by positivity
  linarith

theorem sg_of_pl {a : SZ} {v : ℝ} (h : a.x = .fin v) (hp : Pl a) : a.sg = decide (v < 0) := by
  by_cases hv : v = 0
  · subst hv
    rw [sg_zero h]
    simp only [lt_irrefl, decide_false]
    by_contra hs
    exact hp ⟨h, by simpa using hs⟩
  · simp [sg, h, hv]

/-- the values computed inside `ecef2Lla` -/
theorem lat_sz (z p K E : SZ) (Z P : ℝ) (hz : z.x = .fin Z) (hp : p.x = .fin P) (hp0 : 0 ≤ P) (hpl : Pl p) (hK : K.x = .fin kC) (hE : E.x = .fin (ecc2 * semiMajor)) :
    let th := Flt.atan2 (Gravity.a * z) (Gravity.b * p)
    (Flt.atan2 (z + K * Flt.powi (Flt.sin th) 3) (p - E * Flt.powi (Flt.cos th) 3)).x
      = .fin (if Z = 0 ∧ z.s = true ∧ latR P Z = Real.pi then -Real.pi else latR P Z) := by
  intro th
  have hbX : (Gravity.b : XR) = fin polarC := by rw [b_X, b_R]
  have haz : (Gravity.a * z : SZ).x = .fin (semiMajor * Z) := by rw [mul_x, a_sz, a_X, hz, fin_mul]
  have hbp : (Gravity.b * p : SZ).x = .fin (polarC * P) := by rw [mul_x, b_sz, hbX, hp, fin_mul]
  have hbs : (Gravity.b * p : SZ).sg = false := by
    rw [sg_of_pl hbp (pl_mul_pos (v := polarC) (by rw [b_sz, hbX]) polarC_pos hpl)]
    simpa using mul_nonneg polarC_pos.le hp0
  have hth : th.x = .fin (thR P Z) := atan2_x haz hbp fun _ h => by rw [hbs] at h; cases h
  have hY : (z + K * Flt.powi (Flt.sin th) 3).x = .fin (latYR P Z) := by
    simp only [add_x, mul_x, powi_x, sin_x, hz, hK, hth, xsimp, latYR]
  have hX : (p - E * Flt.powi (Flt.cos th) 3).x = .fin (latXR P Z) := by
    simp only [sub_x, mul_x, powi_x, cos_x, hp, hE, hth, xsimp, latXR]
  have hXs := sg_of_pl hX (pl_sub _ hpl)
  by_cases h0 : Z = 0 ∧ latXR P Z < 0
  · obtain ⟨rfl, hn⟩ := h0
    have hY0 := (latY_zero P 0).2 rfl
    rw [hY0] at hY
    have hL : latR P 0 = Real.pi := by rw [latR, hY0]; exact Complex.arg_eq_pi_iff.2 ⟨hn, rfl⟩
    have ht0 : thR P 0 = 0 := by
      rw [thR, mul_zero]
      exact Complex.arg_ofReal_of_nonneg (mul_nonneg polarC_pos.le hp0)
    have s1 : th.sg = z.s := by
      rw [sg_zero (by rw [hth, ht0])]
      show (Gravity.a * z : SZ).sg = z.s
      rw [sg_zero (by rw [haz, mul_zero])]
      show Bool.xor _ _ = _
      rw [sg_pos (v := semiMajor) (by rw [a_sz, a_X]) semiMajor_pos, sg_zero hz, Bool.false_xor]
    have s2 : (Flt.sin th).sg = z.s := by
      rw [sg_zero (by rw [sin_x, hth, ht0, X_sin, Real.sin_zero]), ← s1]
      rfl
    have s3 : (Flt.powi (Flt.sin th) 3).sg = z.s := by
      rw [sg_zero (by rw [powi_x, sin_x, hth, ht0, X_sin, Real.sin_zero, X_powi]; norm_num), ← s2]
      show (_ && _) = _
      simp
    have s4 : (K * Flt.powi (Flt.sin th) 3).sg = z.s := by
      rw [sg_zero (by rw [mul_x, powi_x, sin_x, hth, ht0, X_sin, Real.sin_zero, X_powi, hK, fin_mul]; norm_num), ← s3]
      show Bool.xor _ _ = _
      rw [sg_pos hK kC_pos, Bool.false_xor]
    have s5 : (z + K * Flt.powi (Flt.sin th) 3).s = z.s := by
      show (_ && _) = _
      rw [s4, sg_zero hz, Bool.and_self]
    rw [atan2_x_zero hY hX (by rw [hXs]; simpa using hn), s5]
    simp [hL]
  · rw [atan2_x hY hX fun h1 h2 => absurd ⟨(latY_zero P Z).1 h1, by rw [hXs] at h2; simpa using h2⟩ h0, if_neg]
    · rfl
    · rintro ⟨rfl, -, h⟩
      rw [latR, Complex.arg_eq_pi_iff] at h
      exact h0 ⟨rfl, h.1⟩

theorem fmod_small {L : ℝ} (h1 : -Real.pi ≤ L) (h2 : L ≤ Real.pi) : fmodR L (2 * Real.pi) = L := by
  have hp := Real.pi_pos
  have : truncR (L / (2 * Real.pi)) = 0 := by
    have ha : L / (2 * Real.pi) < 1 := by rw [div_lt_one (by positivity)]; linarith
    have hb : -1 < L / (2 * Real.pi) := by rw [lt_div_iff₀ (by positivity)]; linarith
    rw [truncR]
    split_ifs with h0
    · exact Int.floor_eq_zero_iff.2 ⟨h0, by linarith⟩
    · exact Int.ceil_eq_zero_iff.2 ⟨by linarith, by linarith⟩
  rw [fmodR, this]; simp

/-- the longitude is not changed by the reduction at the end -/
theorem wrap_sz (l : SZ) (L : ℝ) (hl : l.x = .fin L) (h1 : -Real.pi ≤ L) (h2 : L ≤ Real.pi) :
    (if Flt.lt Flt.pi (Flt.fmod l (Flt.lit 2 * Flt.pi)) then Flt.fmod l (Flt.lit 2 * Flt.pi) - (Flt.lit 2 * Flt.pi) else Flt.fmod l (Flt.lit 2 * Flt.pi) : SZ).x = .fin L := by
  have hpi : (2 : ℝ) * Real.pi ≠ 0 := by positivity
  have e : (Flt.fmod l (Flt.lit 2 * Flt.pi)).x = .fin L := by
    rw [fmod_x, hl, mul_x, lit_x, pi_x]
    simp only [xsimp, Rat.cast_ofNat, X_fmod _ _ hpi, fmod_small h1 h2]
  rw [if_neg (by rw [lt_x, e, pi_x]; simpa [xsimp, rsimp] using h2), e]

/-- C175, ECEF to geodetic coordinates: for finite positions with signed zeros the values differ from those without signs (φ, l, h) in two places only. On the
half-plane of the date line (y zero, x negative or a negative zero) the longitude is π or -π depending on the sign of y. Where, deep inside the earth, the latitude
is the impossible π (finding C26), it is -π if z is a negative zero. The height never depends on a sign. -/
theorem C175_ecef2Lla_characterised (r : V3 SZ) (v : V3 ℝ) (hv : vx r = finV v) (φ l : ℝ) (h : XR) (hx : ecef2Lla (finV v) = (true, .fin φ, .fin l, h)) :
    ∃ lat lon alt, ecef2Lla r = (true, lat, lon, alt)
      ∧ lat.x = .fin (if v 2 = 0 ∧ (r 2).s = true ∧ φ = Real.pi then -Real.pi else φ)
      ∧ lon.x = .fin (if v 1 = 0 ∧ (r 0).sg = true then (if (r 1).s then -Real.pi else Real.pi) else l)
      ∧ alt.x = h := by
  have h0 : (r 0).x = .fin (v 0) := congrFun hv 0
  have h1 : (r 1).x = .fin (v 1) := congrFun hv 1
  have h2 : (r 2).x = .fin (v 2) := congrFun hv 2
  have hr : 0 ≤ v 0 ^ 2 + v 1 ^ 2 := by positivity
  have hp : (Flt.sqrt (Flt.powi (r 0) 2 + Flt.powi (r 1) 2)).x = .fin (Real.sqrt (v 0 ^ 2 + v 1 ^ 2)) := by
    rw [sqrt_x, add_x, powi_x, powi_x, h0, h1]; simp only [xsimp, X_sqrt _ hr]
  have hpl : Pl (Flt.sqrt (Flt.powi (r 0) 2 + Flt.powi (r 1) 2)) := pl_sqrt (pl_add_left _ (pl_powi_even _ rfl))
  have hE : (Flt.powi (Flt.sqrt (Flt.lit 1 - Flt.powi (Flt.lit 1 - (Gravity.f : SZ)) 2)) 2 * Gravity.a).x = .fin (ecc2 * semiMajor) := by
    rw [mul_x, e2_sz, a_sz, a_X, fin_mul]
  have hlat := lat_sz (r 2) _ _ _ (v 2) _ h2 hp (Real.sqrt_nonneg _) hpl k_sz hE
  rw [ecef2Lla_X] at hx
  obtain ⟨-, hx⟩ := Prod.mk.injEq _ _ _ _ ▸ hx
  obtain ⟨hφ, hx⟩ := Prod.mk.injEq _ _ _ _ ▸ hx
  obtain ⟨hll, rfl⟩ := Prod.mk.injEq _ _ _ _ ▸ hx
  rw [fin_inj] at hφ hll
  rw [hφ] at hlat ⊢
  subst hll
  refine ⟨_, _, _, rfl, hlat, ?_, ?_⟩
  · refine wrap_sz _ _ ?_ ?_ ?_
    · by_cases h : v 1 = 0 ∧ (r 0).sg = true
      · rw [if_pos h, atan2_x_zero (by rw [h1, h.1]) h0 h.2]
      · rw [if_neg h, atan2_x h1 h0 fun ha hb => absurd ⟨ha, hb⟩ h]
    all_goals
      have hpi := Real.pi_pos
      have ha := Complex.arg_mem_Ioc ⟨v 0, v 1⟩
      split_ifs <;> linarith [ha.1, ha.2]
  · have hcs := cos_pm_pi (φ := if v 2 = 0 ∧ (r 2).s = true ∧ φ = Real.pi then -Real.pi else φ) (ψ := φ) (by
      split_ifs with h
      · exact .inr ⟨rfl, h.2.2⟩
      · exact .inl rfl)
    generalize (if v 2 = 0 ∧ (r 2).s = true ∧ φ = Real.pi then -Real.pi else φ) = φ' at hlat hcs
    show (_ / _ - _ / _ : SZ).x = _
    rw [sub_x, div_x _ (pl_cos _), div_x _ (root_sz _), hp, sqrt_x, sub_x, mul_x, e2_sz, powi_x _ 2, sin_x, cos_x, hlat, a_sz, a_X, lit_x]
    simp only [xsimp, Rat.cast_one, hcs.1, hcs.2, X_sqrt _ (w_pos φ).le, fin_div _ _ (Real.sqrt_pos.2 (w_pos φ)).ne', primeVertical]

/-- C175: with signed zeros the longitude range of C26 includes -π, and every result still lies in the closed range. -/
theorem C175_longitude_range (r : V3 SZ) (v : V3 ℝ) (hv : vx r = finV v) :
    ∃ lat lon alt, ∃ l : ℝ, ecef2Lla r = (true, lat, lon, alt) ∧ lon.x = .fin l ∧ -Real.pi ≤ l ∧ l ≤ Real.pi
      ∧ (l = -Real.pi ↔ v 1 = 0 ∧ (r 1).s = true ∧ (r 0).sg = true) := by
  obtain ⟨lat, lon, alt, e, -, hl, -⟩ := C175_ecef2Lla_characterised r v hv _ _ _ (ecef2Lla_X v)
  have hpi := Real.pi_pos
  have ha := Complex.arg_mem_Ioc ⟨v 0, v 1⟩
  refine ⟨lat, lon, alt, _, e, hl, ?_, ?_, ?_⟩
  · split_ifs <;> linarith [ha.1]
  · split_ifs <;> linarith [ha.2]
  · split_ifs with h1 h2
    · exact iff_of_true rfl ⟨h1.1, h2, h1.2⟩
    · exact iff_of_false (by linarith) fun h => h2 h.2.1
    · exact iff_of_false ha.1.ne' fun h => h1 ⟨h.1, h.2.2⟩

/-- a point on the date line whose y coordinate is a negative zero: the longitude is -π, not π -/
example : ∃ lat lon alt, ecef2Lla (![⟨.fin (-6378137), false⟩, ⟨.fin 0, true⟩, ⟨.fin 0, false⟩] : V3 SZ) = (true, lat, lon, alt) ∧ lon.x = .fin (-Real.pi) := by
  obtain ⟨lat, lon, alt, l, e, hl, -, -, h⟩ := C175_longitude_range ![⟨.fin (-6378137), false⟩, ⟨.fin 0, true⟩, ⟨.fin 0, false⟩] ![-6378137, 0, 0]
    (by ext i; fin_cases i <;> rfl)
  refine ⟨lat, lon, alt, e, ?_⟩
  rw [hl, h.2 ⟨rfl, rfl, by simp [sg]⟩]

end NavFuse.Props
