import Verif.Props.StrapdownNav
import Verif.Props.Symmetry

/-! # Property C131: the result does not depend on how the inertial unit is mounted -/

set_option linter.unusedSectionVars false

namespace NavFuse.Props
open NavFuse.Spec NavFuse.Strapdown NavFuse.NavUtils Matrix XR

/-- what the unit measures in one interval, and the time stamp -/
structure Imu where
  dV : V3 ℝ
  dTh : V3 ℝ
  tov : Int

/-- the call of `integrate` with these measurements -/
noncomputable def Imu.call (m : Imu) : Call XR := .integ (finV m.dV) (finV m.dTh) m.tov

/-- the same motion measured by a unit whose axes are turned by `C` relative to those of the first unit -/
def Imu.mounted (C : M3 ℝ) (m : Imu) : Imu := ⟨C *ᵥ m.dV, C *ᵥ m.dTh, m.tov⟩

/-- two navigators for the same vehicle, the second with a unit turned by `C`: same position, velocity, time and interval, attitudes that differ by the mounting -/
def SameVehicle (C : M3 ℝ) (s s' : St XR) : Prop :=
  s.lla = s'.lla ∧ s.vNed = s'.vNed ∧ s.tov = s'.tov ∧ s.dt = s'.dt
    ∧ ((s.RB2N = none ∧ s'.RB2N = none) ∨ ∃ R : M3 ℝ, s.RB2N = some (finM R) ∧ s'.RB2N = some (finM (R * Cᵀ)))

/-- the same outcome: the same undefined behaviour, or the same flags and navigators for the same vehicle -/
def SameOutcome (C : M3 ℝ) : Out (List Bool × St XR) → Out (List Bool × St XR) → Prop
  | .ok r, .ok r' => r.1 = r'.1 ∧ SameVehicle C r.2 r'.2
  | .error e, .error e' => e = e'
  | _, _ => False

theorem attInc_mounted {C : M3 ℝ} (hC : IsRot C) {φ : V3 ℝ} (hφ : φ ≠ 0) : attInc (C *ᵥ φ) = C * attInc φ * Cᵀ := by
  have h0 : C *ᵥ φ ≠ 0 := by
    intro h
    apply hφ
    rw [← one_mulVec φ, ← hC.transpose.1, transpose_transpose, ← mulVec_mulVec, h, mulVec_zero]
  refine Matrix.toLin'.injective (LinearMap.ext fun v => ?_)
  simp only [toLin'_apply]
  rw [attInc_R _ _ h0, ← mulVec_mulVec, ← mulVec_mulVec, attInc_R _ _ hφ, rotByVec_equivariant C hC, mulVec_mulVec, hC.1, one_mulVec]

theorem mounted_step {C : M3 ℝ} (hC : IsRot C) (R : M3 ℝ) {φ : V3 ℝ} (hφ : φ ≠ 0) :
    R * Cᵀ * attInc (C *ᵥ φ) = R * attInc φ * Cᵀ := by
  have h1 : Cᵀ * C = 1 := by simpa using hC.transpose.1
  rw [attInc_mounted hC hφ, Matrix.mul_assoc, Matrix.mul_assoc C, ← Matrix.mul_assoc Cᵀ, h1, Matrix.one_mul, Matrix.mul_assoc]

theorem mounted_call {C : M3 ℝ} (hC : IsRot C) (s s' : St XR) (h : SameVehicle C s s') (m : Imu) (hφ : m.dTh ≠ 0) :
    (∃ e, call s m.call = .error e ∧ call s' (m.mounted C).call = .error e)
    ∨ ∃ r r', call s m.call = .ok r ∧ call s' (m.mounted C).call = .ok r' ∧ r.1 = r'.1 ∧ SameVehicle C r.2 r'.2 := by
  obtain ⟨h1, h2, h4, -, h3⟩ := h
  have hφ' : C *ᵥ m.dTh ≠ 0 := by
    intro h
    apply hφ
    rw [← one_mulVec m.dTh, ← hC.transpose.1, transpose_transpose, ← mulVec_mulVec, h, mulVec_zero]
  simp only [Imu.call, Imu.mounted, call]
  cases a1 : s.lla with
  | none => exact .inl ⟨.ub .uninit, by simp [integrate, keepPrev, a1, rd, osimp, Out.ub], by simp [integrate, keepPrev, ← h1, a1, rd, osimp, Out.ub]⟩
  | some lla =>
  cases a2 : s.vNed with
  | none => exact .inl ⟨.ub .uninit, by simp [integrate, keepPrev, a1, a2, rd, osimp, Out.ub], by simp [integrate, keepPrev, ← h1, ← h2, a1, a2, rd, osimp, Out.ub]⟩
  | some vNed =>
  rcases h3 with ⟨a3, b3⟩ | ⟨R, a3, b3⟩
  · exact .inl ⟨.ub .uninit, by simp [integrate, keepPrev, a1, a2, a3, rd, osimp, Out.ub], by simp [integrate, keepPrev, ← h1, ← h2, b3, a1, a2, rd, osimp, Out.ub]⟩
  cases a4 : s.tov with
  | none => exact .inl ⟨.ub .uninit, by simp [integrate, keepPrev, a1, a2, a3, a4, rd, osimp, Out.ub], by simp [integrate, keepPrev, ← h1, ← h2, b3, ← h4, a1, a2, a4, rd, osimp, Out.ub]⟩
  | some t0 =>
  have r : Ready s lla vNed (finM R) t0 := ⟨a1, a2, a3, a4⟩
  have r' : Ready s' lla vNed (finM (R * Cᵀ)) t0 := ⟨by rw [← h1, a1], by rw [← h2, a2], b3, by rw [← h4, a4]⟩
  by_cases hb : -2 ^ 63 ≤ m.tov - t0 ∧ m.tov - t0 < 2 ^ 63
  · refine .inr ⟨_, _, integrate_eval s lla vNed _ _ _ t0 m.tov r hb, integrate_eval s' _ _ _ _ _ _ m.tov r' hb, rfl, ?_⟩
    have hR : (mmul (finM (R * Cᵀ)) (attInc (finV (C *ᵥ m.dTh)))) = finM (R * attInc m.dTh * Cᵀ) := by
      rw [attInc_X _ hφ', X_mmul, mounted_step hC R hφ]
    have hv : mvec (finM (R * attInc m.dTh * Cᵀ)) (finV (C *ᵥ m.dV)) = mvec (mmul (finM R) (attInc (finV m.dTh))) (finV m.dV) := by
      have h1 : Cᵀ * C = 1 := by simpa using hC.transpose.1
      rw [attInc_X _ hφ, X_mmul, X_mvec, X_mvec, mulVec_mulVec, Matrix.mul_assoc, h1, Matrix.mul_one]
    have hY : nextY lla vNed (finV (C *ᵥ m.dV)) (finM (R * Cᵀ)) (finV (C *ᵥ m.dTh)) (m.tov - t0)
        = nextY lla vNed (finV m.dV) (finM R) (finV m.dTh) (m.tov - t0) := by
      rw [nextY, nextY, hR, hv]
    simp only [hY, hR]
    exact ⟨rfl, rfl, rfl, rfl, .inr ⟨R * attInc m.dTh, by rw [attInc_X _ hφ, X_mmul], rfl⟩⟩
  · have b1 : sub64 m.tov t0 = Out.ub .overflow := by rw [sub64, if_neg hb]
    refine .inl ⟨.ub .overflow, ?_, ?_⟩
    · simp [integrate, keepPrev, stamp, r.1, r.2.1, r.2.2.1, r.2.2.2, rd, osimp, b1, Out.ub]
    · simp [integrate, keepPrev, stamp, r'.1, r'.2.1, r'.2.2.1, r'.2.2.2, rd, osimp, b1, Out.ub]

/-- C131: the result does not depend on the mounting of the inertial unit. Two navigators of the same vehicle, one of them with a unit whose axes are turned by an arbitrary
rotation `C`, hold exactly the same position, velocity and time after any number of intervals, and attitudes that differ by exactly the mounting rotation. This includes runs
that leave the finite numbers and runs that hit undefined behaviour. -/
theorem C131_mounting {C : M3 ℝ} (hC : IsRot C) (s s' : St XR) (h : SameVehicle C s s') (ms : List Imu) (hφ : ∀ m ∈ ms, m.dTh ≠ 0) :
    SameOutcome C (run s (ms.map Imu.call)) (run s' (ms.map fun m => (m.mounted C).call)) := by
  induction ms generalizing s s' with
  | nil => exact ⟨rfl, h⟩
  | cons m ms ih =>
    simp only [List.map_cons, run]
    rcases mounted_call hC s s' h m (hφ m (by simp)) with ⟨e, e1, e2⟩ | ⟨r, r', e1, e2, f, g⟩
    · rw [e1, e2]; exact rfl
    · rw [e1, e2]
      simp only [osimp]
      have := ih r.2 r'.2 g fun m hm => hφ m (by simp [hm])
      revert this
      cases run r.2 (ms.map Imu.call) <;> cases run r'.2 (ms.map fun m => (m.mounted C).call) <;>
        simp only [SameOutcome, osimp, imp_self]
      rintro ⟨a, b⟩
      exact ⟨by rw [a, f], b⟩

/-- C131: the two navigators are brought into this relation by `initialize` with the same position, velocity and time and with the roll, pitch and heading of the two units. -/
theorem C131_initialize (C : M3 ℝ) (s s' : St XR) (hdt : s.dt = s'.dt) (lla vNed : V3 XR) (e e' : V3 ℝ) (t : Int)
    (h : (bodyToNed (e' 0) (e' 1) (e' 2))ᵀ = (bodyToNed (e 0) (e 1) (e 2))ᵀ * Cᵀ) :
    SameVehicle C (Strapdown.init s lla vNed (finV e) t).2 (Strapdown.init s' lla vNed (finV e') t).2 := by
  rw [init_eval, init_eval, C34_finite, C34_finite]
  exact ⟨rfl, rfl, rfl, hdt, .inr ⟨_, rfl, by rw [h]⟩⟩

/-- Non-vacuity: a unit that is mounted upside down (turned by 180 degrees about the first axis), in a vehicle that is initially level and heads north; its roll angle is `π`. -/
example : IsRot !![1, 0, 0; 0, -1, 0; 0, 0, (-1 : ℝ)]
    ∧ (Imu.mounted !![1, 0, 0; 0, -1, 0; 0, 0, (-1 : ℝ)] ⟨![1, 2, -9.8], ![0.1, 0.2, 0.3], 10000⟩).dV = ![1, -2, 9.8]
    ∧ (bodyToNed Real.pi 0 0)ᵀ = (bodyToNed 0 0 0)ᵀ * (!![1, 0, 0; 0, -1, 0; 0, 0, (-1 : ℝ)])ᵀ := by
  refine ⟨⟨?_, ?_⟩, ?_, ?_⟩
  · ext i j; rw [mul_apply]; fin_cases i <;> fin_cases j <;> simp [Fin.sum_univ_three]
  · simp [det_fin_three]
  · ext i; fin_cases i <;> simp [Imu.mounted]
  · rw [← transpose_mul]
    congr 1
    ext i j
    rw [mul_apply, Fin.sum_univ_three]
    fin_cases i <;> fin_cases j <;> simp [bodyToNed, rotX, rotY, rotZ, mul_apply, Fin.sum_univ_three]

end NavFuse.Props
