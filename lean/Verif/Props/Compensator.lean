import Verif.Model.Compensator
import Verif.XR
import Mathlib.Tactic.FinCases
import Mathlib.Tactic.NormNum

/-! # Properties C53–C56: the measurement compensator -/

set_option linter.unusedSectionVars false

namespace NavFuse.Props.Comp
open Matrix NavFuse.Compensator NavFuse.XR

section generic
variable {α : Type} [Add α] [Sub α] [Mul α] [Div α] [Neg α] [Flt α]

/-- the error parameters of a sensor: bias, misalignments, scale factors -/
abbrev Params (α : Type) := V3 α × DVec α × V3 α

/-- a call of a public member function with its arguments -/
inductive Call (α : Type)
  | setA (p : Params α)
  | setG (p : Params α)
  | getA (p : Params α)
  | getG (p : Params α)
  | compA (dV : V3 α)
  | compG (dTh : V3 α)

/-- perform a call; the object afterwards -/
def call (s : St α) : Call α → Out (St α)
  | .setA p => .ok (setAccelerometerErrors s p.1 p.2.1 p.2.2).2
  | .setG p => .ok (setGyroscopeErrors s p.1 p.2.1 p.2.2).2
  | .getA p => do let _ ← getAccelerometerErrors s p.1 p.2.1 p.2.2; .ok s
  | .getG p => do let _ ← getGyroscopeErrors s p.1 p.2.1 p.2.2; .ok s
  | .compA dV => do let _ ← compensateAccelerometer s dV; .ok s
  | .compG dTh => do let _ ← compensateGyroscope s dTh; .ok s

/-- perform the calls in order -/
def run (s : St α) (cs : List (Call α)) : Out (St α) := cs.foldlM call s

/-- the parameters of the accelerometer setter calls that are accepted: those with six misalignments -/
def Call.acceptedA : Call α → Option (Params α)
  | .setA p => if p.2.1.n = 6 then some p else none
  | _ => none
/-- the same for the gyroscope -/
def Call.acceptedG : Call α → Option (Params α)
  | .setG p => if p.2.1.n = 6 then some p else none
  | _ => none

/-- the object holds these accelerometer parameters (`none`: as constructed) -/
def HoldsA (s : St α) : Option (Params α) → Prop
  | some p => s.ba = some p.1 ∧ s.ma = p.2.1 ∧ s.sfa = some p.2.2 ∧ p.2.1.n = 6
  | none => s.ba = none ∧ s.sfa = none
/-- the object holds these gyroscope parameters -/
def HoldsG (s : St α) : Option (Params α) → Prop
  | some p => s.bg = some p.1 ∧ s.mg = p.2.1 ∧ s.sfg = some p.2.2 ∧ p.2.1.n = 6
  | none => s.bg = none ∧ s.sfg = none

theorem call_holds (s s' : St α) (c : Call α) (h : call s c = .ok s') (pa pg : Option (Params α)) (ha : HoldsA s pa) (hg : HoldsG s pg) :
    HoldsA s' (c.acceptedA <|> pa) ∧ HoldsG s' (c.acceptedG <|> pg) := by
  cases c with
  | setA p =>
    simp only [call, setAccelerometerErrors] at h
    by_cases h6 : p.2.1.n = 6
    · rw [if_neg (by simpa using h6)] at h
      cases h
      simp only [Call.acceptedA, h6, if_true, Call.acceptedG]
      exact ⟨⟨rfl, rfl, rfl, h6⟩, by cases pg <;> exact hg⟩
    · rw [if_pos (by simpa using h6)] at h
      cases h
      simp only [Call.acceptedA, h6, if_false, Call.acceptedG]
      exact ⟨ha, hg⟩
  | setG p =>
    simp only [call, setGyroscopeErrors] at h
    by_cases h6 : p.2.1.n = 6
    · rw [if_neg (by simpa using h6)] at h
      cases h
      simp only [Call.acceptedA, h6, if_true, Call.acceptedG]
      exact ⟨by cases pa <;> exact ha, ⟨rfl, rfl, rfl, h6⟩⟩
    · rw [if_pos (by simpa using h6)] at h
      cases h
      simp only [Call.acceptedA, h6, if_false, Call.acceptedG]
      exact ⟨ha, hg⟩
  | getA p =>
    simp only [call] at h
    cases hx : getAccelerometerErrors s p.1 p.2.1 p.2.2 <;> rw [hx] at h <;> cases h
    exact ⟨ha, hg⟩
  | getG p =>
    simp only [call] at h
    cases hx : getGyroscopeErrors s p.1 p.2.1 p.2.2 <;> rw [hx] at h <;> cases h
    exact ⟨ha, hg⟩
  | compA dV =>
    simp only [call] at h
    cases hx : compensateAccelerometer s dV <;> rw [hx] at h <;> cases h
    exact ⟨ha, hg⟩
  | compG dTh =>
    simp only [call] at h
    cases hx : compensateGyroscope s dTh <;> rw [hx] at h <;> cases h
    exact ⟨ha, hg⟩

theorem run_holds (cs : List (Call α)) (s s' : St α) (h : run s cs = .ok s') (pa pg : Option (Params α)) (ha : HoldsA s pa) (hg : HoldsG s pg) :
    HoldsA s' ((cs.filterMap Call.acceptedA).getLast?.or pa) ∧ HoldsG s' ((cs.filterMap Call.acceptedG).getLast?.or pg) := by
  induction cs generalizing s pa pg with
  | nil => cases h; exact ⟨ha, hg⟩
  | cons c cs ih =>
    rw [run, List.foldlM_cons] at h
    cases h1 : call s c with
    | error e => rw [h1] at h; cases h
    | ok s1 =>
      rw [h1, Out.ok_bind] at h
      obtain ⟨a1, g1⟩ := call_holds s s1 c h1 pa pg ha hg
      obtain ⟨a2, g2⟩ := ih s1 h _ _ a1 g1
      constructor
      · cases hc : c.acceptedA with
        | none => rw [hc] at a2; simpa [List.filterMap_cons, hc] using a2
        | some p =>
          rw [hc] at a2
          rw [List.filterMap_cons_some hc, List.getLast?_cons]
          cases hl : (List.filterMap Call.acceptedA cs).getLast? <;> rw [hl] at a2 <;> simpa using a2
      · cases hc : c.acceptedG with
        | none => rw [hc] at g2; simpa [List.filterMap_cons, hc] using g2
        | some p =>
          rw [hc] at g2
          rw [List.filterMap_cons_some hc, List.getLast?_cons]
          cases hl : (List.filterMap Call.acceptedG cs).getLast? <;> rw [hl] at g2 <;> simpa using g2

theorem fresh_holds : HoldsA ({} : St α) none ∧ HoldsG ({} : St α) none := ⟨⟨rfl, rfl⟩, ⟨rfl, rfl⟩⟩

/-! ## C53 -/

/-- C53: the getters return the last accepted setter call. After any history on a fresh object that contains an accepted setter call of the sensor, the getter (called with a
six-entry vector) returns true and exactly the parameters of the last accepted one; rejected calls, calls for the other sensor, getters and compensations have no influence. -/
theorem C53_getters (cs : List (Call α)) (s' : St α) (h : run {} cs = .ok s') (p q : Params α) (hq : q.2.1.n = 6) :
    ((cs.filterMap Call.acceptedA).getLast? = some p → getAccelerometerErrors s' q.1 q.2.1 q.2.2 = .ok (true, p))
    ∧ ((cs.filterMap Call.acceptedG).getLast? = some p → getGyroscopeErrors s' q.1 q.2.1 q.2.2 = .ok (true, p)) := by
  obtain ⟨ha, hg⟩ := run_holds cs {} s' h none none fresh_holds.1 fresh_holds.2
  constructor
  · intro hl
    rw [hl] at ha
    obtain ⟨h1, h2, h3, h4⟩ := ha
    simp only [getAccelerometerErrors, hq, ne_eq, not_true_eq_false, if_false, h1, h2, h3, rd, osimp]
  · intro hl
    rw [hl] at hg
    obtain ⟨h1, h2, h3, h4⟩ := hg
    simp only [getGyroscopeErrors, hq, ne_eq, not_true_eq_false, if_false, h1, h2, h3, rd, osimp]

/-- C53: a setter returns true exactly for six misalignments and otherwise changes nothing; a getter called with a vector of another size returns false and leaves its arguments
alone. -/
theorem C53_sizes (s : St α) (p : Params α) :
    ((setAccelerometerErrors s p.1 p.2.1 p.2.2).1 = true ↔ p.2.1.n = 6) ∧ (p.2.1.n ≠ 6 → setAccelerometerErrors s p.1 p.2.1 p.2.2 = (false, s))
    ∧ ((setGyroscopeErrors s p.1 p.2.1 p.2.2).1 = true ↔ p.2.1.n = 6) ∧ (p.2.1.n ≠ 6 → setGyroscopeErrors s p.1 p.2.1 p.2.2 = (false, s))
    ∧ (p.2.1.n ≠ 6 → getAccelerometerErrors s p.1 p.2.1 p.2.2 = .ok (false, p) ∧ getGyroscopeErrors s p.1 p.2.1 p.2.2 = .ok (false, p)) := by
  by_cases h : p.2.1.n = 6 <;>
    simp [setAccelerometerErrors, setGyroscopeErrors, getAccelerometerErrors, getGyroscopeErrors, h]

/-- the hypotheses of `C53_getters` are met by a history with a rejected call, a call for the other sensor and an overwritten one -/
example (p q r : V3 α × (Fin 6 → α) × V3 α) (d : DVec α) (hd : d.n = 5) :
    ∃ s', run ({} : St α) [.setA (p.1, ⟨6, p.2.1⟩, p.2.2), .setA (q.1, ⟨6, q.2.1⟩, q.2.2), .setG (r.1, ⟨6, r.2.1⟩, r.2.2), .setA (p.1, d, p.2.2)] = .ok s'
      ∧ ([Call.setA (p.1, ⟨6, p.2.1⟩, p.2.2), .setA (q.1, ⟨6, q.2.1⟩, q.2.2), .setG (r.1, ⟨6, r.2.1⟩, r.2.2), .setA (p.1, d, p.2.2)].filterMap
          Call.acceptedA).getLast? = some (q.1, ⟨6, q.2.1⟩, q.2.2) := by
  refine ⟨_, rfl, ?_⟩
  simp [Call.acceptedA, hd, List.filterMap_cons]

/-! ## C56 -/

theorem get_fit (m : DVec α) (h : m.n = 6) : ∃ w : Fin 6 → α, m = ⟨6, w⟩ := by
  obtain ⟨n, v⟩ := m
  cases h
  exact ⟨v, rfl⟩

/-- the compensated measurement -/
def compG (b : V3 α) (w : Fin 6 → α) (sf meas : V3 α) : V3 α :=
  mvec (mmul !![sf 0, Flt.lit 0, Flt.lit 0; Flt.lit 0, sf 1, Flt.lit 0; Flt.lit 0, Flt.lit 0, sf 2]
    !![Flt.lit 1, w 0, w 1; w 2, Flt.lit 1, w 3; w 4, w 5, Flt.lit 1]) (vsub meas b)

theorem apply_eval (b : V3 α) (w : Fin 6 → α) (sf meas : V3 α) : applyErrors b ⟨6, w⟩ sf meas = .ok (true, compG b w sf meas) := by
  simp only [applyErrors, DVec.get, show ((0 : ℕ) < 6) = True by simp, show ((1 : ℕ) < 6) = True by simp, show ((2 : ℕ) < 6) = True by simp,
    show ((3 : ℕ) < 6) = True by simp, show ((4 : ℕ) < 6) = True by simp, show ((5 : ℕ) < 6) = True by simp, dite_true, osimp,
    Fin.zero_eta, Fin.mk_one, Fin.reduceFinMk, compG]

theorem accel_eval (s : St α) (b : V3 α) (w : Fin 6 → α) (sf dV : V3 α) (h1 : s.ba = some b) (h2 : s.ma = ⟨6, w⟩) (h3 : s.sfa = some sf) :
    compensateAccelerometer s dV = .ok (true, compG b w sf dV) := by
  simp only [compensateAccelerometer, compensateMeasurement, if_true, h1, h2, h3, rd, osimp, apply_eval, Bool.not_true, Bool.false_eq_true, if_false]

theorem gyro_eval (s : St α) (b : V3 α) (w : Fin 6 → α) (sf dTh : V3 α) (h1 : s.bg = some b) (h2 : s.mg = ⟨6, w⟩) (h3 : s.sfg = some sf) :
    compensateGyroscope s dTh = .ok (true, compG b w sf dTh) := by
  simp only [compensateGyroscope, compensateMeasurement, show ¬("gyro" = "accel") by decide, if_true, if_false, h1, h2, h3, rd, osimp, apply_eval,
    Bool.not_true, Bool.false_eq_true]

/-- C56: compensating before that sensor was calibrated reads indeterminate values, also if the other sensor was calibrated or a calibration was rejected; after an accepted
calibration it always succeeds. Nothing else matters in the history. -/
theorem C56_needs_calibration (cs : List (Call α)) (s' : St α) (h : run {} cs = .ok s') (meas : V3 α) :
    (cs.filterMap Call.acceptedA = [] → compensateAccelerometer s' meas = .error (.ub .uninit))
    ∧ (cs.filterMap Call.acceptedA ≠ [] → ∃ out, compensateAccelerometer s' meas = .ok (true, out))
    ∧ (cs.filterMap Call.acceptedG = [] → compensateGyroscope s' meas = .error (.ub .uninit))
    ∧ (cs.filterMap Call.acceptedG ≠ [] → ∃ out, compensateGyroscope s' meas = .ok (true, out)) := by
  obtain ⟨ha, hg⟩ := run_holds cs {} s' h none none fresh_holds.1 fresh_holds.2
  refine ⟨fun h0 => ?_, fun h0 => ?_, fun h0 => ?_, fun h0 => ?_⟩
  · rw [h0] at ha
    simp only [compensateAccelerometer, compensateMeasurement, if_true, ha.1, rd, osimp]
  · rw [List.getLast?_eq_some_getLast h0] at ha
    obtain ⟨h1, h2, h3, h4⟩ := ha
    obtain ⟨w, hw⟩ := get_fit _ h4
    exact ⟨_, accel_eval s' _ w _ meas h1 (h2.trans hw) h3⟩
  · rw [h0] at hg
    simp only [compensateGyroscope, compensateMeasurement, show ¬("gyro" = "accel") by decide, if_true, if_false, hg.1, rd, osimp]
  · rw [List.getLast?_eq_some_getLast h0] at hg
    obtain ⟨h1, h2, h3, h4⟩ := hg
    obtain ⟨w, hw⟩ := get_fit _ h4
    exact ⟨_, gyro_eval s' _ w _ meas h1 (h2.trans hw) h3⟩

/-- both situations occur after one and the same history -/
example (p : V3 α × (Fin 6 → α) × V3 α) : ∃ s', run ({} : St α) [.setG (p.1, ⟨6, p.2.1⟩, p.2.2)] = .ok s'
    ∧ [Call.setG (p.1, ⟨6, p.2.1⟩, p.2.2)].filterMap Call.acceptedA = [] ∧ [Call.setG (p.1, ⟨6, p.2.1⟩, p.2.2)].filterMap Call.acceptedG ≠ [] :=
  ⟨_, rfl, rfl, by simp [Call.acceptedG]⟩

end generic

/-! ## C54 -/

/-- the error model: scale factors on the diagonal, misalignments off the diagonal of a unit matrix, in reading order -/
def errModel (m : Fin 6 → ℝ) (sf : V3 ℝ) : M3 ℝ := Matrix.diagonal sf * !![1, m 0, m 1; m 2, 1, m 3; m 4, m 5, 1]

theorem comp_X (b : V3 ℝ) (m : Fin 6 → ℝ) (sf x : V3 ℝ) : compG (finV b) (finV m) (finV sf) (finV x) = finV (errModel m sf *ᵥ (x - b)) := by
  have h1 : (!![fin (sf 0), fin 0, fin 0; fin 0, fin (sf 1), fin 0; fin 0, fin 0, fin (sf 2)] : M3 XR) = finM (Matrix.diagonal sf) := by
    ext i j; fin_cases i <;> fin_cases j <;> simp [xsimp, Matrix.diagonal]
  have h2 : (!![fin 1, fin (m 0), fin (m 1); fin (m 2), fin 1, fin (m 3); fin (m 4), fin (m 5), fin 1] : M3 XR)
      = finM !![1, m 0, m 1; m 2, 1, m 3; m 4, m 5, 1] := by
    ext i j; fin_cases i <;> fin_cases j <;> rfl
  simp only [compG, xsimp]
  rw [h1, h2]
  simp only [xsimp, errModel]

/-- C54: compensation removes the modelled errors. If the raw measurement is the bias plus the inverse error model applied to the true value, both compensation functions return
exactly the true value, whatever the parameters of the other sensor are (even indeterminate ones). -/
theorem C54_removes_errors (s : St XR) (b : V3 ℝ) (m : Fin 6 → ℝ) (sf truth : V3 ℝ) (hM : IsUnit (errModel m sf).det) :
    (s.ba = some (finV b) → s.ma = ⟨6, finV m⟩ → s.sfa = some (finV sf) →
      compensateAccelerometer s (finV (b + (errModel m sf)⁻¹ *ᵥ truth)) = .ok (true, finV truth))
    ∧ (s.bg = some (finV b) → s.mg = ⟨6, finV m⟩ → s.sfg = some (finV sf) →
      compensateGyroscope s (finV (b + (errModel m sf)⁻¹ *ᵥ truth)) = .ok (true, finV truth)) := by
  have e : errModel m sf *ᵥ (b + (errModel m sf)⁻¹ *ᵥ truth - b) = truth := by
    rw [add_sub_cancel_left, mulVec_mulVec, mul_nonsing_inv _ hM, one_mulVec]
  refine ⟨fun h1 h2 h3 => ?_, fun h1 h2 h3 => ?_⟩
  · rw [accel_eval s _ _ _ _ h1 h2 h3, comp_X, e]
  · rw [gyro_eval s _ _ _ _ h1 h2 h3, comp_X, e]

/-- C54: the map is affine, and finite for finite arguments (also when the error model is singular). -/
theorem C54_affine (s : St XR) (b : V3 ℝ) (m : Fin 6 → ℝ) (sf : V3 ℝ) (h1 : s.ba = some (finV b)) (h2 : s.ma = ⟨6, finV m⟩)
    (h3 : s.sfa = some (finV sf)) (h4 : s.bg = some (finV b)) (h5 : s.mg = ⟨6, finV m⟩) (h6 : s.sfg = some (finV sf)) :
    ∃ A : V3 ℝ → V3 ℝ, (∀ x, compensateAccelerometer s (finV x) = .ok (true, finV (A x)) ∧ compensateGyroscope s (finV x) = .ok (true, finV (A x)))
      ∧ A b = 0 ∧ ∀ (x y : V3 ℝ) (c : ℝ), A (b + (c • x + y)) = c • A (b + x) + A (b + y) := by
  refine ⟨fun x => errModel m sf *ᵥ (x - b), fun x => ⟨?_, ?_⟩, by simp, fun x y c => by simp [mulVec_add, mulVec_smul]⟩
  · rw [accel_eval s _ _ _ _ h1 h2 h3, comp_X]
  · rw [gyro_eval s _ _ _ _ h4 h5 h6, comp_X]

/-- realistic parameters: scale factors near one and small misalignments give an invertible model -/
example : IsUnit (errModel ![0.001, -0.002, 0.001, 0.003, 0, 0.002] ![1.01, 0.99, 1.02]).det := by
  rw [isUnit_iff_ne_zero, errModel, det_mul, det_diagonal, det_fin_three, Fin.prod_univ_three]
  simp
  norm_num

/-! ## C55 -/

/-- C55 fails: with all errors zero the code multiplies by zero and returns the zero vector, for both sensors and every finite measurement; it uses the "scale factor errors" as
scale factors. (Full claim: the measurement is returned unchanged.) -/
theorem C55_zero_errors_fails (s : St XR) (x : V3 ℝ) (hx : x ≠ 0)
    (h : (s.ba = some (finV 0) ∧ s.ma = ⟨6, finV 0⟩ ∧ s.sfa = some (finV 0)) ∧ (s.bg = some (finV 0) ∧ s.mg = ⟨6, finV 0⟩ ∧ s.sfg = some (finV 0))) :
    compensateAccelerometer s (finV x) = .ok (true, finV 0) ∧ compensateGyroscope s (finV x) = .ok (true, finV 0)
    ∧ (finV 0 : V3 XR) ≠ finV x := by
  obtain ⟨⟨h1, h2, h3⟩, h4, h5, h6⟩ := h
  have e : errModel 0 0 *ᵥ (x - 0) = 0 := by
    rw [errModel, show (Matrix.diagonal (0 : V3 ℝ)) = 0 from Matrix.diagonal_zero, Matrix.zero_mul, zero_mulVec]
  refine ⟨?_, ?_, fun hc => hx ?_⟩
  · rw [accel_eval s _ _ _ _ h1 h2 h3, comp_X, e]
  · rw [gyro_eval s _ _ _ _ h4 h5 h6, comp_X, e]
  · ext i
    have := congrFun hc i
    simp only [finV_apply, fin_inj, Pi.zero_apply] at this
    exact this.symm

/-- C55, what does hold: with zero bias, zero misalignments and scale factors *one* the measurement is returned unchanged. (Full claim: with scale-factor errors zero; missing: the code
does not add one.) -/
theorem C55_unit_scale_factors_partial (s : St XR) (x : V3 ℝ) :
    (s.ba = some (finV 0) → s.ma = ⟨6, finV 0⟩ → s.sfa = some (finV 1) → compensateAccelerometer s (finV x) = .ok (true, finV x))
    ∧ (s.bg = some (finV 0) → s.mg = ⟨6, finV 0⟩ → s.sfg = some (finV 1) → compensateGyroscope s (finV x) = .ok (true, finV x)) := by
  have e : errModel 0 1 *ᵥ (x - 0) = x := by
    have h1 : (!![1, (0 : Fin 6 → ℝ) 0, (0 : Fin 6 → ℝ) 1; (0 : Fin 6 → ℝ) 2, 1, (0 : Fin 6 → ℝ) 3; (0 : Fin 6 → ℝ) 4, (0 : Fin 6 → ℝ) 5, 1] : M3 ℝ) = 1 := by
      ext i j; fin_cases i <;> fin_cases j <;> rfl
    rw [errModel, h1, Matrix.mul_one, show (Matrix.diagonal (1 : V3 ℝ)) = 1 from Matrix.diagonal_one, one_mulVec, sub_zero]
  refine ⟨fun h1 h2 h3 => ?_, fun h1 h2 h3 => ?_⟩
  · rw [accel_eval s _ _ _ _ h1 h2 h3, comp_X, e]
  · rw [gyro_eval s _ _ _ _ h1 h2 h3, comp_X, e]

/-- the state of `C55_zero_errors_fails` is reached by the setters -/
example : ∃ s', run ({} : St XR) [.setA (finV 0, ⟨6, finV 0⟩, finV 0), .setG (finV 0, ⟨6, finV 0⟩, finV 0)] = .ok s'
    ∧ (s'.ba = some (finV 0) ∧ s'.ma = ⟨6, finV 0⟩ ∧ s'.sfa = some (finV 0)) ∧ (s'.bg = some (finV 0) ∧ s'.mg = ⟨6, finV 0⟩ ∧ s'.sfg = some (finV 0)) :=
  ⟨_, rfl, ⟨rfl, rfl, rfl⟩, rfl, rfl, rfl⟩

end NavFuse.Props.Comp
