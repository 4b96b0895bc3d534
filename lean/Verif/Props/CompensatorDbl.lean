import Verif.Props.Compensator
import Verif.Lemmas.RoundZero
import Verif.Ieee

/-! # Property C140: the compensator in double precision -/

namespace NavFuse.Props.CompDbl
open Matrix NavFuse.Compensator NavFuse.Props.Comp
variable [Machine] {r : ℝ → ℝ}

/-- a vector of doubles -/
abbrev dv {n : ℕ} (v : Fin n → ℝ) : Fin n → Dbl r := fun i => .fin (v i)

omit [Machine] in
theorem nan_sub (a : Dbl r) : (⟨.nan⟩ : Dbl r) - a = ⟨.nan⟩ := congrArg (Dbl.rd r) (XR.nan_sub a.x)
omit [Machine] in
theorem mul_nan (a : Dbl r) : a * (⟨.nan⟩ : Dbl r) = ⟨.nan⟩ := congrArg (Dbl.rd r) (XR.mul_nan a.x)
omit [Machine] in
theorem nan_add (a : Dbl r) : (⟨.nan⟩ : Dbl r) + a = ⟨.nan⟩ := congrArg (Dbl.rd r) (XR.nan_add a.x)

theorem fsum_nan {k : ℕ} (f : Fin k → Dbl r) (i : Fin k) (h : f i = ⟨.nan⟩) : fsum f = ⟨.nan⟩ := by
  cases k with
  | zero => exact i.elim0
  | succ k =>
    have hi : i ∈ (Machine.order.tree k).leaves := (Machine.order.perm k).mem_iff.2 (List.mem_finRange i)
    show (Machine.order.tree k).eval f = _
    generalize Machine.order.tree k = t at hi
    induction t with
    | leaf j => rw [SumTree.leaves, List.mem_singleton] at hi; rw [SumTree.eval, ← hi, h]
    | node t u iht ihu =>
      rw [SumTree.leaves, List.mem_append] at hi
      rw [SumTree.eval]
      rcases hi with hi | hi
      · rw [iht hi, nan_add]
      · rw [ihu hi, Dbl.add_comm, nan_add]

/-- C140. The compensator in double precision, for every rounding and every order of summation: with scale factors up to `σ`, misalignments up to one,
biases and measurements up to `X`, both compensation functions succeed, overflow nowhere, and every component of the result is within `2·10⁻¹⁴ σ X` of
the exact error model applied to the measurement minus the bias. -/
theorem C140_accuracy (h : Rounds53 r) (s : St (Dbl r)) (b : V3 ℝ) (m : Fin 6 → ℝ) (sf x : V3 ℝ) (σ X : ℝ)
    (hσ : 1e-50 ≤ σ ∧ σ ≤ 1e50) (hX : 1e-50 ≤ X ∧ X ≤ 1e50) (hs : ∀ i, |sf i| ≤ σ) (hm : ∀ i, |m i| ≤ 1) (hb : ∀ i, |b i| ≤ X) (hx : ∀ i, |x i| ≤ X) :
    ∃ y : V3 ℝ, (s.ba = some (dv b) → s.ma = ⟨6, dv m⟩ → s.sfa = some (dv sf) → compensateAccelerometer s (dv x) = .ok (true, dv y))
      ∧ (s.bg = some (dv b) → s.mg = ⟨6, dv m⟩ → s.sfg = some (dv sf) → compensateGyroscope s (dv x) = .ok (true, dv y))
      ∧ ∀ i, |y i - (errModel m sf *ᵥ (x - b)) i| ≤ 2e-14 * (σ * X) := by
  obtain ⟨σ1, σ2⟩ := hσ
  obtain ⟨X1, X2⟩ := hX
  have pσ : 0 < σ := lt_of_lt_of_le (by norm_num) σ1
  have pX : 0 < X := lt_of_lt_of_le (by norm_num) X1
  have fσ : (1e-250 : ℝ) ≤ σ := le_trans (by norm_num) σ1
  have fX : (1e-250 : ℝ) ≤ X := le_trans (by norm_num) X1
  have σX1 : (1e-100 : ℝ) ≤ σ * X := le_trans (by norm_num) (mul_le_mul σ1 X1 (by norm_num) pσ.le)
  have σX2 : σ * X ≤ 1e100 := (mul_le_mul σ2 X2 pX.le (by norm_num)).trans (by norm_num)
  have hd : ∀ i, Rz (dv x i - dv b i : Dbl r) (x i - b i) 1 (2 * X) := fun i => by
    have := (Rz.exact (r := r) (k := 0) (hx i) fX).sub h (Rz.exact (hb i) fX) (by linarith) (by norm_num)
    rwa [← two_mul] at this
  -- the scale factor matrix times the misalignment matrix
  have hSF : ∀ i j, Rz ((!![dv sf 0, Flt.lit 0, Flt.lit 0; Flt.lit 0, dv sf 1, Flt.lit 0; Flt.lit 0, Flt.lit 0, dv sf 2] : M3 (Dbl r)) i j)
      (Matrix.diagonal sf i j) 0 ((if i = j then σ else 0)) := by
    intro i j
    fin_cases i <;> fin_cases j <;> simp [Matrix.diagonal] <;> first | exact Rz.zero h | exact Rz.exact (hs _) fσ
  have hMIS : ∀ i j, Rz ((!![Flt.lit 1, dv m 0, dv m 1; dv m 2, Flt.lit 1, dv m 3; dv m 4, dv m 5, Flt.lit 1] : M3 (Dbl r)) i j)
      ((!![1, m 0, m 1; m 2, 1, m 3; m 4, m 5, 1] : M3 ℝ) i j) 0 1 := by
    intro i j
    fin_cases i <;> fin_cases j <;> first | exact Rz.one h | exact Rz.exact (hm _) (by norm_num)
  have hP : ∀ i j, Rz (mmul !![dv sf 0, Flt.lit 0, Flt.lit 0; Flt.lit 0, dv sf 1, Flt.lit 0; Flt.lit 0, Flt.lit 0, dv sf 2]
      (!![Flt.lit 1, dv m 0, dv m 1; dv m 2, Flt.lit 1, dv m 3; dv m 4, dv m 5, Flt.lit 1] : M3 (Dbl r)) i j) (errModel m sf i j) 3 σ := by
    intro i j
    have key := Rz.fsum3 h (k := 1) (fun l => (hSF i l).mul h (hMIS l j) ?_ ?_ (by norm_num)) ?_ (by norm_num)
    · have e2 : (if i = 0 then σ else 0) * 1 + (if i = 1 then σ else 0) * 1 + (if i = 2 then σ else 0) * 1 = σ := by
        fin_cases i <;> simp
      rw [e2] at key
      rw [errModel, mul_apply, Fin.sum_univ_three]
      exact key
    · intro h1 _
      rw [mul_one]
      split_ifs at h1 ⊢
      · exact fσ
      · exact absurd rfl h1
    · rw [mul_one]; split_ifs <;> linarith
    · have : ∀ l : Fin 3, (if i = l then σ else 0) * 1 ≤ σ := fun l => by split_ifs <;> linarith
      linarith [this 0, this 1, this 2]
  have hy : ∀ i, Rz (compG (dv b) (dv m) (dv sf) (dv x) i : Dbl r) ((errModel m sf *ᵥ (x - b)) i) 7 (6 * (σ * X)) := by
    intro i
    have key := Rz.fsum3 h (k := 5) (fun l => (hP i l).mul h (hd l) (fun _ _ => by linarith) (by linarith) (by norm_num)) (by linarith) (by norm_num)
    have e1 : (errModel m sf *ᵥ (x - b)) i = errModel m sf i 0 * (x 0 - b 0) + errModel m sf i 1 * (x 1 - b 1) + errModel m sf i 2 * (x 2 - b 2) := by
      rw [mulVec, dotProduct, Fin.sum_univ_three]; rfl
    rw [e1, show 6 * (σ * X) = σ * (2 * X) + σ * (2 * X) + σ * (2 * X) by ring]
    exact key
  choose y hy1 hy2 using fun i => (hy i).rl.near
  have e : compG (dv b) (dv m) (dv sf) (dv x) = (dv y : V3 (Dbl r)) := funext hy1
  refine ⟨y, fun h1 h2 h3 => ?_, fun h1 h2 h3 => ?_, fun i => (hy2 i).trans ?_⟩
  · rw [accel_eval s _ _ _ _ h1 h2 h3, e]
  · rw [gyro_eval s _ _ _ _ h1 h2 h3, e]
  · have h1 : gr 7 - 1 ≤ 7 / 2 ^ 51 := by have := gr_le (k := 7) (by norm_num); push_cast at this; linarith
    have h2 := mul_le_mul_of_nonneg_right h1 (by positivity : 0 ≤ 6 * (σ * X))
    refine h2.trans ?_
    rw [← mul_assoc]
    exact mul_le_mul_of_nonneg_right (by norm_num) (by positivity)

/-- an accelerometer with a 2 % scale factor, milliradian misalignments and a milli-g bias -/
example : (∀ i, |(![1.02, 0.98, 1.01] : V3 ℝ) i| ≤ 1.02) ∧ (∀ i, |(![0.001, -0.002, 0.001, 0.003, 0, 0.002] : Fin 6 → ℝ) i| ≤ 1)
    ∧ (∀ i, |(![0.0098, -0.0098, 0] : V3 ℝ) i| ≤ 100) ∧ (∀ i, |(![3, -40, 9.8] : V3 ℝ) i| ≤ 100) := by
  refine ⟨?_, ?_, ?_, ?_⟩ <;> intro i <;> fin_cases i <;> simp [abs_le] <;> norm_num

/-- C140. A NaN is never masked: whatever the parameters and the other components are, a NaN in one component of the measurement makes all three components
of the result NaN (each is a sum over all three axes, even where the misalignments are zero). -/
theorem C140_nan (s : St (Dbl r)) (b : V3 (Dbl r)) (m : Fin 6 → Dbl r) (sf x : V3 (Dbl r)) (j : Fin 3) (hx : x j = ⟨.nan⟩) :
    (s.ba = some b → s.ma = ⟨6, m⟩ → s.sfa = some sf → compensateAccelerometer s x = .ok (true, fun _ => ⟨.nan⟩))
    ∧ (s.bg = some b → s.mg = ⟨6, m⟩ → s.sfg = some sf → compensateGyroscope s x = .ok (true, fun _ => ⟨.nan⟩)) := by
  have e : compG b m sf x = fun _ => ⟨.nan⟩ := by
    funext i
    exact fsum_nan _ j (by rw [vsub, hx]; exact (congrArg _ (nan_sub _)).trans (mul_nan _))
  refine ⟨fun h1 h2 h3 => ?_, fun h1 h2 h3 => ?_⟩
  · rw [accel_eval s _ _ _ _ h1 h2 h3, e]
  · rw [gyro_eval s _ _ _ _ h1 h2 h3, e]

end NavFuse.Props.CompDbl
