import Verif.Props.Init
import Verif.Props.KalmanForget
import Verif.Props.KalmanConservative

/-! # Property C155: what a fine alignment reports about its own accuracy

`fineAlignmentPredict` uses the matrix of the error differential equation as the transition matrix (C60).  Here the consequence for whole alignments:
every prediction divides the reported variances by ten thousand, so that after a few calls the filter ignores its measurements. -/

namespace NavFuse.Props.Align
open Matrix NavFuse.KA NavFuse.Init NavFuse.Spec NavFuse.Kalman NavFuse.Props

/-- the constants of a place on Earth up to 84 degrees of latitude, and measurement noises that are not zero -/
def AlignOp.Earthly : AlignOp → Prop
  | .predict lat wE g r => |wE| ≤ 1e-4 ∧ |g| ≤ 10 ∧ 6e6 ≤ r ∧ |Real.tan lat| ≤ 10
  | .azimuth _ d _ σ => 0 < d ∧ σ ≠ 0
  | .velocity _ d σ => 0 < d ∧ σ ≠ 0

/-- number of predictions in an alignment -/
def predictions : List AlignOp → ℕ
  | [] => 0
  | .predict .. :: ops => predictions ops + 1
  | _ :: ops => predictions ops

/-- sum of squares of a direction, biases and velocities weighted: attitude errors of one radian, gyroscope biases of 3·10⁻³ rad/s and velocity errors of
2000 m/s count alike -/
noncomputable def wt (u : Fin 8 → ℝ) : ℝ := u 0 ^ 2 + u 1 ^ 2 + u 2 ^ 2 + 1e-5 * (u 3 ^ 2 + u 4 ^ 2 + u 5 ^ 2) + 4e6 * (u 6 ^ 2 + u 7 ^ 2)

/-- the transposed transition matrix applied to a direction -/
theorem phi_tr (lat wE g r : ℝ) (u : Fin 8 → ℝ) : (phi lat wE g r)ᵀ *ᵥ u
    = ![wE * Real.sin lat * u 1 - g * u 7, -(wE * Real.sin lat) * u 0 - wE * Real.cos lat * u 2 + g * u 6, wE * Real.cos lat * u 1, -u 0, -u 1, -u 2,
      -(u 1 / r) + 2 * (wE * Real.sin lat) * u 7, u 0 / r + Real.tan lat / r * u 2 - 2 * (wE * Real.sin lat) * u 6] := by
  ext i
  fin_cases i <;> simp [phi, mulVec, dotProduct, Fin.sum_univ_eight, rsimp] <;> ring

theorem sq_le_of_abs {a b : ℝ} (h : |a| ≤ b) : a ^ 2 ≤ b ^ 2 := by
  rw [← sq_abs a]; exact pow_le_pow_left₀ (abs_nonneg a) h 2

/-- one prediction divides by ten thousand -/
theorem wt_phi {lat wE g r : ℝ} (h : (AlignOp.predict lat wE g r).Earthly) (u : Fin 8 → ℝ) : wt ((phi lat wE g r)ᵀ *ᵥ u) ≤ 1e-4 * wt u := by
  obtain ⟨hw, hg, hr, ht⟩ := h
  have r0 : (0 : ℝ) < r := lt_of_lt_of_le (by norm_num) hr
  have hs : (wE * Real.sin lat) ^ 2 ≤ 1e-8 := by
    have := sq_le_of_abs (show |wE * Real.sin lat| ≤ 1e-4 by
      rw [abs_mul]
      calc _ ≤ 1e-4 * 1 := mul_le_mul hw (Real.abs_sin_le_one _) (abs_nonneg _) (by norm_num)
        _ = _ := by norm_num)
    exact this.trans (by norm_num)
  have hc : (wE * Real.cos lat) ^ 2 ≤ 1e-8 := by
    have := sq_le_of_abs (show |wE * Real.cos lat| ≤ 1e-4 by
      rw [abs_mul]
      calc _ ≤ 1e-4 * 1 := mul_le_mul hw (Real.abs_cos_le_one _) (abs_nonneg _) (by norm_num)
        _ = _ := by norm_num)
    exact this.trans (by norm_num)
  have hg2 : g ^ 2 ≤ 100 := (sq_le_of_abs hg).trans (by norm_num)
  have hi : r⁻¹ ^ 2 ≤ 3e-14 := by
    have : r⁻¹ ≤ (6e6)⁻¹ := inv_anti₀ (by norm_num) hr
    exact (pow_le_pow_left₀ (inv_nonneg.2 r0.le) this 2).trans (by norm_num)
  have hti : (Real.tan lat * r⁻¹) ^ 2 ≤ 3e-12 := by
    rw [mul_pow]
    have := sq_le_of_abs ht
    calc _ ≤ 10 ^ 2 * (3e-14 : ℝ) := mul_le_mul this hi (sq_nonneg _) (by norm_num)
      _ = _ := by norm_num
  rw [phi_tr]
  simp only [wt, div_eq_mul_inv]
  generalize wE * Real.sin lat = s at *
  generalize wE * Real.cos lat = c at *
  generalize r⁻¹ = i at *
  generalize Real.tan lat * i = t at *
  have two : ∀ a b : ℝ, (a + b) ^ 2 ≤ 2 * a ^ 2 + 2 * b ^ 2 := fun a b => by nlinarith [sq_nonneg (a - b)]
  have three : ∀ a b d : ℝ, (a + b + d) ^ 2 ≤ 3 * a ^ 2 + 3 * b ^ 2 + 3 * d ^ 2 := fun a b d => by
    nlinarith [sq_nonneg (a - b), sq_nonneg (a - d), sq_nonneg (b - d)]
  have sc : ∀ {k m : ℝ} (x : ℝ), k ^ 2 ≤ m → (k * x) ^ 2 ≤ m * x ^ 2 := fun x h => by rw [mul_pow]; exact mul_le_mul_of_nonneg_right h (sq_nonneg _)
  have e0 : (s * u 1 - g * u 7) ^ 2 ≤ 2 * (1e-8 * u 1 ^ 2) + 2 * (100 * u 7 ^ 2) := by
    have := two (s * u 1) (-(g * u 7)); rw [neg_sq] at this
    have := sc (u 1) hs; have := sc (u 7) hg2
    rw [sub_eq_add_neg]; linarith
  have e1 : (-s * u 0 - c * u 2 + g * u 6) ^ 2 ≤ 3 * (1e-8 * u 0 ^ 2) + 3 * (1e-8 * u 2 ^ 2) + 3 * (100 * u 6 ^ 2) := by
    have := three (-(s * u 0)) (-(c * u 2)) (g * u 6); rw [neg_sq, neg_sq] at this
    have := sc (u 0) hs; have := sc (u 2) hc; have := sc (u 6) hg2
    rw [sub_eq_add_neg, neg_mul]; linarith
  have e2 := sc (u 1) hc
  have e6 : (-(u 1 * i) + 2 * s * u 7) ^ 2 ≤ 2 * (3e-14 * u 1 ^ 2) + 8 * (1e-8 * u 7 ^ 2) := by
    have := two (-(i * u 1)) (2 * (s * u 7)); rw [neg_sq, mul_pow 2] at this
    have := sc (u 1) hi; have := sc (u 7) hs
    rw [mul_comm (u 1), mul_assoc 2]; linarith
  have e7 : (u 0 * i + t * u 2 - 2 * s * u 6) ^ 2 ≤ 3 * (3e-14 * u 0 ^ 2) + 3 * (3e-12 * u 2 ^ 2) + 12 * (1e-8 * u 6 ^ 2) := by
    have := three (i * u 0) (t * u 2) (-(2 * (s * u 6))); rw [neg_sq, mul_pow 2] at this
    have := sc (u 0) hi; have := sc (u 2) hti; have := sc (u 6) hs
    rw [mul_comm (u 0), mul_assoc 2, sub_eq_add_neg]; linarith
  simp
  nlinarith [sq_nonneg (u 0), sq_nonneg (u 1), sq_nonneg (u 2), sq_nonneg (u 3), sq_nonneg (u 4), sq_nonneg (u 5), sq_nonneg (u 6), sq_nonneg (u 7)]

/-- C155 is false of the code: whatever is measured, after `k` predictions in an alignment every reported variance is below `10⁻⁴ᵏ` of the initial scale.
(A gyrocompass knows its heading better than `10⁻⁴` radians after two calls of `fineAlignmentPredict`, having measured nothing.) -/
theorem C155_collapse_fails {L : LinSolver ℝ} (hL : L.Correct) (ops : List AlignOp) (ho : ∀ o ∈ ops, o.Earthly) (x : Fin 8 → ℝ) (P : Matrix (Fin 8) (Fin 8) ℝ)
    (hP : IsCov P) {c : ℝ} (hc : 0 ≤ c) (h0 : ∀ u, u ⬝ᵥ (P *ᵥ u) ≤ c * wt u) :
    ∃ x' P', ops.foldlM (AlignOp.exec L) (⟨8, x⟩, ⟨8, 8, P⟩) = .ok (⟨8, x'⟩, ⟨8, 8, P'⟩) ∧ IsCov P'
      ∧ ∀ u, u ⬝ᵥ (P' *ᵥ u) ≤ c * (1e-4) ^ predictions ops * wt u := by
  induction ops generalizing x P c with
  | nil => exact ⟨x, P, rfl, hP, fun u => by simpa [predictions] using h0 u⟩
  | cons o ops ih =>
    rw [List.foldlM_cons]
    have ho' : ∀ o ∈ ops, o.Earthly := fun o h => ho o (by simp [h])
    cases o with
    | predict lat wE g r =>
      have e := ho _ List.mem_cons_self
      simp only [AlignOp.exec, predict_eq, osimp]
      obtain ⟨x', P', e1, e2, e3⟩ := ih ho' (errRate lat wE g r x) _ (isCov_iff.2 (psd_conj (isCov_iff.1 hP) (phi lat wE g r))) (c := c * 1e-4) (by positivity)
        fun u => by
          have h1 := quad_conj P (phi lat wE g r) u
          rw [quad, quad] at h1
          rw [h1]
          refine (h0 _).trans ?_
          rw [mul_assoc]
          exact mul_le_mul_of_nonneg_left (wt_phi e u) hc
      exact ⟨x', P', e1, e2, fun u => (e3 u).trans (le_of_eq (by rw [predictions, pow_succ]; ring))⟩
    | azimuth a d e σ =>
      obtain ⟨hd, hs⟩ := ho _ List.mem_cons_self
      obtain ⟨x1, P1, e1, -, -, hc1, hle, -⟩ := C61_azimuth hL a d e σ x P x P hP hd hs
      simp only [AlignOp.exec, e1, osimp]
      exact ih ho' x1 P1 hc1 hc fun u => (hle.2 u).trans (h0 u)
    | velocity v d σ =>
      obtain ⟨hd, hs⟩ := ho _ List.mem_cons_self
      obtain ⟨x1, P1, e1, hc1, hle, -⟩ := C61_velocity hL v d σ x P x P hP hd hs
      simp only [AlignOp.exec, e1, osimp]
      exact ih ho' x1 P1 hc1 hc fun u => (hle.2 u).trans (h0 u)

/-- After `k` predictions an azimuth measurement moves the azimuth estimate by less than `c 10⁻⁴ᵏ / (σ² dt)` of what it should correct: measurements
are ignored. -/
theorem C155_ignores_azimuth_fails {L : LinSolver ℝ} (hL : L.Correct) (ops : List AlignOp) (ho : ∀ o ∈ ops, o.Earthly) (az dt est σ : ℝ) (hd : 0 < dt) (hs : σ ≠ 0)
    (x : Fin 8 → ℝ) (P : Matrix (Fin 8) (Fin 8) ℝ) (hP : IsCov P) {c : ℝ} (hc : 0 ≤ c) (h0 : ∀ u, u ⬝ᵥ (P *ᵥ u) ≤ c * wt u) :
    ∃ x' P' x'' P'', ops.foldlM (AlignOp.exec L) (⟨8, x⟩, ⟨8, 8, P⟩) = .ok (⟨8, x'⟩, ⟨8, 8, P'⟩)
      ∧ fineAlignmentAzimuthUpdate L az dt est σ ⟨8, x'⟩ ⟨8, 8, P'⟩ ⟨8, x'⟩ ⟨8, 8, P'⟩ = .ok (true, ⟨8, x''⟩, ⟨8, 8, P''⟩)
      ∧ |x'' 2 - x' 2| ≤ c * (1e-4) ^ predictions ops / (σ ^ 2 * dt) * |az - est - x' 2| := by
  obtain ⟨x', P', e1, c1, b⟩ := C155_collapse_fails hL ops ho x P hP hc h0
  obtain ⟨x'', P'', e2, hx, -⟩ := C61_azimuth hL az dt est σ x' P' x' P' c1 hd hs
  refine ⟨x', P', x'', P'', e1, e2, ?_⟩
  have hr : 0 < σ ^ 2 * dt := by positivity
  have b2 := b (Pi.single 2 1)
  have n2 := c1.2 (Pi.single 2 1)
  simp only [single_one_dotProduct, mulVec_single_one, col_apply, wt] at b2 n2
  simp at b2
  rw [hx, add_sub_cancel_left, abs_mul, abs_div, abs_of_nonneg n2, abs_of_pos (by linarith : 0 < P' 2 2 + σ ^ 2 * dt)]
  refine mul_le_mul_of_nonneg_right ?_ (abs_nonneg _)
  refine (div_le_div_of_nonneg_left n2 hr (by linarith)).trans ?_
  refine div_le_div_of_nonneg_right (b2.trans (le_of_eq ?_)) hr.le
  norm_num

/-- One prediction suffices: an azimuth error that is not known at all, everything else known, is declared known exactly, and its estimate is replaced by
zero. -/
theorem C155_one_prediction_fails (lat wE g r p a : ℝ) :
    ∃ x' P', fineAlignmentPredict lat wE g r ⟨8, Pi.single 2 a⟩ ⟨8, 8, diagonal (Pi.single 2 p)⟩ ⟨8, Pi.single 2 a⟩ ⟨8, 8, diagonal (Pi.single 2 p)⟩
        = .ok (true, ⟨8, x'⟩, ⟨8, 8, P'⟩) ∧ x' 2 = 0 ∧ P' 2 2 = 0 := by
  refine ⟨_, _, predict_eq .., ?_, ?_⟩
  · simp [errRate]
  · simp [mul_apply, Fin.sum_univ_eight, phi, rsimp, vecMul_diagonal]

/-- a measurement of the azimuth or of the velocity, with its noise -/
inductive Sight (Ω : Type) : Type
  | azimuth (est dt σ : ℝ) (v : Ω → Fin 1 → ℝ)
  | velocity (dt σ : ℝ) (v : Ω → Fin 2 → ℝ)

variable {Ω : Type}

/-- the fine-alignment call made for a measurement of the error `e` -/
noncomputable def Sight.op (e : Ω → Fin 8 → ℝ) (ω : Ω) : Sight Ω → AlignOp
  | .azimuth est dt σ v => .azimuth (est + (e ω 2 + v ω 0)) dt est σ
  | .velocity dt σ v => .velocity (fun k => ![e ω 6, e ω 7] k + v ω k) dt σ

/-- the same measurement in the vocabulary of `Spec/Stochastic` -/
def Sight.stage : Sight Ω → Stage Ω 8
  | .azimuth _ dt σ v => .sense 1 hAz (diagonal ![σ * σ * dt]) v
  | .velocity dt σ v => .sense 2 hVel (diagonal ![σ * σ * dt, σ * σ * dt]) v

theorem sights_run (L : LinSolver ℝ) (e : Ω → Fin 8 → ℝ) (ω : Ω) (ss : List (Sight Ω)) (x : Fin 8 → ℝ) (P : Matrix (Fin 8) (Fin 8) ℝ) :
    (ss.map (Sight.op e ω)).foldlM (AlignOp.exec L) (⟨8, x⟩, ⟨8, 8, P⟩) = runFilter L (callsAlong (ss.map Sight.stage) e ω) (⟨8, x⟩, ⟨8, 8, P⟩) := by
  induction ss generalizing x P with
  | nil => rfl
  | cons s ss ih =>
    cases s with
    | azimuth est dt σ v =>
      have hz : (hAz *ᵥ e ω + v ω) = ![est + (e ω 2 + v ω 0) - est] := by
        ext k; fin_cases k; simp [hAz, dotProduct, Fin.sum_univ_eight]
      simp only [List.map_cons, List.foldlM_cons, Sight.op, Sight.stage, callsAlong, runFilter, AlignOp.exec, FilterOp.exec, azimuth_eq, hz, update_fit, osimp]
      exact ih _ _
    | velocity dt σ v =>
      have hz : (hVel *ᵥ e ω + v ω) = fun k => ![e ω 6, e ω 7] k + v ω k := by
        ext k; fin_cases k <;> simp [hVel, dotProduct, Fin.sum_univ_eight]
      simp only [List.map_cons, List.foldlM_cons, Sight.op, Sight.stage, callsAlong, runFilter, AlignOp.exec, FilterOp.exec, velocity_eq, hz, update_fit, osimp]
      exact ih _ _

theorem sights_still (e : Ω → Fin 8 → ℝ) (ss : List (Sight Ω)) : worldAfter (ss.map Sight.stage) e = e := by
  induction ss with
  | nil => rfl
  | cons s ss ih => cases s <;> exact ih

open MeasureTheory in
/-- C155, what does hold: an alignment by measurements alone is honest.  For random constant errors `e` and noises that are uncorrelated with what came before
and have second moments of at most `σ² dt`, the error of the estimate has a second moment of at most what is reported.  (Full claim: also with predictions in
between; refuted above.) -/
theorem C155_honest_partial [MeasurableSpace Ω] {μ : Measure Ω} [IsFiniteMeasure μ] (L : LinSolver ℝ) (ss : List (Sight Ω)) (e : Ω → Fin 8 → ℝ) (x0 : Fin 8 → ℝ)
    (P0 : Matrix (Fin 8) (Fin 8) ℝ) (h2 : ∀ f ∈ comps e, MemLp f 2 μ) (hcov : CovLe (secondMoment μ (fun ω => e ω - x0) (fun ω => e ω - x0)) P0)
    (hW : WhiteAtMost μ ({fun _ => 1} ∪ comps e) (ss.map Sight.stage)) :
    ∃ (est : Ω → Fin 8 → ℝ) (P : Matrix (Fin 8) (Fin 8) ℝ),
      (∀ ω, (ss.map (Sight.op e ω)).foldlM (AlignOp.exec L) (⟨8, x0⟩, ⟨8, 8, P0⟩) = .ok (⟨8, est ω⟩, ⟨8, 8, P⟩))
      ∧ CovLe (secondMoment μ (fun ω => e ω - est ω) (fun ω => e ω - est ω)) P := by
  obtain ⟨est, P, h1, h3⟩ := C108_cautious_is_honest L (ss.map Sight.stage) e x0 P0 h2 hcov hW
  rw [sights_still] at h3
  exact ⟨est, P, fun ω => (sights_run L e ω ss x0 P0).trans (h1 ω), h3⟩

/-! ## Cases -/

/-- an alignment at 45 degrees with three predictions -/
noncomputable def aligning : List AlignOp :=
  [.predict (Real.pi / 4) 7.29e-5 9.81 6.37e6, .velocity ![0.01, -0.02] 1 0.1, .predict (Real.pi / 4) 7.29e-5 9.81 6.37e6, .azimuth 1.2 1 1.1 0.01,
    .predict (Real.pi / 4) 7.29e-5 9.81 6.37e6]

theorem aligning_earthly : ∀ o ∈ aligning, o.Earthly := by
  have : (AlignOp.predict (Real.pi / 4) 7.29e-5 9.81 6.37e6).Earthly := by
    refine ⟨?_, ?_, by norm_num, ?_⟩
    · rw [abs_of_pos] <;> norm_num
    · rw [abs_of_pos] <;> norm_num
    · rw [Real.tan_pi_div_four]; norm_num
  simp only [aligning, List.mem_cons, List.not_mem_nil, or_false]
  rintro o (rfl | rfl | rfl | rfl | rfl)
  · exact this
  · exact ⟨by norm_num, by norm_num⟩
  · exact this
  · exact ⟨by norm_num, by norm_num⟩
  · exact this

/-- one tenth of a radian in all angles becomes at most a ten-millionth -/
example : ∃ x' P', aligning.foldlM (AlignOp.exec LinSolver.exact) (⟨8, 0⟩, ⟨8, 8, diagonal ![1e-2, 1e-2, 1e-2, 1e-8, 1e-8, 1e-8, 1, 1]⟩) = .ok (⟨8, x'⟩, ⟨8, 8, P'⟩)
    ∧ P' 2 2 ≤ 1e-14 := by
  have hc : IsCov (diagonal ![(1e-2 : ℝ), 1e-2, 1e-2, 1e-8, 1e-8, 1e-8, 1, 1]) := diag_isCov _ (by intro i; fin_cases i <;> norm_num)
  obtain ⟨x', P', e, -, h⟩ := C155_collapse_fails LinSolver.exact_correct aligning aligning_earthly 0 _ hc (c := 1e-2) (by norm_num) fun u => by
    simp only [dotProduct, mulVec_diagonal, Fin.sum_univ_eight, wt]
    simp
    nlinarith [sq_nonneg (u 0), sq_nonneg (u 1), sq_nonneg (u 2), sq_nonneg (u 3), sq_nonneg (u 4), sq_nonneg (u 5), sq_nonneg (u 6), sq_nonneg (u 7)]
  refine ⟨x', P', e, ?_⟩
  have h := h (Pi.single 2 1)
  simp only [single_one_dotProduct, mulVec_single_one, col_apply, wt, aligning, predictions] at h
  simp at h
  exact h.trans (by norm_num)

open MeasureTheory in
/-- a heading that is off by a tenth of a radian to either side, measured once -/
example : let e : Fin 4 → Fin 8 → ℝ := fun ω => Pi.single 2 (![1 / 10, 1 / 10, -1 / 10, -1 / 10] ω)
    let v : Fin 4 → Fin 1 → ℝ := fun ω _ => ![1 / 100, -1 / 100, 1 / 100, -1 / 100] ω
    CovLe (secondMoment fair4 (fun ω => e ω - 0) (fun ω => e ω - 0)) (diagonal (Pi.single 2 (1 / 100)))
      ∧ WhiteAtMost fair4 ({fun _ => 1} ∪ comps e) ([Sight.azimuth 1 1 (1 / 50) v].map Sight.stage) := by
  intro e v
  refine ⟨?_, ⟨?_, ?_, trivial⟩⟩
  · rw [show secondMoment fair4 (fun ω => e ω - 0) (fun ω => e ω - 0) = diagonal (Pi.single 2 (1 / 100)) from ?_]
    · exact ⟨by simp [IsSymm], fun v => le_rfl⟩
    · ext i j
      simp only [secondMoment, corr, integral_fair4, e, sub_zero, Matrix.of_apply, diagonal_apply, Pi.single_apply]
      split_ifs <;> simp_all <;> norm_num
  · rintro f ⟨i, rfl⟩
    refine ⟨l2_fair4 _, ?_⟩
    rintro g (rfl | ⟨j, rfl⟩)
    · simp [corr, integral_fair4, v]; norm_num
    · simp only [corr, integral_fair4, e, v, Pi.single_apply]
      split_ifs <;> simp <;> norm_num
  · rw [show secondMoment fair4 v v = !![(1 / 10000 : ℝ)] from ?_]
    · refine ⟨by ext i j; fin_cases i; fin_cases j; rfl, fun u => ?_⟩
      simp [dotProduct, mulVec_diagonal]
      nlinarith [sq_nonneg (u 0)]
    · ext i j; fin_cases i; fin_cases j; simp [secondMoment, corr, integral_fair4, v]; norm_num

end NavFuse.Props.Align
