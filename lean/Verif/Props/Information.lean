import Verif.Props.KalmanRun

/-! # Property C115: how much a run of measurements tells -/

set_option linter.unusedSectionVars false

namespace NavFuse.Props
open Matrix Kalman Spec KA MeasureTheory

variable {n m : ℕ}

/-- the state after some motions, starting from `v` (measurements do not move it) -/
def carried : List (FilterOp n) → (Fin n → ℝ) → Fin n → ℝ
  | [], v => v
  | .predict F _ :: os, v => carried os (F *ᵥ v)
  | .update _ _ _ _ :: os, v => carried os v

/-- the squared length, in units of the measurement noise, of the trace that an initial deviation `v` leaves in the measurements of a run:
`∑ (H v)ᵀ R⁻¹ (H v)` with `v` carried along -/
noncomputable def trace : List (FilterOp n) → (Fin n → ℝ) → ℝ
  | [], _ => 0
  | .predict F _ :: os, v => trace os (F *ᵥ v)
  | .update _ _ H R :: os, v => quad R⁻¹ (H *ᵥ v) + trace os v

/-- a motion without process noise -/
def FilterOp.Noiseless : FilterOp n → Prop
  | .predict _ Q => Q = 0
  | .update _ _ _ _ => True

/-- the measured values are exact, for a state that starts as `x` -/
def ExactData : List (FilterOp n) → (Fin n → ℝ) → Prop
  | [], _ => True
  | .predict F _ :: os, x => ExactData os (F *ᵥ x)
  | .update _ z H _ :: os, x => z = H *ᵥ x ∧ ExactData os x

/-! ### information form -/

/-- product of the motions -/
def transM : List (FilterOp n) → Matrix (Fin n) (Fin n) ℝ
  | [] => 1
  | .predict F _ :: os => transM os * F
  | .update _ _ _ _ :: os => transM os

/-- information about the initial state -/
noncomputable def gramM : List (FilterOp n) → Matrix (Fin n) (Fin n) ℝ
  | [] => 0
  | .predict F _ :: os => Fᵀ * gramM os * F
  | .update _ _ H R :: os => info H R + gramM os

/-- the measured values seen from the initial state -/
noncomputable def etaV : List (FilterOp n) → Fin n → ℝ
  | [] => 0
  | .predict F _ :: os => Fᵀ *ᵥ etaV os
  | .update _ z H R :: os => Hᵀ *ᵥ (R⁻¹ *ᵥ z) + etaV os

theorem transM_mulVec (ops : List (FilterOp n)) (v : Fin n → ℝ) : transM ops *ᵥ v = carried ops v := by
  induction ops generalizing v with
  | nil => simp [transM, carried]
  | cons o os ih => cases o with
    | predict F Q => rw [transM, carried, ← ih, mulVec_mulVec]
    | update m z H R => rw [transM, carried, ih]

theorem gramM_quad (ops : List (FilterOp n)) (v : Fin n → ℝ) : v ⬝ᵥ (gramM ops *ᵥ v) = trace ops v := by
  induction ops generalizing v with
  | nil => simp [gramM, trace]
  | cons o os ih => cases o with
    | predict F Q => rw [gramM, trace, ← ih, ← mulVec_mulVec, ← mulVec_mulVec, dotProduct_mulVec, vecMul_transpose]
    | update m z H R =>
      rw [gramM, trace, ← ih, add_mulVec, dotProduct_add, info, quad, ← mulVec_mulVec, ← mulVec_mulVec, dotProduct_mulVec, vecMul_transpose]

theorem gramM_psd (ops : List (FilterOp n)) (hops : ∀ o ∈ ops, o.Sound) : (gramM ops).PosSemidef := by
  induction ops with
  | nil => exact PosSemidef.zero
  | cons o os ih =>
    have ho := hops o (by simp)
    have hos := ih fun o' h => hops o' (by simp [h])
    cases o with
    | predict F Q => exact psd_conj' hos F
    | update m z H R => exact (info_psd H (isPosCov_iff.1 ho)).add hos

/-- The run in information form: everything that is known at the end comes from an estimate `xt` of the initial state with covariance `Pt`. -/
theorem run_info {L : LinSolver ℝ} (hL : L.Correct) (ops : List (FilterOp n)) (hops : ∀ o ∈ ops, o.Sound) (hq : ∀ o ∈ ops, o.Noiseless)
    (x : Fin n → ℝ) (P : Matrix (Fin n) (Fin n) ℝ) (hP : P.PosSemidef) :
    ∃ xt Pt, runFilter L ops (⟨n, x⟩, ⟨n, n, P⟩) = .ok (⟨n, transM ops *ᵥ xt⟩, ⟨n, n, transM ops * Pt * (transM ops)ᵀ⟩)
      ∧ (1 + P * gramM ops) * Pt = P ∧ (1 + P * gramM ops) *ᵥ xt = x + P *ᵥ etaV ops := by
  induction ops generalizing x P with
  | nil => exact ⟨x, P, by simp [runFilter, transM], by simp [gramM], by simp [gramM, etaV]⟩
  | cons o os ih =>
    have ho := hops o (by simp)
    have hos : ∀ o ∈ os, o.Sound := fun o' h => hops o' (by simp [h])
    have hqs : ∀ o ∈ os, o.Noiseless := fun o' h => hq o' (by simp [h])
    cases o with
    | predict F Q =>
      obtain rfl : Q = 0 := hq _ (by simp : FilterOp.predict F Q ∈ _)
      have hP1 : (F * P * Fᵀ).PosSemidef := psd_conj hP F
      obtain ⟨xt, Pt, h1, h2, h3⟩ := ih hos hqs (F *ᵥ x) (F * P * Fᵀ) hP1
      have hG := gramM_psd os hos
      have hu := one_add_mul_unit hP (psd_conj' hG F)
      have hu1 := one_add_mul_unit hP1 hG
      set A := 1 + P * (Fᵀ * gramM os * F) with hA
      have hinj : Function.Injective ((1 + F * P * Fᵀ * gramM os) *ᵥ ·) := mulVec_injective_iff_isUnit.2 ((isUnit_iff_isUnit_det _).2 hu1)
      have hFA : (1 + F * P * Fᵀ * gramM os) * F = F * A := by
        rw [hA, Matrix.add_mul, Matrix.mul_add, Matrix.one_mul, Matrix.mul_one]; simp only [Matrix.mul_assoc]
      have ePt : Pt = F * (A⁻¹ * P) * Fᵀ := by
        have e : (1 + F * P * Fᵀ * gramM os) * Pt = (1 + F * P * Fᵀ * gramM os) * (F * (A⁻¹ * P) * Fᵀ) := by
          rw [h2, ← Matrix.mul_assoc, ← Matrix.mul_assoc, hFA, Matrix.mul_assoc F A, ← Matrix.mul_assoc A, mul_nonsing_inv _ hu, Matrix.one_mul]
        have := congrArg (fun B => (1 + F * P * Fᵀ * gramM os)⁻¹ * B) e
        simpa only [← Matrix.mul_assoc, nonsing_inv_mul _ hu1, Matrix.one_mul] using this
      have ext' : xt = F *ᵥ (A⁻¹ *ᵥ (x + P *ᵥ (Fᵀ *ᵥ etaV os))) := by
        apply hinj
        show (1 + F * P * Fᵀ * gramM os) *ᵥ xt = (1 + F * P * Fᵀ * gramM os) *ᵥ _
        rw [h3, mulVec_mulVec, hFA, mulVec_mulVec, Matrix.mul_assoc F A, mul_nonsing_inv _ hu, Matrix.mul_one, mulVec_add]
        simp only [mulVec_mulVec, Matrix.mul_assoc]
      refine ⟨A⁻¹ *ᵥ (x + P *ᵥ (Fᵀ *ᵥ etaV os)), A⁻¹ * P, ?_, ?_, ?_⟩
      · have e := predict_R x P F 0 x P
        rw [add_zero] at e
        simp only [runFilter, FilterOp.exec, e, osimp, if_true, h1, transM]
        rw [ePt, ext', mulVec_mulVec, transpose_mul]
        simp only [Matrix.mul_assoc]
      · rw [gramM, ← hA, ← Matrix.mul_assoc, mul_nonsing_inv _ hu, Matrix.one_mul]
      · rw [gramM, ← hA, mulVec_mulVec, mul_nonsing_inv _ hu, one_mulVec, etaV]
    | update m z H R =>
      have hR := isPosCov_iff.1 ho
      have hJ : (joseph P H R (gain P H R)).PosSemidef := joseph_psd hP H hR.posSemidef _
      obtain ⟨xt, Pt, h1, h2, h3⟩ := ih hos hqs (x + gain P H R *ᵥ (z - H *ᵥ x)) (joseph P H R (gain P H R)) hJ
      have e := update_R hL x hP z H hR x P
      have pc := post_cov hP H hR
      have pm := post_mean hP H hR x z
      have hK : 1 + P * (info H R + gramM os) = (1 + P * info H R) * (1 + joseph P H R (gain P H R) * gramM os) := by
        rw [Matrix.mul_add (1 + P * info H R), ← Matrix.mul_assoc, pc, Matrix.mul_one, Matrix.mul_add, add_assoc]
      refine ⟨xt, Pt, ?_, ?_, ?_⟩
      · simp only [runFilter, FilterOp.exec, e, osimp, if_true, h1, transM]
      · rw [gramM, hK, Matrix.mul_assoc, h2, pc]
      · rw [gramM, hK, ← mulVec_mulVec, h3, etaV, mulVec_add, pm, mulVec_mulVec (etaV os), pc, mulVec_add, add_assoc]

theorem etaV_exact (ops : List (FilterOp n)) (x : Fin n → ℝ) (h : ExactData ops x) : etaV ops = gramM ops *ᵥ x := by
  induction ops generalizing x with
  | nil => simp [etaV, gramM]
  | cons o os ih => cases o with
    | predict F Q => rw [etaV, gramM, ih _ h, ← mulVec_mulVec, ← mulVec_mulVec]
    | update m z H R =>
      obtain ⟨rfl, h⟩ := h
      rw [etaV, gramM, ih _ h, add_mulVec, info, ← mulVec_mulVec, ← mulVec_mulVec]

/-- consequences of `(1 + P G) Pt = P` -/
theorem info_solution {P G Pt : Matrix (Fin n) (Fin n) ℝ} (hP : P.PosSemidef) (hG : G.PosSemidef) (h : (1 + P * G) * Pt = P) :
    Ptᵀ = Pt ∧ (Pt - Pt * G * Pt).PosSemidef := by
  have hu := one_add_mul_unit hP hG
  have hut : IsUnit (1 + G * P).det := one_add_mul_unit hG hP
  have tP := psd_tr hP
  have tG := psd_tr hG
  set T := (1 + P * G)⁻¹ with hT
  have e1 : Pt = T * P := by
    calc Pt = T * ((1 + P * G) * Pt) := by rw [hT, nonsing_inv_mul_cancel_left _ _ hu]
      _ = _ := by rw [h]
  have hTt : Tᵀ = (1 + G * P)⁻¹ := by rw [hT, transpose_nonsing_inv, transpose_add, transpose_one, transpose_mul, tP, tG]
  have e2 : T * P = P * (1 + G * P)⁻¹ := by
    have : (1 + P * G) * P = P * (1 + G * P) := by
      rw [Matrix.add_mul, Matrix.mul_add, Matrix.one_mul, Matrix.mul_one, Matrix.mul_assoc]
    calc T * P = T * (P * (1 + G * P) * (1 + G * P)⁻¹) := by rw [Matrix.mul_assoc P, mul_nonsing_inv _ hut, Matrix.mul_one]
      _ = _ := by rw [← this, Matrix.mul_assoc (1 + P * G), hT, nonsing_inv_mul_cancel_left _ _ hu]
  have sym : Ptᵀ = Pt := by rw [e1, transpose_mul, tP, hTt, e2]
  refine ⟨sym, ?_⟩
  have e3 : 1 - G * Pt = (1 + G * P)⁻¹ := by
    rw [e1, e2]
    calc 1 - G * (P * (1 + G * P)⁻¹) = (1 + G * P) * (1 + G * P)⁻¹ - G * P * (1 + G * P)⁻¹ := by rw [mul_nonsing_inv _ hut, Matrix.mul_assoc]
      _ = _ := by rw [← Matrix.sub_mul, add_sub_cancel_right, Matrix.one_mul]
  have : Pt - Pt * G * Pt = T * P * Tᵀ := by
    rw [hTt, ← e3, Matrix.mul_sub, Matrix.mul_one, ← e1, Matrix.mul_assoc]
  rw [this]
  exact psd_conj hP T

theorem dot_self_nonneg' (v : Fin n → ℝ) : 0 ≤ v ⬝ᵥ v := Finset.sum_nonneg fun _ _ => mul_self_nonneg _

/-- if the information is at least `c`, the covariance is at most `1/c` and shortens vectors by `1/c` -/
theorem info_bound {P G Pt : Matrix (Fin n) (Fin n) ℝ} (hP : P.PosSemidef) (hG : G.PosSemidef) (h : (1 + P * G) * Pt = P) {c : ℝ} (hc : 0 < c)
    (hx : ∀ v : Fin n → ℝ, c * (v ⬝ᵥ v) ≤ v ⬝ᵥ (G *ᵥ v)) (v : Fin n → ℝ) :
    v ⬝ᵥ (Pt *ᵥ v) ≤ (v ⬝ᵥ v) / c ∧ (Pt *ᵥ v) ⬝ᵥ (Pt *ᵥ v) ≤ (v ⬝ᵥ v) / c ^ 2 := by
  obtain ⟨ht, hp⟩ := info_solution hP hG h
  have h1 := hp.dotProduct_mulVec_nonneg v
  simp only [star_trivial, sub_mulVec, dotProduct_sub] at h1
  set u := Pt *ᵥ v with hu
  have h2 : v ⬝ᵥ ((Pt * G * Pt) *ᵥ v) = u ⬝ᵥ (G *ᵥ u) := by
    rw [← mulVec_mulVec, ← mulVec_mulVec, dotProduct_mulVec, ← mulVec_transpose, ht]
  have h3 := hx u
  have h4 : c * (u ⬝ᵥ u) ≤ v ⬝ᵥ u := by linarith
  have h5 := dot_self_nonneg' (c • u - v)
  have h6 := dot_self_nonneg' (c • u)
  simp only [sub_dotProduct, dotProduct_sub, smul_dotProduct, dotProduct_smul, smul_eq_mul, dotProduct_comm u v] at h5 h6
  constructor
  · rw [le_div_iff₀ hc]
    nlinarith [dot_self_nonneg' (v - c • u)]
  · rw [le_div_iff₀ (by positivity)]
    nlinarith

/-! ## C115 -/

/-- C115. If every initial deviation `v` leaves in the measurements a trace of at least `c |v|²`, then after the run the reported variance in
direction `u` is at most `|Φᵀ u|² / c` (`Φ` the motion of the whole run), whatever the initial covariance, the measured values, the order and
the number of the calls. -/
theorem C115_observed_is_known {L : LinSolver ℝ} (hL : L.Correct) (ops : List (FilterOp n)) (hops : ∀ o ∈ ops, o.Sound) (hq : ∀ o ∈ ops, o.Noiseless)
    (Φ : Matrix (Fin n) (Fin n) ℝ) (hΦ : ∀ v, Φ *ᵥ v = carried ops v) {c : ℝ} (hc : 0 < c) (htr : ∀ v, c * (∑ i, v i ^ 2) ≤ trace ops v)
    (x : Fin n → ℝ) (P : Matrix (Fin n) (Fin n) ℝ) (hP : IsCov P) :
    ∃ x' P', runFilter L ops (⟨n, x⟩, ⟨n, n, P⟩) = .ok (⟨n, x'⟩, ⟨n, n, P'⟩) ∧ ∀ u, u ⬝ᵥ (P' *ᵥ u) ≤ (∑ i, (Φᵀ *ᵥ u) i ^ 2) / c := by
  have hP' := isCov_iff.1 hP
  obtain ⟨xt, Pt, h1, h2, h3⟩ := run_info hL ops hops hq x P hP'
  have eΦ : transM ops = Φ := by
    apply Matrix.ext_of_mulVec_single
    intro i; rw [transM_mulVec, hΦ]
  refine ⟨_, _, h1, fun u => ?_⟩
  have hs : ∀ v : Fin n → ℝ, ∑ i, v i ^ 2 = v ⬝ᵥ v := fun v => Finset.sum_congr rfl fun i _ => by ring
  have := (info_bound hP' (gramM_psd ops hops) h2 hc (fun v => by rw [gramM_quad, ← hs]; exact htr v) (Φᵀ *ᵥ u)).1
  rw [eΦ, hs]
  refine le_trans (le_of_eq ?_) this
  rw [← mulVec_mulVec, ← mulVec_mulVec, dotProduct_mulVec, ← mulVec_transpose]

/-- position and velocity, of which only the position is measured, twice, one time unit apart: `c = 1/3` -/
example : let ops : List (FilterOp 2) := [.update 1 ![5] !![1, 0] 1, .predict !![1, 1; 0, 1] 0, .update 1 ![7] !![1, 0] 1]
    (∀ o ∈ ops, o.Sound) ∧ (∀ o ∈ ops, o.Noiseless) ∧ (∀ v, (!![1, 1; 0, 1] : Matrix (Fin 2) (Fin 2) ℝ) *ᵥ v = carried ops v)
      ∧ (∀ v, 1 / 3 * (∑ i, v i ^ 2) ≤ trace ops v) ∧ ExactData ops ![5, 2] := by
  have h1 : IsPosCov (1 : Matrix (Fin 1) (Fin 1) ℝ) := isPosCov_iff.2 PosDef.one
  have h0 : IsCov (0 : Matrix (Fin 2) (Fin 2) ℝ) := isCov_iff.2 PosSemidef.zero
  refine ⟨by simp [FilterOp.Sound, h1, h0], by simp [FilterOp.Noiseless], fun v => rfl, fun v => ?_, ?_⟩
  · simp [trace, quad, Fin.sum_univ_two, mulVec, dotProduct]
    nlinarith [sq_nonneg (3 * v 1 + 4 * v 0), sq_nonneg (v 0), sq_nonneg (v 1), sq_nonneg (3 * v 0 + 2 * v 1)]
  · refine ⟨?_, ?_, trivial⟩
    · ext i; fin_cases i; simp [mulVec, dotProduct, Fin.sum_univ_two]
    · ext i; fin_cases i; simp [mulVec, dotProduct, Fin.sum_univ_two]; norm_num

/-- C115, exact data: if moreover the measurements are exact and the initial error is `P w` (any error, if `P` is regular), the final error is
the motion of an initial error of length at most `|w| / c`. -/
theorem C115_exact_data_converge {L : LinSolver ℝ} (hL : L.Correct) (ops : List (FilterOp n)) (hops : ∀ o ∈ ops, o.Sound) (hq : ∀ o ∈ ops, o.Noiseless)
    {c : ℝ} (hc : 0 < c) (htr : ∀ v, c * (∑ i, v i ^ 2) ≤ trace ops v) (x truth w : Fin n → ℝ) (P : Matrix (Fin n) (Fin n) ℝ) (hP : IsCov P)
    (hdata : ExactData ops truth) (hw : x - truth = P *ᵥ w) :
    ∃ x' P' e, runFilter L ops (⟨n, x⟩, ⟨n, n, P⟩) = .ok (⟨n, x'⟩, ⟨n, n, P'⟩) ∧ x' = carried ops truth + carried ops e
      ∧ ∑ i, e i ^ 2 ≤ (∑ i, w i ^ 2) / c ^ 2 := by
  have hP' := isCov_iff.1 hP
  obtain ⟨xt, Pt, h1, h2, h3⟩ := run_info hL ops hops hq x P hP'
  have hG := gramM_psd ops hops
  have hs : ∀ v : Fin n → ℝ, ∑ i, v i ^ 2 = v ⬝ᵥ v := fun v => Finset.sum_congr rfl fun i _ => by ring
  have hinj : Function.Injective ((1 + P * gramM ops) *ᵥ ·) :=
    mulVec_injective_iff_isUnit.2 ((isUnit_iff_isUnit_det _).2 (one_add_mul_unit hP' hG))
  have he : xt - truth = Pt *ᵥ w := by
    apply hinj
    show (1 + P * gramM ops) *ᵥ (xt - truth) = (1 + P * gramM ops) *ᵥ (Pt *ᵥ w)
    rw [mulVec_mulVec, h2, ← hw, mulVec_sub, h3, etaV_exact ops truth hdata, add_mulVec, one_mulVec, mulVec_mulVec]
    abel
  refine ⟨_, _, Pt *ᵥ w, h1, ?_, ?_⟩
  · rw [← he, ← transM_mulVec, ← transM_mulVec, mulVec_sub]; abel
  · rw [hs, hs]
    exact (info_bound hP' hG h2 hc (fun v => by rw [gramM_quad, ← hs]; exact htr v) w).2

/-- C115, the converse: about a direction that leaves no trace in the measurements nothing is learnt. If the deviation `P Φᵀ u` leaves none, the
reported variance in direction `u` is what it would be without any measurement. -/
theorem C115_unobserved_stays_unknown {L : LinSolver ℝ} (hL : L.Correct) (ops : List (FilterOp n)) (hops : ∀ o ∈ ops, o.Sound)
    (hq : ∀ o ∈ ops, o.Noiseless) (Φ : Matrix (Fin n) (Fin n) ℝ) (hΦ : ∀ v, Φ *ᵥ v = carried ops v) (x u : Fin n → ℝ)
    (P : Matrix (Fin n) (Fin n) ℝ) (hP : IsCov P) (htr : trace ops (P *ᵥ (Φᵀ *ᵥ u)) = 0) :
    ∃ x' P', runFilter L ops (⟨n, x⟩, ⟨n, n, P⟩) = .ok (⟨n, x'⟩, ⟨n, n, P'⟩) ∧ u ⬝ᵥ (P' *ᵥ u) = u ⬝ᵥ ((Φ * P * Φᵀ) *ᵥ u) := by
  have hP' := isCov_iff.1 hP
  obtain ⟨xt, Pt, h1, h2, h3⟩ := run_info hL ops hops hq x P hP'
  have hG := gramM_psd ops hops
  have eΦ : transM ops = Φ := by
    apply Matrix.ext_of_mulVec_single
    intro i; rw [transM_mulVec, hΦ]
  have hinj : Function.Injective ((1 + P * gramM ops) *ᵥ ·) :=
    mulVec_injective_iff_isUnit.2 ((isUnit_iff_isUnit_det _).2 (one_add_mul_unit hP' hG))
  have hz : gramM ops *ᵥ (P *ᵥ (Φᵀ *ᵥ u)) = 0 := by
    rw [← gramM_quad] at htr
    exact (hG.dotProduct_mulVec_zero_iff _).1 (by simpa using htr)
  have he : Pt *ᵥ (Φᵀ *ᵥ u) = P *ᵥ (Φᵀ *ᵥ u) := by
    apply hinj
    show (1 + P * gramM ops) *ᵥ (Pt *ᵥ (Φᵀ *ᵥ u)) = (1 + P * gramM ops) *ᵥ (P *ᵥ (Φᵀ *ᵥ u))
    rw [mulVec_mulVec, h2, add_mulVec, one_mulVec, ← mulVec_mulVec _ P, hz, mulVec_zero, add_zero]
  refine ⟨_, _, h1, ?_⟩
  rw [eΦ, ← mulVec_mulVec, ← mulVec_mulVec, he, ← mulVec_mulVec, ← mulVec_mulVec]

/-- the velocity is not seen by a position measurement alone -/
example : let ops : List (FilterOp 2) := [.update 1 ![5] !![1, 0] 1]
    (∀ v, (1 : Matrix (Fin 2) (Fin 2) ℝ) *ᵥ v = carried ops v)
      ∧ trace ops ((diagonal ![4, 9] : Matrix (Fin 2) (Fin 2) ℝ) *ᵥ ((1 : Matrix (Fin 2) (Fin 2) ℝ)ᵀ *ᵥ ![0, 1])) = 0 := by
  refine ⟨fun v => one_mulVec v, ?_⟩
  simp [trace, quad, mulVec, dotProduct, Fin.sum_univ_two]

theorem trace_replicate (N : ℕ) (zs : Fin N → Fin m → ℝ) (H : Matrix (Fin m) (Fin n) ℝ) (R : Matrix (Fin m) (Fin m) ℝ) (v : Fin n → ℝ) :
    trace (List.ofFn fun k => FilterOp.update m (zs k) H R) v = N * quad R⁻¹ (H *ᵥ v) := by
  induction N with
  | zero => simp [trace]
  | succ N ih => rw [List.ofFn_succ, trace, ih fun k => zs k.succ]; push_cast; ring

theorem carried_updates (ops : List (FilterOp n)) (h : ∀ o ∈ ops, ∃ m z H R, o = .update m z H R) (v : Fin n → ℝ) : carried ops v = v := by
  induction ops with
  | nil => rfl
  | cons o os ih =>
    obtain ⟨m, z, H, R, rfl⟩ := h o (by simp)
    exact ih fun o' h' => h o' (by simp [h'])

/-- C115, repeated measurements: a constant state measured `N` times with the same `H` of full column rank, `(H v)ᵀ R⁻¹ (H v) ≥ c |v|²`, is known
to a variance of at most `1 / (N c)` in every direction, whatever was believed before. -/
theorem C115_repeated_measurements {L : LinSolver ℝ} (hL : L.Correct) (N : ℕ) (hN : 0 < N) (zs : Fin N → Fin m → ℝ) (H : Matrix (Fin m) (Fin n) ℝ)
    (R W : Matrix (Fin m) (Fin m) ℝ) (hR : IsPosCov R) (hW : W * R = 1) {c : ℝ} (hc : 0 < c) (htr : ∀ v, c * (∑ i, v i ^ 2) ≤ quad W (H *ᵥ v))
    (x : Fin n → ℝ) (P : Matrix (Fin n) (Fin n) ℝ) (hP : IsCov P) :
    ∃ x' P', runFilter L (List.ofFn fun k => FilterOp.update m (zs k) H R) (⟨n, x⟩, ⟨n, n, P⟩) = .ok (⟨n, x'⟩, ⟨n, n, P'⟩)
      ∧ ∀ u, u ⬝ᵥ (P' *ᵥ u) ≤ (∑ i, u i ^ 2) / (N * c) := by
  have hN' : (0 : ℝ) < N := by exact_mod_cast hN
  have eW : R⁻¹ = W := inv_eq_left_inv hW
  have hu : ∀ o ∈ List.ofFn fun k => FilterOp.update m (zs k) H R, ∃ m z H R, o = FilterOp.update (n := n) m z H R := by
    intro o ho; obtain ⟨k, rfl⟩ := List.mem_ofFn.1 ho; exact ⟨_, _, _, _, rfl⟩
  have := C115_observed_is_known hL (List.ofFn fun k => FilterOp.update m (zs k) H R)
    (by intro o ho; obtain ⟨k, rfl⟩ := List.mem_ofFn.1 ho; exact hR)
    (by intro o ho; obtain ⟨k, rfl⟩ := List.mem_ofFn.1 ho; trivial) 1
    (by intro v; rw [one_mulVec, carried_updates _ hu]) (c := N * c) (by positivity)
    (by
      intro v
      rw [trace_replicate, eW, mul_assoc]
      exact mul_le_mul_of_nonneg_left (htr v) hN'.le) x P hP
  simpa using this

/-- millimetres measured with two gauges of variances 1 and 4: `c = 5/4` -/
example : IsPosCov (diagonal ![1, 4] : Matrix (Fin 2) (Fin 2) ℝ) ∧ (diagonal ![1, 1 / 4] : Matrix (Fin 2) (Fin 2) ℝ) * diagonal ![1, 4] = 1
    ∧ ∀ v : Fin 1 → ℝ, 5 / 4 * (∑ i, v i ^ 2) ≤ quad (diagonal ![1, 1 / 4]) ((!![1; 1] : Matrix (Fin 2) (Fin 1) ℝ) *ᵥ v) := by
  refine ⟨diag_isPosCov _ (by intro i; fin_cases i <;> norm_num), ?_, fun v => ?_⟩
  · rw [diagonal_mul_diagonal, ← diagonal_one]; congr 1; ext i; fin_cases i <;> norm_num
  · simp [quad, mulVec, dotProduct, Fin.sum_univ_two]
    nlinarith

/-- C115 in a noisy world (any probability space): if the noises are white as the filter is told, there is no process noise, and every initial
deviation leaves a trace of at least `c` times its square, the mean square of the actual error in direction `u` is at most `|Φᵀ u|² / c`. With
`c` growing with the number of measurements the estimate converges to the state in mean square. -/
theorem C115_mean_square {Ω : Type} [MeasurableSpace Ω] {μ : Measure Ω} [IsProbabilityMeasure μ] {L : LinSolver ℝ} (hL : L.Correct)
    (stages : List (Stage Ω n)) (x : Ω → Fin n → ℝ) (x0 : Fin n → ℝ) (P0 : Matrix (Fin n) (Fin n) ℝ)
    (h2 : ∀ f ∈ comps x, MemLp f 2 μ) (hmean : ∀ i, ∫ ω, x ω i ∂μ = x0 i)
    (hcov : secondMoment μ (fun ω => x ω - x0) (fun ω => x ω - x0) = P0) (hW : White μ ({fun _ => 1} ∪ comps x) stages)
    (hq : ∀ F Q w, Stage.move F Q w ∈ stages → Q = 0) (Φ : Matrix (Fin n) (Fin n) ℝ) (hΦ : ∀ ω v, Φ *ᵥ v = carried (callsAlong stages x ω) v)
    {c : ℝ} (hc : 0 < c) (htr : ∀ ω v, c * (∑ i, v i ^ 2) ≤ trace (callsAlong stages x ω) v) :
    ∃ (est : Ω → Fin n → ℝ) (P : Matrix (Fin n) (Fin n) ℝ),
      (∀ ω, runFilter L (callsAlong stages x ω) (⟨n, x0⟩, ⟨n, n, P0⟩) = .ok (⟨n, est ω⟩, ⟨n, n, P⟩))
      ∧ ∀ u, u ⬝ᵥ (secondMoment μ (fun ω => worldAfter stages x ω - est ω) (fun ω => worldAfter stages x ω - est ω) *ᵥ u)
          ≤ (∑ i, (Φᵀ *ᵥ u) i ^ 2) / c := by
  obtain ⟨est, P, h1, -, h3, -⟩ := C96_run_consistent_and_optimal hL stages x x0 P0 h2 hmean hcov hW
  refine ⟨est, P, h1, fun u => ?_⟩
  rw [h3]
  have hne : Nonempty Ω := by
    by_contra hno
    rw [not_nonempty_iff] at hno
    have := measure_univ (μ := μ)
    rw [Set.univ_eq_empty_iff.2 hno, measure_empty] at this
    exact zero_ne_one this
  obtain ⟨ω⟩ := hne
  have hP0 : IsCov P0 := by
    rw [← hcov]
    exact sm_isCov fun i => (h2 _ ⟨i, rfl⟩).sub (memLp_const _)
  have hsound : ∀ (st : List (Stage Ω n)) (past : Set (Ω → ℝ)) (y : Ω → Fin n → ℝ), White μ past st → ∀ o ∈ callsAlong st y ω, o.Sound := by
    intro st
    induction st with
    | nil => intro past y _ o ho; simp [callsAlong] at ho
    | cons s st ih => cases s with
      | move F Q w =>
        intro past y hw o ho
        rcases List.mem_cons.1 ho with rfl | ho
        · show IsCov Q
          rw [← hw.2.1]
          exact sm_isCov fun i => (hw.1 _ ⟨i, rfl⟩).1
        · exact ih _ _ hw.2.2 o ho
      | sense m H R v =>
        intro past y hw o ho
        rcases List.mem_cons.1 ho with rfl | ho
        · exact hw.2.2.1
        · exact ih _ _ hw.2.2.2 o ho
  have hnl : ∀ (st : List (Stage Ω n)) (y : Ω → Fin n → ℝ), (∀ F Q w, Stage.move F Q w ∈ st → Q = 0) → ∀ o ∈ callsAlong st y ω, o.Noiseless := by
    intro st
    induction st with
    | nil => intro y _ o ho; simp [callsAlong] at ho
    | cons s st ih => cases s with
      | move F Q w =>
        intro y hw o ho
        rcases List.mem_cons.1 ho with rfl | ho
        · exact hw F Q w (by simp)
        · exact ih _ (fun F Q w h => hw F Q w (by simp [h])) o ho
      | sense m H R v =>
        intro y hw o ho
        rcases List.mem_cons.1 ho with rfl | ho
        · trivial
        · exact ih _ (fun F Q w h => hw F Q w (by simp [h])) o ho
  obtain ⟨x', P', h4, h5⟩ := C115_observed_is_known hL _ (hsound stages _ x hW) (hnl stages x hq) Φ (hΦ ω) hc (htr ω) x0 P0 hP0
  have := (h1 ω).symm.trans h4
  simp only [Except.ok.injEq, Prod.mk.injEq, DMat.mk.injEq, heq_eq_eq, true_and] at this
  rw [this.2]
  exact h5 u

/-- a random constant measured once with an independent error: `c = 4` -/
example :
    let x : Fin 4 → Fin 1 → ℝ := fun ω _ => ![5, 5, 1, 1] ω
    let v : Fin 4 → Fin 1 → ℝ := fun ω _ => ![1, -1, 1, -1] ω
    White fair4 ({fun _ => 1} ∪ comps x) [.sense 1 !![2] !![1] v]
      ∧ ∀ ω u, 4 * (∑ i, u i ^ 2) ≤ trace (callsAlong [.sense 1 !![2] !![1] v] x ω) u := by
  intro x v
  refine ⟨⟨?_, ?_, ?_, trivial⟩, fun ω u => ?_⟩
  · rintro f ⟨i, rfl⟩
    refine ⟨l2_fair4 _, ?_⟩
    rintro g (rfl | ⟨j, rfl⟩) <;> simp [corr, integral_fair4, x, v]
  · ext i j; fin_cases i; fin_cases j; simp [secondMoment, corr, integral_fair4, v]; norm_num
  · rw [show (!![1] : Matrix (Fin 1) (Fin 1) ℝ) = 1 by ext i j; fin_cases i; fin_cases j; rfl]
    exact isPosCov_iff.2 PosDef.one
  · rw [show (!![1] : Matrix (Fin 1) (Fin 1) ℝ) = 1 by ext i j; fin_cases i; fin_cases j; rfl]
    simp [callsAlong, trace, quad, mulVec, dotProduct]
    nlinarith

end NavFuse.Props
