import Verif.Props.StrapdownOde
import Verif.Props.AttitudeRnd
import Mathlib.MeasureTheory.Integral.IntervalIntegral.FundThmCalculus
import Mathlib.Analysis.SpecialFunctions.Integrals.Basic

/-! # Property C174: attitude with changing angular rates -/

namespace NavFuse.Props
open Matrix Spec NavUtils Strapdown XR

/-! ## lemmas -/

theorem len3_nonneg' (v : V3 ℝ) : 0 ≤ len3 v := Real.sqrt_nonneg _

/-- the length of a curve bounds the distance -/
theorem len3_travel {a a' : ℝ → V3 ℝ} {B s : ℝ} (ha : ∀ σ ∈ Set.Icc 0 s, HasDerivAt a (a' σ) σ) (hB : ∀ σ ∈ Set.Icc 0 s, len3 (a' σ) ≤ B) {σ : ℝ} (hσ : σ ∈ Set.Icc 0 s) :
    len3 (a σ - a 0) ≤ B * σ := by
  set w := a σ - a 0 with hw
  have hd : ∀ τ ∈ Set.Icc 0 s, HasDerivAt (fun τ => w ⬝ᵥ a τ) (w ⬝ᵥ a' τ) τ := fun τ hτ => by
    simp only [dotProduct, Fin.sum_univ_three]
    have hi := hasDerivAt_pi.1 (ha τ hτ)
    exact (((hi 0).const_mul (w 0)).add ((hi 1).const_mul (w 1))).add ((hi 2).const_mul (w 2))
  have hs : (0 : ℝ) ≤ s := hσ.1.trans hσ.2
  have h := (convex_Icc (0 : ℝ) s).norm_image_sub_le_of_norm_hasDerivWithin_le (C := len3 w * B) (fun τ hτ => (hd τ hτ).hasDerivWithinAt)
    (fun τ hτ => by
      rw [Real.norm_eq_abs]
      exact (dot_le_len3 _ _).trans (mul_le_mul_of_nonneg_left (hB τ hτ) (Real.sqrt_nonneg _))) ⟨le_rfl, hs⟩ hσ
  rw [Real.norm_eq_abs, Real.norm_eq_abs, sub_zero, abs_of_nonneg hσ.1, ← dotProduct_sub, ← hw] at h
  have e : w ⬝ᵥ w = len3 w * len3 w := by rw [← sq, len3_sq]; simp [dotProduct, Fin.sum_univ_three]; ring
  rw [e, abs_of_nonneg (mul_self_nonneg _)] at h
  rcases (len3_nonneg' w).eq_or_lt with h0 | h0
  · rw [← h0]
    have := (Real.sqrt_nonneg _ : 0 ≤ len3 (a' 0)).trans (hB 0 ⟨le_rfl, hs⟩)
    exact mul_nonneg this hσ.1
  · nlinarith

/-- the rows of an attitude matrix turn the other way -/
theorem rows_turn {X : ℝ → M3 ℝ} {w : V3 ℝ} {τ : ℝ} (hX : ∀ u, HasDerivAt (fun s => X s *ᵥ u) (X τ *ᵥ (w ⨯₃ u)) τ) (v : V3 ℝ) :
    HasDerivAt (fun s => (X s)ᵀ *ᵥ v) (-(w ⨯₃ ((X τ)ᵀ *ᵥ v))) τ := by
  refine hasDerivAt_pi.2 fun j => ?_
  have h := hasDerivAt_pi.1 (hX (Pi.single j 1))
  have e : ∀ s, ((X s)ᵀ *ᵥ v) j = (X s *ᵥ Pi.single j 1) 0 * v 0 + (X s *ᵥ Pi.single j 1) 1 * v 1 + (X s *ᵥ Pi.single j 1) 2 * v 2 := fun s => by
    rw [mulVec_single_one]; simp [mulVec, dotProduct, Fin.sum_univ_three]
  simp only [e]
  refine ((((h 0).mul_const (v 0)).add ((h 1).mul_const (v 1))).add ((h 2).mul_const (v 2))).congr_deriv ?_
  fin_cases j <;> simp [mulVec, dotProduct, Fin.sum_univ_three, cross_apply] <;> ring

theorem triple (a d b : V3 ℝ) : -(d ⨯₃ a) ⬝ᵥ b = a ⬝ᵥ (d ⨯₃ b) := by
  simp [dotProduct, Fin.sum_univ_three, cross_apply]; ring

theorem hasDerivAt_dot {a b : ℝ → V3 ℝ} {a' b' : V3 ℝ} {τ : ℝ} (ha : HasDerivAt a a' τ) (hb : HasDerivAt b b' τ) :
    HasDerivAt (fun s => a s ⬝ᵥ b s) (a' ⬝ᵥ b τ + a τ ⬝ᵥ b') τ := by
  have h1 := hasDerivAt_pi.1 ha
  have h2 := hasDerivAt_pi.1 hb
  simp only [dotProduct, Fin.sum_univ_three]
  refine ((((h1 0).mul (h2 0)).add ((h1 1).mul (h2 1))).add ((h1 2).mul (h2 2))).congr_deriv ?_
  ring

/-- an attitude stays orthogonal, whatever the rates -/
theorem orthogonal_flow {X : ℝ → M3 ℝ} {ω : ℝ → V3 ℝ} (hX : ∀ τ u, HasDerivAt (fun s => X s *ᵥ u) (X τ *ᵥ (ω τ ⨯₃ u)) τ) (h0 : X 0 * (X 0)ᵀ = 1) (t : ℝ) :
    X t * (X t)ᵀ = 1 := by
  have key : ∀ v w : V3 ℝ, ((X t)ᵀ *ᵥ v) ⬝ᵥ ((X t)ᵀ *ᵥ w) = v ⬝ᵥ w := fun v w => by
    have hd : ∀ τ, HasDerivAt (fun s => ((X s)ᵀ *ᵥ v) ⬝ᵥ ((X s)ᵀ *ᵥ w)) 0 τ := fun τ => by
      refine (hasDerivAt_dot (rows_turn (hX τ) v) (rows_turn (hX τ) w)).congr_deriv ?_
      rw [triple, dotProduct_neg]; ring
    have hc := is_const_of_deriv_eq_zero (fun τ => (hd τ).differentiableAt) (fun τ => (hd τ).deriv) t 0
    rw [hc, dotProduct_mulVec, vecMul_transpose, mulVec_mulVec, h0, one_mulVec]
  ext i j
  have := key (Pi.single j 1) (Pi.single i 1)
  rw [dotProduct_mulVec, vecMul_transpose, mulVec_mulVec] at this
  simpa [Matrix.one_apply, eq_comm, Pi.single_apply] using this

theorem orth_len3 {R : M3 ℝ} (h : R * Rᵀ = 1) (v : V3 ℝ) : len3 (Rᵀ *ᵥ v) = len3 v := by
  have e : (Rᵀ *ᵥ v) ⬝ᵥ (Rᵀ *ᵥ v) = v ⬝ᵥ v := by rw [dotProduct_mulVec, vecMul_transpose, mulVec_mulVec, h, one_mulVec]
  simp only [dotProduct, Fin.sum_univ_three] at e
  simp only [len3, sq]
  rw [e]

theorem cross_len3 (v w : V3 ℝ) : len3 (v ⨯₃ w) ≤ len3 v * len3 w := by
  have e : (v ⨯₃ w) 0 ^ 2 + (v ⨯₃ w) 1 ^ 2 + (v ⨯₃ w) 2 ^ 2 = (v 0 ^ 2 + v 1 ^ 2 + v 2 ^ 2) * (w 0 ^ 2 + w 1 ^ 2 + w 2 ^ 2) - (v ⬝ᵥ w) ^ 2 := by
    simp [cross_apply, dotProduct, Fin.sum_univ_three]; ring
  rw [len3, len3, len3, ← Real.sqrt_mul (by positivity), e]
  exact Real.sqrt_le_sqrt (by linarith [sq_nonneg (v ⬝ᵥ w)])

/-- the mean of a vector function is no longer than its values -/
theorem len3_integral {g : ℝ → V3 ℝ} (hg : Continuous g) {t s B : ℝ} (hs : 0 ≤ s) (hB : ∀ τ ∈ Set.Icc t (t + s), len3 (g τ) ≤ B) :
    len3 (fun i => ∫ τ in t..(t + s), g τ i) ≤ B * s := by
  set I : V3 ℝ := fun i => ∫ τ in t..(t + s), g τ i with hI
  have hi : ∀ i, IntervalIntegrable (fun τ => g τ i) MeasureTheory.volume t (t + s) := fun i => ((continuous_apply i).comp hg).intervalIntegrable _ _
  have e : I ⬝ᵥ I = ∫ τ in t..(t + s), I ⬝ᵥ g τ := by
    simp only [dotProduct, Fin.sum_univ_three]
    rw [intervalIntegral.integral_add (((hi 0).const_mul _).add ((hi 1).const_mul _)) ((hi 2).const_mul _),
      intervalIntegral.integral_add ((hi 0).const_mul _) ((hi 1).const_mul _)]
    simp only [intervalIntegral.integral_const_mul, hI]
  have hle : |∫ τ in t..(t + s), I ⬝ᵥ g τ| ≤ (len3 I * B) * |t + s - t| := by
    rw [← Real.norm_eq_abs]
    refine intervalIntegral.norm_integral_le_of_norm_le_const fun τ hτ => ?_
    rw [Set.uIoc_of_le (by linarith)] at hτ
    rw [Real.norm_eq_abs]
    exact (dot_le_len3 _ _).trans (mul_le_mul_of_nonneg_left (hB τ ⟨hτ.1.le, hτ.2⟩) (len3_nonneg' _))
  have e2 : I ⬝ᵥ I = len3 I * len3 I := by rw [← sq, len3_sq]; simp [dotProduct, Fin.sum_univ_three]; ring
  rw [← e, e2, abs_of_nonneg (mul_self_nonneg _), add_sub_cancel_left, abs_of_nonneg hs] at hle
  rcases (len3_nonneg' I).eq_or_lt with h0 | h0
  · rw [← h0]
    exact mul_nonneg ((len3_nonneg' _).trans (hB t ⟨le_rfl, by linarith⟩)) hs
  · nlinarith

/-- one interval: the true attitude against the one obtained by turning by the integrated rate -/
theorem coning_step {X : ℝ → M3 ℝ} {ω : ℝ → V3 ℝ} (hX : ∀ τ u, HasDerivAt (fun s => X s *ᵥ u) (X τ *ᵥ (ω τ ⨯₃ u)) τ) (h0 : X 0 * (X 0)ᵀ = 1) (hc : Continuous ω)
    {M L : ℝ} (hM : ∀ t, len3 (ω t) ≤ M) (hL : ∀ a b, len3 (ω a - ω b) ≤ L * |a - b|) {t s : ℝ} (hs : 0 < s) {φ : V3 ℝ} (hφ : ∀ i, φ i = ∫ τ in t..(t + s), ω τ i)
    (hne : φ ≠ 0) (u v : V3 ℝ) : |v ⬝ᵥ (X (t + s) *ᵥ u) - v ⬝ᵥ (X t *ᵥ rotByVec φ u)| ≤ 2 * L * M * s ^ 3 * (len3 v * len3 u) := by
  have hφ' : φ = fun i => ∫ τ in t..(t + s), ω τ i := funext hφ
  set m := s⁻¹ • φ with hm
  have hm0 : m ≠ 0 := smul_ne_zero (inv_ne_zero hs.ne') hne
  have hL0 : 0 ≤ L := by have := (len3_nonneg' _).trans (hL 1 0); simpa using this
  have hM0 : 0 ≤ M := (len3_nonneg' _).trans (hM 0)
  obtain ⟨Z, Z0, hZ⟩ := exists_attitude 1 m hm0
  have hZo : ∀ σ, Z σ * (Z σ)ᵀ = 1 := orthogonal_flow (ω := fun _ => m) hZ (by rw [Z0]; simp)
  have hXo := orthogonal_flow hX h0
  have hZs : Z s *ᵥ u = rotByVec φ u := by
    rw [attitude_ode_unique Z m hm0 hZ s u, Z0, one_mulVec, rotByVec]
    have e : len3 m = s⁻¹ * len3 φ := by
      rw [hm]; simp only [len3, Pi.smul_apply, smul_eq_mul]
      rw [show (s⁻¹ * φ 0) ^ 2 + (s⁻¹ * φ 1) ^ 2 + (s⁻¹ * φ 2) ^ 2 = s⁻¹ ^ 2 * (φ 0 ^ 2 + φ 1 ^ 2 + φ 2 ^ 2) by ring, Real.sqrt_mul (sq_nonneg _),
        Real.sqrt_sq (by positivity)]
    have hl := len3_pos hne
    congr 1
    · rw [e, hm, smul_smul]; congr 1; field_simp
    · rw [e]; field_simp
  have hmM : len3 m ≤ M := by
    have h := len3_integral hc hs.le fun τ (_ : τ ∈ Set.Icc t (t + s)) => hM τ
    rw [← hφ'] at h
    have e : len3 m = s⁻¹ * len3 φ := by
      rw [hm]; simp only [len3, Pi.smul_apply, smul_eq_mul]
      rw [show (s⁻¹ * φ 0) ^ 2 + (s⁻¹ * φ 1) ^ 2 + (s⁻¹ * φ 2) ^ 2 = s⁻¹ ^ 2 * (φ 0 ^ 2 + φ 1 ^ 2 + φ 2 ^ 2) by ring, Real.sqrt_mul (sq_nonneg _),
        Real.sqrt_sq (by positivity)]
    rw [e, inv_mul_le_iff₀ hs]; linarith
  -- deviation of the rate from its mean
  have hδ : ∀ σ ∈ Set.Icc 0 s, len3 (ω (t + σ) - m) ≤ L * s := fun σ hσ => by
    have h := len3_integral (g := fun τ => ω (t + σ) - ω τ) (continuous_const.sub hc) hs.le (t := t) (B := L * s) fun τ hτ => by
      refine (hL _ _).trans (mul_le_mul_of_nonneg_left ?_ hL0)
      rw [abs_le]; constructor <;> linarith [hτ.1, hτ.2, hσ.1, hσ.2]
    have e : (fun i => ∫ τ in t..(t + s), (fun τ => ω (t + σ) - ω τ) τ i) = s • (ω (t + σ) - m) := by
      ext i
      show (∫ τ in t..(t + s), ω (t + σ) i - ω τ i) = s * (ω (t + σ) i - s⁻¹ * φ i)
      have hi : IntervalIntegrable (fun τ => ω τ i) MeasureTheory.volume t (t + s) := ((continuous_apply i).comp hc).intervalIntegrable _ _
      rw [intervalIntegral.integral_sub (f := fun _ => ω (t + σ) i) (by simp) hi, ← hφ]
      simp; field_simp
    rw [e] at h
    have e2 : len3 (s • (ω (t + σ) - m)) = s * len3 (ω (t + σ) - m) := by
      simp only [len3, Pi.smul_apply, smul_eq_mul]
      generalize ω (t + σ) - m = d
      rw [show (s * d 0) ^ 2 + (s * d 1) ^ 2 + (s * d 2) ^ 2 = s ^ 2 * (d 0 ^ 2 + d 1 ^ 2 + d 2 ^ 2) by ring, Real.sqrt_mul (sq_nonneg _), Real.sqrt_sq hs.le]
    rw [e2] at h
    nlinarith
  set a : ℝ → V3 ℝ := fun σ => (X (t + σ))ᵀ *ᵥ v with ha
  set b : ℝ → V3 ℝ := fun σ => (Z σ)ᵀ *ᵥ (Z s *ᵥ u) with hb
  have hZu : len3 (Z s *ᵥ u) = len3 u := by
    have := orth_len3 (R := (Z s)ᵀ) (by rw [transpose_transpose]; exact mul_eq_one_comm.1 (hZo s)) u
    rwa [transpose_transpose] at this
  have da : ∀ σ, HasDerivAt a (-(ω (t + σ) ⨯₃ a σ)) σ := fun σ => by
    have h1 := rows_turn (hX (t + σ)) v
    exact HasDerivAt.comp_const_add t σ h1
  have db : ∀ σ, HasDerivAt b (-(m ⨯₃ b σ)) σ := fun σ => rows_turn (hZ σ) _
  have la : ∀ σ, len3 (a σ) = len3 v := fun σ => orth_len3 (hXo _) v
  have lb : ∀ σ, len3 (b σ) = len3 u := fun σ => (orth_len3 (hZo _) _).trans hZu
  have lneg : ∀ w : V3 ℝ, len3 (-w) = len3 w := fun w => by simp [len3]
  have ta : ∀ σ ∈ Set.Icc 0 s, len3 (a σ - a 0) ≤ M * len3 v * σ := fun σ hσ =>
    len3_travel (fun σ _ => da σ) (fun σ _ => by rw [lneg]; exact (cross_len3 _ _).trans (by rw [la]; exact mul_le_mul_of_nonneg_right (hM _) (len3_nonneg' _))) hσ
  have tb : ∀ σ ∈ Set.Icc 0 s, len3 (b σ - b 0) ≤ M * len3 u * σ := fun σ hσ =>
    len3_travel (fun σ _ => db σ) (fun σ _ => by rw [lneg]; exact (cross_len3 _ _).trans (by rw [lb]; exact mul_le_mul_of_nonneg_right hmM (len3_nonneg' _))) hσ
  -- the integrated deviation
  have dΔ : ∀ σ i, HasDerivAt (fun σ => (∫ τ in t..(t + σ), ω τ i) - σ * m i) ((ω (t + σ) - m) i) σ := fun σ i => by
    have h1 := intervalIntegral.integral_hasDerivAt_right (((continuous_apply i).comp hc).intervalIntegrable t (t + σ))
      (((continuous_apply i).comp hc).stronglyMeasurableAtFilter _ _) ((continuous_apply i).comp hc).continuousAt
    have h2 := HasDerivAt.comp_const_add t σ h1
    have h3 := (hasDerivAt_id σ).mul_const (m i)
    refine (h2.sub h3).congr_deriv ?_
    simp
  set Δ : ℝ → V3 ℝ := fun σ i => (∫ τ in t..(t + σ), ω τ i) - σ * m i with hΔ
  have dΔ' : ∀ σ, HasDerivAt Δ (ω (t + σ) - m) σ := fun σ => hasDerivAt_pi.2 fun i => dΔ σ i
  have Δs : Δ s = 0 := by
    ext i
    show (∫ τ in t..(t + s), ω τ i) - s * (s⁻¹ * φ i) = 0
    rw [← hφ]; field_simp; ring
  have Δ0 : Δ 0 = 0 := by ext i; simp [hΔ]
  have hq : ∀ σ ∈ Set.Icc 0 s, HasDerivAt (fun σ => a σ ⬝ᵥ b σ - a 0 ⬝ᵥ (Δ σ ⨯₃ b 0)) (a σ ⬝ᵥ ((ω (t + σ) - m) ⨯₃ b σ) - a 0 ⬝ᵥ ((ω (t + σ) - m) ⨯₃ b 0)) σ := fun σ _ => by
    have h1 := hasDerivAt_dot (da σ) (db σ)
    have h2 : HasDerivAt (fun σ => a 0 ⬝ᵥ (Δ σ ⨯₃ b 0)) (a 0 ⬝ᵥ ((ω (t + σ) - m) ⨯₃ b 0)) σ := by
      have hx : ∀ d : V3 ℝ, a 0 ⬝ᵥ (d ⨯₃ b 0) = (b 0 ⨯₃ a 0) ⬝ᵥ d := fun d => by simp [dotProduct, Fin.sum_univ_three, cross_apply]; ring
      simp only [hx]
      refine (hasDerivAt_dot (hasDerivAt_const σ _) (dΔ' σ)).congr_deriv ?_
      simp
    refine (h1.sub h2).congr_deriv ?_
    rw [triple, dotProduct_neg]
    simp only [dotProduct, Fin.sum_univ_three, cross_apply, Pi.sub_apply, cons_val_zero, cons_val_one, cons_val]
    ring
  have hbound : ∀ σ ∈ Set.Icc 0 s, ‖a σ ⬝ᵥ ((ω (t + σ) - m) ⨯₃ b σ) - a 0 ⬝ᵥ ((ω (t + σ) - m) ⨯₃ b 0)‖ ≤ 2 * L * M * s ^ 2 * (len3 v * len3 u) := fun σ hσ => by
    set d := ω (t + σ) - m with hd
    have e : a σ ⬝ᵥ (d ⨯₃ b σ) - a 0 ⬝ᵥ (d ⨯₃ b 0) = (a σ - a 0) ⬝ᵥ (d ⨯₃ b σ) + a 0 ⬝ᵥ (d ⨯₃ (b σ - b 0)) := by
      simp only [dotProduct, Fin.sum_univ_three, cross_apply, Pi.sub_apply, cons_val_zero, cons_val_one, cons_val]
      ring
    rw [e, Real.norm_eq_abs]
    have hv := len3_nonneg' v
    have hu := len3_nonneg' u
    have hd' := hδ σ hσ
    rw [← hd] at hd'
    have hd0 := len3_nonneg' d
    have p1 : |(a σ - a 0) ⬝ᵥ (d ⨯₃ b σ)| ≤ (M * len3 v * s) * (L * s * len3 u) := by
      refine (dot_le_len3 _ _).trans (mul_le_mul ((ta σ hσ).trans ?_) ((cross_len3 _ _).trans ?_) (len3_nonneg' _) (by positivity))
      · exact mul_le_mul_of_nonneg_left hσ.2 (by positivity)
      · rw [lb]; exact mul_le_mul_of_nonneg_right hd' hu
    have p2 : |a 0 ⬝ᵥ (d ⨯₃ (b σ - b 0))| ≤ len3 v * (L * s * (M * len3 u * s)) := by
      refine (dot_le_len3 _ _).trans ?_
      rw [la]
      refine mul_le_mul_of_nonneg_left ((cross_len3 _ _).trans (mul_le_mul hd' ((tb σ hσ).trans ?_) (len3_nonneg' _) (by positivity))) hv
      exact mul_le_mul_of_nonneg_left hσ.2 (by positivity)
    refine (abs_add_le _ _).trans ((add_le_add p1 p2).trans (le_of_eq ?_))
    ring
  have h := (convex_Icc (0 : ℝ) s).norm_image_sub_le_of_norm_hasDerivWithin_le (fun τ hτ => (hq τ hτ).hasDerivWithinAt) hbound (x := 0) (y := s) ⟨le_rfl, hs.le⟩ ⟨hs.le, le_rfl⟩
  rw [Δs, Δ0, Real.norm_eq_abs, Real.norm_eq_abs, sub_zero, abs_of_nonneg hs.le] at h
  have e1 : a s ⬝ᵥ b s = v ⬝ᵥ (X (t + s) *ᵥ u) := by
    show ((X (t + s))ᵀ *ᵥ v) ⬝ᵥ ((Z s)ᵀ *ᵥ (Z s *ᵥ u)) = _
    rw [mulVec_mulVec, mul_eq_one_comm.1 (hZo s), one_mulVec, mulVec_transpose, ← dotProduct_mulVec]
  have e2 : a 0 ⬝ᵥ b 0 = v ⬝ᵥ (X t *ᵥ rotByVec φ u) := by
    show ((X (t + 0))ᵀ *ᵥ v) ⬝ᵥ ((Z 0)ᵀ *ᵥ (Z s *ᵥ u)) = _
    rw [Z0, transpose_one, one_mulVec, add_zero, mulVec_transpose, ← dotProduct_mulVec, hZs]
  have e3 : ∀ w : V3 ℝ, (0 : V3 ℝ) ⨯₃ w = 0 := fun w => by ext i; simp
  rw [e1, e2, e3, dotProduct_zero, sub_zero, sub_zero] at h
  refine h.trans (le_of_eq (by ring))

theorem rates_continuous {ω : ℝ → V3 ℝ} {L : ℝ} (hL : ∀ a b, len3 (ω a - ω b) ≤ L * |a - b|) : Continuous ω := by
  have hL0 : 0 ≤ L := by have := (len3_nonneg' _).trans (hL 1 0); simpa using this
  refine continuous_pi fun i => (LipschitzWith.of_dist_le_mul (K := ⟨L, hL0⟩) fun a b => ?_).continuous
  rw [Real.dist_eq, Real.dist_eq]
  refine le_trans ?_ (hL a b)
  have h : |(ω a - ω b) i| ≤ len3 (ω a - ω b) := by
    generalize ω a - ω b = d
    refine Real.abs_le_sqrt ?_
    fin_cases i <;> simp <;> nlinarith [sq_nonneg (d 0), sq_nonneg (d 1), sq_nonneg (d 2)]
  exact h

/-! ## the property -/

/-- the navigator integrates the angle increments `φ 0`, `φ 1`, … one after the other, whatever the velocity increments -/
def Gyros (s : ℕ → St XR) (dV : ℕ → V3 XR) (φ : ℕ → V3 ℝ) (t : ℕ → Int) : Prop :=
  ∀ k, integrate (s k) (dV k) (finV (φ k)) (t (k + 1)) = .ok (true, s (k + 1))

/-- C174. Attitude under changing angular rates. The body turns at a rate `ω` that is at most `M` and changes by at most `L` per second; `X` is its true
attitude; the gyroscopes are perfect, so that each call of `integrate` receives the integral of the rate over the time since the last call. Then every call
adds at most `2 L M h³` to the error of the attitude, for a call after the time `h`: with calls at most `δ` apart every entry of the attitude matrix is,
at all times, within `2 L M δ² (τ k - τ 0)` of the truth. -/
theorem C174_changing_rates {X : ℝ → M3 ℝ} {ω : ℝ → V3 ℝ} (hX : ∀ τ u, HasDerivAt (fun s => X s *ᵥ u) (X τ *ᵥ (ω τ ⨯₃ u)) τ) (h0 : IsRot (X 0))
    {M L : ℝ} (hM : ∀ t, len3 (ω t) ≤ M) (hL : ∀ a b, len3 (ω a - ω b) ≤ L * |a - b|)
    {s : ℕ → St XR} {dV : ℕ → V3 XR} {φ : ℕ → V3 ℝ} {t : ℕ → Int} {τ : ℕ → ℝ} (hτ : ∀ k, τ k < τ (k + 1))
    (hφ : ∀ k i, φ k i = ∫ x in τ k..τ (k + 1), ω x i) (hne : ∀ k, φ k ≠ 0) (ht : ∀ k, -2 ^ 63 ≤ t (k + 1) - t k ∧ t (k + 1) - t k < 2 ^ 63)
    {l v : V3 XR} (h : (s 0).lla = some l ∧ (s 0).vNed = some v ∧ (s 0).RB2N = some (finM (X (τ 0))) ∧ (s 0).tov = some (t 0)) (hr : Gyros s dV φ t) (k : ℕ) :
    ∃ R : M3 ℝ, (s k).RB2N = some (finM R)
      ∧ (∀ i j, |R i j - X (τ k) i j| ≤ 2 * L * M * ∑ n ∈ Finset.range k, (τ (n + 1) - τ n) ^ 3)
      ∧ ∀ δ, (∀ n, τ (n + 1) - τ n ≤ δ) → ∀ i j, |R i j - X (τ k) i j| ≤ 2 * L * M * δ ^ 2 * (τ k - τ 0) := by
  have hL0 : 0 ≤ L := by have := (len3_nonneg' _).trans (hL 1 0); simpa using this
  have hM0 : 0 ≤ M := (len3_nonneg' _).trans (hM 0)
  have main : ∃ R l v, Ready (s k) l v (finM R) (t k) ∧ ∀ u v, |v ⬝ᵥ (R *ᵥ u) - v ⬝ᵥ (X (τ k) *ᵥ u)| ≤ 2 * L * M * (∑ n ∈ Finset.range k, (τ (n + 1) - τ n) ^ 3) * (len3 v * len3 u) := by
    induction k with
    | zero => exact ⟨X (τ 0), l, v, h, fun u v => by simp⟩
    | succ k ih =>
      obtain ⟨R, l, v, g, hb⟩ := ih
      obtain ⟨s', l', v', e, g'⟩ := integrate_att (s k) l v (dV k) R (t k) (t (k + 1)) (φ k) g (hne k) (ht k)
      rw [hr k] at e
      cases e
      refine ⟨_, _, _, g', fun u v => ?_⟩
      have hstep := coning_step hX h0.1 (rates_continuous hL) hM hL (t := τ k) (s := τ (k + 1) - τ k) (sub_pos.2 (hτ k)) (φ := φ k)
        (fun i => by rw [hφ k i, add_sub_cancel]) (hne k) u v
      rw [add_sub_cancel] at hstep
      have hold := hb (attInc (φ k) *ᵥ u) v
      have hlen : len3 (attInc (φ k) *ᵥ u) = len3 u := by
        have := orth_len3 (attInc_isRot (φ k) (hne k)).transpose.1 u
        rwa [transpose_transpose] at this
      rw [hlen] at hold
      rw [← attInc_R _ _ (hne k)] at hstep
      rw [← mulVec_mulVec, Finset.sum_range_succ]
      have e : v ⬝ᵥ (R *ᵥ (attInc (φ k) *ᵥ u)) - v ⬝ᵥ (X (τ (k + 1)) *ᵥ u) = (v ⬝ᵥ (R *ᵥ (attInc (φ k) *ᵥ u)) - v ⬝ᵥ (X (τ k) *ᵥ (attInc (φ k) *ᵥ u)))
        - (v ⬝ᵥ (X (τ (k + 1)) *ᵥ u) - v ⬝ᵥ (X (τ k) *ᵥ (attInc (φ k) *ᵥ u))) := by ring
      rw [e]
      refine (abs_sub _ _).trans ((add_le_add hold hstep).trans (le_of_eq ?_))
      ring
  obtain ⟨R, l, v, g, hb⟩ := main
  have hent : ∀ i j, |R i j - X (τ k) i j| ≤ 2 * L * M * ∑ n ∈ Finset.range k, (τ (n + 1) - τ n) ^ 3 := fun i j => by
    have h1 := hb (Pi.single j 1) (Pi.single i 1)
    have hl : ∀ i : Fin 3, len3 (Pi.single i 1) = 1 := fun i => by fin_cases i <;> simp [len3]
    rw [hl, hl, mul_one, mul_one] at h1
    simpa using h1
  refine ⟨R, g.2.2.1, hent, fun δ hδ i j => (hent i j).trans ?_⟩
  rw [mul_assoc (2 * L * M) (δ ^ 2)]
  refine mul_le_mul_of_nonneg_left ?_ (by positivity)
  have hsum : ∑ n ∈ Finset.range k, (τ (n + 1) - τ n) ^ 3 ≤ ∑ n ∈ Finset.range k, δ ^ 2 * (τ (n + 1) - τ n) := Finset.sum_le_sum fun n _ => by
    have h1 := sub_pos.2 (hτ n)
    have h2 := pow_le_pow_left₀ h1.le (hδ n) 2
    nlinarith
  rwa [← Finset.mul_sum, Finset.sum_range_sub] at hsum

/-! ## coning -/

/-- a coning rate: of constant size, its axis sweeping round in the body's `xy` plane once in 2π seconds -/
noncomputable def cone (t : ℝ) : V3 ℝ := ![Real.cos t, Real.sin t, 0]

theorem cone_len (t : ℝ) : len3 (cone t) = 1 := by
  have h := Real.sin_sq_add_cos_sq t
  simp only [len3, cone, cons_val_zero, cons_val_one, cons_val]
  rw [show Real.cos t ^ 2 + Real.sin t ^ 2 + 0 ^ 2 = 1 by linarith, Real.sqrt_one]

theorem cone_lip (a b : ℝ) : len3 (cone a - cone b) ≤ 1 * |a - b| := by
  rw [one_mul, len3]
  refine Real.sqrt_le_iff.2 ⟨abs_nonneg _, ?_⟩
  simp only [cone, Pi.sub_apply, cons_val_zero, cons_val_one, cons_val, sq_abs]
  have e : (Real.cos a - Real.cos b) ^ 2 + (Real.sin a - Real.sin b) ^ 2 + (0 - 0) ^ 2 = 2 - 2 * Real.cos (a - b) := by
    rw [Real.cos_sub]; nlinarith [Real.sin_sq_add_cos_sq a, Real.sin_sq_add_cos_sq b]
  rw [e]
  linarith [Real.one_sub_sq_div_two_le_cos (x := a - b)]

/-- the coning motion exists, and its attitude over an interval has an antisymmetric part about the third axis, although the rate never has a component there -/
theorem exists_cone : ∃ X : ℝ → M3 ℝ, X 0 = 1 ∧ (∀ τ u, HasDerivAt (fun s => X s *ᵥ u) (X τ *ᵥ (cone τ ⨯₃ u)) τ)
    ∧ (∀ t, X t 1 0 - X t 0 1 = √2 * Real.sin (√2 * t) * Real.cos t - (1 + 3 * Real.cos (√2 * t)) / 2 * Real.sin t)
    ∧ ∃ T : ℝ → M3 ℝ, (∀ t, X t = T t * !![Real.cos t, Real.sin t, 0; -Real.sin t, Real.cos t, 0; 0, 0, 1]) ∧ ∀ t, (T t).trace = 1 + 2 * Real.cos (√2 * t) := by
  have hp : (![1, 0, 1] : V3 ℝ) ≠ 0 := fun h => one_ne_zero (α := ℝ) (congrFun h 0)
  have hz : (![0, 0, -1] : V3 ℝ) ≠ 0 := fun h => (by norm_num : (-1 : ℝ) ≠ 0) (congrFun h 2)
  have lp : len3 ![1, 0, 1] = √2 := by simp [len3]; norm_num
  have lz : len3 ![0, 0, -1] = 1 := by simp [len3]
  obtain ⟨T, T0, hT⟩ := exists_attitude 1 _ hp
  obtain ⟨S, S0, hS⟩ := exists_attitude 1 _ hz
  have s2 : √2 * √2 = (2 : ℝ) := Real.mul_self_sqrt (by norm_num)
  have s0 : √2 ≠ (0 : ℝ) := by positivity
  have eT : ∀ t u, T t *ᵥ u = turn ((√2)⁻¹ • ![1, 0, 1]) (√2 * t) u := fun t u => by rw [attitude_ode_unique T _ hp hT t u, T0, one_mulVec, lp]
  have eS : ∀ t u, S t *ᵥ u = turn ![0, 0, -1] t u := fun t u => by rw [attitude_ode_unique S _ hz hS t u, S0, one_mulVec, lz, inv_one, one_smul, one_mul]
  refine ⟨fun t => T t * S t, by simp [T0, S0], fun τ u => ?_, fun t => ?_, T, fun t => ?_, fun t => ?_⟩
  · have lin : ∀ u : V3 ℝ, T τ *ᵥ (![1, 0, 1] ⨯₃ u) = u 0 • (T τ *ᵥ (![1, 0, 1] ⨯₃ Pi.single 0 1)) + u 1 • (T τ *ᵥ (![1, 0, 1] ⨯₃ Pi.single 1 1)) + u 2 • (T τ *ᵥ (![1, 0, 1] ⨯₃ Pi.single 2 1)) := fun u => by
      simp only [← mulVec_smul, ← mulVec_add, ← map_smul, ← map_add]
      congr 2
      ext i; fin_cases i <;> simp
    have h := hasDerivAt_mulVec (X := T) (X' := fun u => T τ *ᵥ (![1, 0, 1] ⨯₃ u)) (fun u => hT τ u) lin (hS τ u)
    simp only [← mulVec_mulVec]
    refine h.congr_deriv ?_
    rw [← mulVec_add]
    congr 1
    have hsc := Real.sin_sq_add_cos_sq τ
    ext i
    fin_cases i <;> simp [eS, turn_eq, cone, cross_apply] <;> ring_nf
    linear_combination (u 2) * hsc
  · show (T t * S t) 1 0 - (T t * S t) 0 1 = _
    have c : ∀ (Y : M3 ℝ) i j, Y i j = (Y *ᵥ Pi.single j 1) i := fun Y i j => by simp
    rw [c (T t * S t) 1 0, c (T t * S t) 0 1, ← mulVec_mulVec, ← mulVec_mulVec, eS, eS, eT, eT]
    simp [turn_eq]
    field_simp
    linear_combination (-Real.cos (√2 * t) * Real.sin t - 2 * √2 * Real.sin (√2 * t) * Real.cos t + Real.sin t) * s2
  · have hS' : S t = !![Real.cos t, Real.sin t, 0; -Real.sin t, Real.cos t, 0; 0, 0, 1] := by
      refine Matrix.ext_of_mulVec_single fun i => ?_
      rw [eS]
      ext j; fin_cases i <;> fin_cases j <;> simp [turn_eq]
    show T t * S t = _
    rw [hS']
  · have c : ∀ i, T t i i = (T t *ᵥ Pi.single i 1) i := fun i => by simp
    rw [Matrix.trace_fin_three, c 0, c 1, c 2, eT, eT, eT]
    simp [turn_eq]
    field_simp
    linear_combination (Real.cos (√2 * t) - 1) * s2

theorem cone_gap {t : ℝ} (h0 : 0 < t) (h1 : t ≤ 1 / 10) :
    t ^ 3 / 12 ≤ √2 * Real.sin (√2 * t) * Real.cos t - (1 + 3 * Real.cos (√2 * t)) / 2 * Real.sin t := by
  have s2 : √2 * √2 = (2 : ℝ) := Real.mul_self_sqrt (by norm_num)
  have sp : 0 < √2 := by positivity
  have sq2 : √2 ≤ (3 / 2 : ℝ) := Real.sqrt_le_iff.2 ⟨by norm_num, by norm_num⟩
  have ht : |√2 * t| ≤ 1 := by rw [abs_of_pos (by positivity)]; nlinarith
  have e2 : (√2 * t) ^ 2 = 2 * t ^ 2 := by rw [mul_pow, sq √2, s2]
  have e3 : (√2 * t) ^ 3 = 2 * √2 * t ^ 3 := by rw [pow_succ, e2]; ring
  have e4 : |√2 * t| ^ 4 = 4 * t ^ 4 := by rw [← abs_pow, show (√2 * t) ^ 4 = ((√2 * t) ^ 2) ^ 2 by ring, e2, abs_of_nonneg (by positivity)]; ring
  have e5 : |√2 * t| ^ 5 = 4 * √2 * t ^ 5 := by rw [pow_succ, e4, abs_of_pos (by positivity)]; ring
  have a1 := (abs_le.1 (Real.sin_bound ht)).1
  have a2 := (abs_le.1 (Real.cos_bound ht)).2
  have a3 := (abs_le.1 (Real.sin_bound (x := t) (by rw [abs_of_pos h0]; linarith))).2
  have a4 := Real.one_sub_sq_div_two_le_cos (x := t)
  rw [e3, e5] at a1
  rw [e2, e4] at a2
  rw [abs_of_pos h0] at a3
  have t4 : t ^ 4 ≤ t ^ 3 / 10 := by nlinarith [pow_pos h0 3]
  have t2 : t ^ 2 ≤ 1 / 100 := by nlinarith
  have p3 := pow_pos h0 3
  have p4 := pow_pos h0 4
  have p5 := pow_pos h0 5
  have p6 := pow_pos h0 6
  have p7 := pow_pos h0 7
  have p8 := pow_pos h0 8
  have p9 := pow_pos h0 9
  have t5 : t ^ 5 ≤ t ^ 3 / 100 := by nlinarith
  have t7 : t ^ 7 ≤ t ^ 3 / 10000 := by nlinarith
  have t9 : t ^ 9 ≤ t ^ 3 / 1000000 := by nlinarith
  have b1 : 2 * t - 2 / 3 * t ^ 3 - 2 / 25 * t ^ 5 ≤ √2 * Real.sin (√2 * t) := by
    have := mul_le_mul_of_nonneg_left a1 sp.le
    have e : √2 * (Real.sin (√2 * t) - (√2 * t - 2 * √2 * t ^ 3 / 6)) = √2 * Real.sin (√2 * t) - (2 * t - 2 / 3 * t ^ 3) := by
      linear_combination (-t + t ^ 3 / 3) * s2
    have e' : √2 * -(4 * √2 * t ^ 5 / 100) = -(2 / 25 * t ^ 5) := by linear_combination (-t ^ 5 / 25) * s2
    rw [e, e'] at this
    linarith
  have b2 : (1 + 3 * Real.cos (√2 * t)) / 2 ≤ 2 - 3 / 2 * t ^ 2 + 5 / 16 * t ^ 4 := by linarith
  have b3 : Real.sin t ≤ t - t ^ 3 / 6 + t ^ 5 / 100 := by linarith
  have b3' : 0 ≤ Real.sin t := Real.sin_nonneg_of_nonneg_of_le_pi h0.le (by linarith [Real.pi_gt_three])
  have t3 : t ^ 3 ≤ t / 100 := by nlinarith
  have c1 : (2 * t - 2 / 3 * t ^ 3 - 2 / 25 * t ^ 5) * (1 - t ^ 2 / 2) ≤ √2 * Real.sin (√2 * t) * Real.cos t :=
    mul_le_mul b1 a4 (by linarith) (le_trans (by linarith) b1)
  have c2 : (1 + 3 * Real.cos (√2 * t)) / 2 * Real.sin t ≤ (2 - 3 / 2 * t ^ 2 + 5 / 16 * t ^ 4) * (t - t ^ 3 / 6 + t ^ 5 / 100) :=
    mul_le_mul b2 b3 b3' (by linarith)
  refine le_trans ?_ (sub_le_sub c1 c2)
  have e : (2 * t - 2 / 3 * t ^ 3 - 2 / 25 * t ^ 5) * (1 - t ^ 2 / 2) - (2 - 3 / 2 * t ^ 2 + 5 / 16 * t ^ 4) * (t - t ^ 3 / 6 + t ^ 5 / 100)
      = t ^ 3 / 6 + (1 / 3 - 2 / 25 - 1 / 50 - 1 / 4 - 5 / 16) * t ^ 5 + (1 / 25 + 3 / 200 + 5 / 96) * t ^ 7 - 5 / 1600 * t ^ 9 := by ring
  rw [e]
  linarith

/-- C174, the order cannot be improved. For a body whose rate cones (`cone`: of size 1, changing by 1 per second), one call of `integrate` with the exact
integral of the rate over any time `h` up to a tenth of a second leaves an error of at least `h³/24` in an entry of the attitude matrix: the navigator has no
coning compensation. (The bound of `C174_changing_rates` is `2 h³` here.) -/
theorem C174_no_better : ∃ X : ℝ → M3 ℝ, IsRot (X 0) ∧ (∀ τ u, HasDerivAt (fun s => X s *ᵥ u) (X τ *ᵥ (cone τ ⨯₃ u)) τ)
    ∧ ∀ h : ℝ, 0 < h → h ≤ 1 / 10 → ∀ φ : V3 ℝ, (∀ i, φ i = ∫ x in (0)..h, cone x i) →
      ∀ (s : St XR) (l v dV : V3 XR) (t t' : Int), (s.lla = some l ∧ s.vNed = some v ∧ s.RB2N = some (finM (X 0)) ∧ s.tov = some t) →
        -2 ^ 63 ≤ t' - t ∧ t' - t < 2 ^ 63 →
        ∃ s' R, integrate s dV (finV φ) t' = .ok (true, s') ∧ s'.RB2N = some (finM R) ∧ ∃ i j, h ^ 3 / 24 ≤ |R i j - X h i j| := by
  obtain ⟨X, X0, hX, hd, -⟩ := exists_cone
  refine ⟨X, by rw [X0]; exact IsRot.one, hX, fun h hp hle φ hφ s l v dV t t' hs hf => ?_⟩
  have e0 : φ 0 = Real.sin h := by
    rw [hφ]
    show (∫ x in (0)..h, Real.cos x) = _
    simp [integral_cos]
  have e2 : φ 2 = 0 := by rw [hφ]; simp [cone]
  have hne : φ ≠ 0 := fun e => (Real.sin_pos_of_pos_of_lt_pi hp (by linarith [Real.pi_gt_three])).ne' (by rw [← e0, e]; rfl)
  rw [X0] at hs
  obtain ⟨s', l', v', e, g⟩ := integrate_att s l v dV 1 t t' φ hs hne hf
  rw [one_mul] at g
  refine ⟨s', _, e, g.2.2.1, ?_⟩
  have hsym : attInc φ 1 0 = attInc φ 0 1 := by
    have c : ∀ (Y : M3 ℝ) i j, Y i j = (Y *ᵥ Pi.single j 1) i := fun Y i j => by simp
    rw [c (attInc φ) 1 0, c (attInc φ) 0 1, attInc_R _ _ hne, attInc_R _ _ hne, rotByVec, rotByVec]
    simp [turn_eq, e2]
    ring
  have hgap := cone_gap hp hle
  rw [← hd h] at hgap
  by_contra hno
  simp only [not_exists, not_le] at hno
  have h1 := abs_lt.1 (hno 1 0)
  have h2 := abs_lt.1 (hno 0 1)
  linarith [h1.1, h1.2, h2.1, h2.2]

/-- runs with given increments exist from every ready state -/
theorem exists_gyros (φ : ℕ → V3 ℝ) (hne : ∀ k, φ k ≠ 0) (dV : ℕ → V3 XR) (t : ℕ → Int) (ht : ∀ k, -2 ^ 63 ≤ t (k + 1) - t k ∧ t (k + 1) - t k < 2 ^ 63)
    (s0 : St XR) (l v : V3 XR) (R : M3 ℝ) (h : Ready s0 l v (finM R) (t 0)) : ∃ s, s 0 = s0 ∧ Gyros s dV φ t := by
  let P : ℕ → Type := fun k => {s : St XR // ∃ l v R, Ready s l v (finM R) (t k)}
  have hstep : ∀ k (p : P k), ∃ q : P (k + 1), integrate p.1 (dV k) (finV (φ k)) (t (k + 1)) = .ok (true, q.1) := fun k p => by
    obtain ⟨s, l, v, R, g⟩ := p
    obtain ⟨s', l', v', e, g'⟩ := integrate_att s l v (dV k) R (t k) (t (k + 1)) (φ k) g (hne k) (ht k)
    exact ⟨⟨s', _, _, _, g'⟩, e⟩
  choose f hf using hstep
  let S : ∀ k, P k := fun k => Nat.rec ⟨s0, l, v, R, h⟩ (fun k p => f k p) k
  exact ⟨fun k => (S k).1, rfl, fun k => hf k (S k)⟩

/-- the hypotheses of `C174_changing_rates` can be met: the coning body, ten calls a second -/
example : ∃ (X : ℝ → M3 ℝ) (s : ℕ → St XR) (dV : ℕ → V3 XR) (φ : ℕ → V3 ℝ) (l v : V3 XR),
    (∀ τ u, HasDerivAt (fun s => X s *ᵥ u) (X τ *ᵥ (cone τ ⨯₃ u)) τ) ∧ IsRot (X 0) ∧ (∀ t, len3 (cone t) ≤ 1) ∧ (∀ a b, len3 (cone a - cone b) ≤ 1 * |a - b|)
    ∧ (∀ k i, φ k i = ∫ x in ((k : ℕ) : ℝ) / 10..((k + 1 : ℕ) : ℝ) / 10, cone x i) ∧ (∀ k, φ k ≠ 0)
    ∧ ((s 0).lla = some l ∧ (s 0).vNed = some v ∧ (s 0).RB2N = some (finM (X (((0 : ℕ) : ℝ) / 10))) ∧ (s 0).tov = some (((0 : ℕ) : Int) * 100000))
    ∧ Gyros s dV φ (fun k => (k : Int) * 100000) := by
  obtain ⟨X, X0, hX, -⟩ := exists_cone
  have hne : ∀ k : ℕ, (fun i => ∫ x in ((k : ℕ) : ℝ) / 10..((k + 1 : ℕ) : ℝ) / 10, cone x i) ≠ 0 := fun k h => by
    have h0 : (∫ x in ((k : ℕ) : ℝ) / 10..((k + 1 : ℕ) : ℝ) / 10, Real.cos x) = 0 := congrFun h 0
    have h1 : (∫ x in ((k : ℕ) : ℝ) / 10..((k + 1 : ℕ) : ℝ) / 10, Real.sin x) = 0 := congrFun h 1
    rw [integral_cos] at h0
    rw [integral_sin] at h1
    have hc : Real.cos (((k + 1 : ℕ) : ℝ) / 10 - (k : ℝ) / 10) = 1 := by
      rw [Real.cos_sub, sub_eq_zero.1 h0, ← sub_eq_zero.1 h1]
      linarith [Real.sin_sq_add_cos_sq ((k : ℝ) / 10)]
    have e : ((k + 1 : ℕ) : ℝ) / 10 - (k : ℝ) / 10 = 1 / 10 := by push_cast; ring
    rw [e] at hc
    have := Real.cos_bound (x := 1 / 10) (by rw [abs_of_pos] <;> norm_num)
    rw [hc] at this
    norm_num [abs_of_pos] at this
  obtain ⟨s, hs, hg⟩ := exists_gyros _ hne (fun _ => finV 0) (fun k => (k : Int) * 100000) (fun k => by push_cast; constructor <;> linarith)
    { lla := some (finV 0), vNed := some (finV 0), RB2N := some (finM 1), tov := some 0 } (finV 0) (finV 0) 1 ⟨rfl, rfl, rfl, by simp⟩
  refine ⟨X, s, _, _, finV 0, finV 0, hX, by rw [X0]; exact IsRot.one, fun t => (cone_len t).le, cone_lip, fun k i => rfl, hne, ?_, hg⟩
  rw [hs]
  exact ⟨rfl, rfl, by simp [X0], by simp⟩

end NavFuse.Props
