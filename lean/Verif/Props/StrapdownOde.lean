import Verif.Props.StrapdownNav
import Mathlib.Analysis.Calculus.Deriv.Prod
import Mathlib.Analysis.Calculus.MeanValue
import Mathlib.Analysis.SpecialFunctions.Trigonometric.Deriv

/-! # Property C101: the attitude update solves the attitude differential equation -/

namespace NavFuse.Props
open Matrix Spec Gravity XR NavUtils Strapdown Attitude

/-- derivative of a turning vector -/
theorem hasDerivAt_turn (n : Fin 3 → ℝ) (hn : n 0 ^ 2 + n 1 ^ 2 + n 2 ^ 2 = 1) (u : Fin 3 → ℝ) {θ : ℝ → ℝ} {θ' τ : ℝ} (h : HasDerivAt θ θ' τ) :
    HasDerivAt (fun s => turn n (θ s) u) (θ' • (n ⨯₃ turn n (θ τ) u)) τ := by
  have hc := (Real.hasDerivAt_cos (θ τ)).comp τ h
  have hs := (Real.hasDerivAt_sin (θ τ)).comp τ h
  refine hasDerivAt_pi.2 fun i => ?_
  have h1 := ((hc.mul_const (u i)).add (hs.mul_const ((n ⨯₃ u) i))).add (((hasDerivAt_const τ (1 : ℝ)).sub hc).mul_const ((n ⬝ᵥ u) * n i))
  refine (h1.congr_deriv ?_).congr_of_eventuallyEq (Filter.Eventually.of_forall fun s => ?_)
  · simp only [turn_eq]
    fin_cases i <;> simp [crossProduct, dotProduct, Fin.sum_univ_three]
    · linear_combination (θ' * Real.sin (θ τ) * u 0) * hn
    · linear_combination (θ' * Real.sin (θ τ) * u 1) * hn
    · linear_combination (θ' * Real.sin (θ τ) * u 2) * hn
  · simp only [turn, Function.comp_apply, Pi.add_apply, Pi.sub_apply, Pi.smul_apply, smul_eq_mul]; ring

/-- derivative of a moving matrix applied to a moving vector -/
theorem hasDerivAt_mulVec {X : ℝ → M3 ℝ} {X' : V3 ℝ → V3 ℝ} {g : ℝ → V3 ℝ} {g' : V3 ℝ} {τ : ℝ}
    (hX : ∀ u, HasDerivAt (fun s => X s *ᵥ u) (X' u) τ) (hX' : ∀ u, X' u = u 0 • X' (Pi.single 0 1) + u 1 • X' (Pi.single 1 1) + u 2 • X' (Pi.single 2 1))
    (hg : HasDerivAt g g' τ) : HasDerivAt (fun s => X s *ᵥ g s) (X' (g τ) + X τ *ᵥ g') τ := by
  have hgi := hasDerivAt_pi.1 hg
  refine hasDerivAt_pi.2 fun i => ?_
  have hx : ∀ j, HasDerivAt (fun s => X s i j) (X' (Pi.single j 1) i) τ := fun j => by
    have := hasDerivAt_pi.1 (hX (Pi.single j 1)) i
    simpa using this
  have := (((hx 0).mul (hgi 0)).add ((hx 1).mul (hgi 1))).add ((hx 2).mul (hgi 2))
  refine (this.congr_deriv ?_).congr_of_eventuallyEq (Filter.Eventually.of_forall fun s => ?_)
  · rw [hX' (g τ)]; simp [mulVec, dotProduct, Fin.sum_univ_three]; ring
  · simp [mulVec, dotProduct, Fin.sum_univ_three]

/-- a matrix whose body-fixed vectors move with angular velocity `ω` -/
theorem attitude_ode_unique (X : ℝ → M3 ℝ) (ω : V3 ℝ) (hω : ω ≠ 0) (hX : ∀ τ u, HasDerivAt (fun s => X s *ᵥ u) (X τ *ᵥ (ω ⨯₃ u)) τ)
    (T : ℝ) (u : V3 ℝ) : X T *ᵥ u = X 0 *ᵥ turn ((len3 ω)⁻¹ • ω) (len3 ω * T) u := by
  set n := (len3 ω)⁻¹ • ω with hn
  have hu : n 0 ^ 2 + n 1 ^ 2 + n 2 ^ 2 = 1 := unit_of hω
  have hw : len3 ω • n = ω := by rw [hn, smul_smul, mul_inv_cancel₀ (len3_pos hω).ne', one_smul]
  have hY : ∀ τ, HasDerivAt (fun s => X s *ᵥ turn n (-(len3 ω * s)) (turn n (len3 ω * T) u)) 0 τ := by
    intro τ
    have hθ : HasDerivAt (fun s : ℝ => -(len3 ω * s)) (-len3 ω) τ := by
      have := ((hasDerivAt_id τ).const_mul (len3 ω)).neg
      rw [mul_one] at this; exact this
    have hg := hasDerivAt_turn n hu (turn n (len3 ω * T) u) hθ
    refine (hasDerivAt_mulVec (X' := fun u => X τ *ᵥ (ω ⨯₃ u)) (hX τ) (fun u => ?_) hg).congr_deriv ?_
    · ext i; simp [mulVec, dotProduct, Fin.sum_univ_three, crossProduct]; ring
    · rw [neg_smul, ← LinearMap.smul_apply, ← map_smul, hw, mulVec_neg, add_neg_cancel]
  have hc := is_const_of_deriv_eq_zero (fun τ => (hY τ).differentiableAt) (fun τ => (hY τ).deriv) T 0
  rw [turn_add n hu, turn_add n hu, neg_add_cancel, turn_zero, mul_zero, neg_zero, zero_add] at hc
  exact hc

/-- C101. For a body turning at any constant rate `ω` relative to the navigation frame, the attitude update is exact for every (also long) time step:
let `X` be any solution of the attitude equation, in which every body-fixed vector `u` moves with velocity `X (ω × u)`. If the navigator's attitude is
`X 0`, then after `integrate` with the angle increment `T ω` it is exactly `X T`. -/
theorem C101_constant_rate (s : St XR) (l v dV : V3 XR) (X : ℝ → M3 ℝ) (ω : V3 ℝ) (hω : ω ≠ 0)
    (hX : ∀ τ u, HasDerivAt (fun s => X s *ᵥ u) (X τ *ᵥ (ω ⨯₃ u)) τ) (T : ℝ) (hT : T ≠ 0) (t t' : Int)
    (h : s.lla = some l ∧ s.vNed = some v ∧ s.RB2N = some (finM (X 0)) ∧ s.tov = some t) (hf : -2 ^ 63 ≤ t' - t ∧ t' - t < 2 ^ 63) :
    ∃ s', integrate s dV (finV (T • ω)) t' = .ok (true, s') ∧ s'.RB2N = some (finM (X T)) := by
  have hφ : T • ω ≠ 0 := smul_ne_zero hT hω
  obtain ⟨s', l', v', e, g⟩ := integrate_att s l v dV (X 0) t t' (T • ω) h hφ hf
  refine ⟨s', e, ?_⟩
  rw [g.2.2.1]
  congr 2
  refine Matrix.ext_of_mulVec_single fun i => ?_
  have hu := unit_of hω
  have hw : T • ω = (len3 ω * T) • ((len3 ω)⁻¹ • ω) := by
    rw [smul_smul, mul_comm (len3 ω), mul_assoc, mul_inv_cancel₀ (len3_pos hω).ne', mul_one]
  rw [← mulVec_mulVec, attInc_R _ _ hφ, attitude_ode_unique X ω hω hX T, hw, rotByVec_axis _ hu _ _ (mul_ne_zero (len3_pos hω).ne' hT)]

/-- such solutions exist from every attitude: the turning motion itself -/
theorem exists_attitude (R : M3 ℝ) (ω : V3 ℝ) (hω : ω ≠ 0) : ∃ X : ℝ → M3 ℝ, X 0 = R ∧ ∀ τ u, HasDerivAt (fun s => X s *ᵥ u) (X τ *ᵥ (ω ⨯₃ u)) τ := by
  have hw : len3 ω • ((len3 ω)⁻¹ • ω) = ω := by rw [smul_smul, mul_inv_cancel₀ (len3_pos hω).ne', one_smul]
  let B : ℝ → M3 ℝ := fun τ => of fun i j => turn ((len3 ω)⁻¹ • ω) (len3 ω * τ) (Pi.single j 1) i
  have hB : ∀ τ u, B τ *ᵥ u = turn ((len3 ω)⁻¹ • ω) (len3 ω * τ) u := fun τ u => by
    ext i
    fin_cases i <;> simp [B, turn_eq, mulVec, dotProduct, Fin.sum_univ_three] <;> ring
  refine ⟨fun τ => R * B τ, ?_, fun τ u => ?_⟩
  · refine Matrix.ext_of_mulVec_single fun i => ?_
    rw [← mulVec_mulVec, hB, mul_zero, turn_zero]
  · have hθ : HasDerivAt (fun s : ℝ => len3 ω * s) (len3 ω) τ := by
      have := (hasDerivAt_id τ).const_mul (len3 ω)
      rw [mul_one] at this; exact this
    have h := hasDerivAt_mulVec (X := fun _ => R) (X' := fun _ => 0) (fun u => hasDerivAt_const τ _) (fun u => by simp)
      (hasDerivAt_turn _ (unit_of hω) u hθ)
    simp only [← mulVec_mulVec, hB]
    refine h.congr_deriv ?_
    rw [zero_add, ← LinearMap.smul_apply, ← map_smul, hw]
    congr 1
    have e : ∀ (n : V3 ℝ) (θ w : ℝ), n 0 ^ 2 + n 1 ^ 2 + n 2 ^ 2 = 1 → (w • n) ⨯₃ turn n θ u = turn n θ ((w • n) ⨯₃ u) := fun n θ w hn => by
      ext i
      fin_cases i <;> simp [turn_eq, crossProduct] <;> ring
    have := e _ (len3 ω * τ) (len3 ω) (unit_of hω)
    rwa [hw] at this

end NavFuse.Props
