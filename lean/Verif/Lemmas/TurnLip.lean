import Verif.Props.StrapdownOde
import Verif.Props.AttitudeRnd
import Verif.Lemmas.EarthLip
import Mathlib.LinearAlgebra.Matrix.DotProduct

/-! # Nearby rotation vectors give nearby rotations -/

namespace NavFuse
open Matrix Spec Strapdown Props

/-- turning keeps inner products -/
theorem turn_dot (n : Fin 3 → ℝ) (θ : ℝ) (a b : Fin 3 → ℝ) : turn n θ a ⬝ᵥ b = a ⬝ᵥ turn n (-θ) b := by
  simp only [turn_eq, dotProduct, Fin.sum_univ_three, Real.cos_neg, Real.sin_neg, cons_val]
  ring

theorem turn_len3 {n : Fin 3 → ℝ} (hn : n 0 ^ 2 + n 1 ^ 2 + n 2 ^ 2 = 1) (θ : ℝ) (a : Fin 3 → ℝ) : len3 (turn n θ a) = len3 a := by
  refine len3_le_of_dot ?_
  rw [turn_dot, turn_add n hn, neg_add_cancel, turn_zero]

theorem triple (a b w : Fin 3 → ℝ) : (a ⨯₃ b) ⬝ᵥ w = -(b ⬝ᵥ (a ⨯₃ w)) := by
  simp [crossProduct, dotProduct, Fin.sum_univ_three]; ring

theorem hasDerivAt_dot {f g : ℝ → V3 ℝ} {f' g' : V3 ℝ} {t : ℝ} (hf : HasDerivAt f f' t) (hg : HasDerivAt g g' t) :
    HasDerivAt (fun s => f s ⬝ᵥ g s) (f' ⬝ᵥ g t + f t ⬝ᵥ g') t := by
  have a := hasDerivAt_pi.1 hf
  have b := hasDerivAt_pi.1 hg
  have := (((a 0).mul (b 0)).add ((a 1).mul (b 1))).add ((a 2).mul (b 2))
  refine (this.congr_deriv ?_).congr_of_eventuallyEq (Filter.Eventually.of_forall fun s => ?_)
  · simp [dotProduct, Fin.sum_univ_three]; ring
  · simp [dotProduct, Fin.sum_univ_three]

theorem cross_len3 (a w : V3 ℝ) : len3 (a ⨯₃ w) ≤ len3 a * len3 w := by
  rw [← Real.sqrt_sq (mul_nonneg (len3_nonneg' a) (len3_nonneg' w)), len3, mul_pow, len3_sq, len3_sq]
  refine Real.sqrt_le_sqrt ?_
  simp only [crossProduct, LinearMap.mk₂_apply, cons_val]
  nlinarith [sq_nonneg (a 0 * w 0 + a 1 * w 1 + a 2 * w 2)]

/-- the rotation depends on the rotation vector with Lipschitz constant one -/
theorem turn_lip {n n' : Fin 3 → ℝ} (hn : n 0 ^ 2 + n 1 ^ 2 + n 2 ^ 2 = 1) (hn' : n' 0 ^ 2 + n' 1 ^ 2 + n' 2 ^ 2 = 1) (θ θ' : ℝ) (u : Fin 3 → ℝ) :
    len3 (turn n θ u - turn n' θ' u) ≤ len3 (θ • n - θ' • n') * len3 u := by
  set a := turn n θ u - turn n' θ' u with ha
  set C := len3 a * (len3 (θ • n - θ' • n') * len3 u) with hC
  let g : ℝ → ℝ := fun s => turn n (-(s * θ)) a ⬝ᵥ turn n' ((1 - s) * θ') u
  have hd : ∀ s, HasDerivAt g (turn n (-(s * θ)) a ⬝ᵥ ((θ • n - θ' • n') ⨯₃ turn n' ((1 - s) * θ') u)) s := by
    intro s
    have h1 : HasDerivAt (fun s : ℝ => -(s * θ)) (-θ) s := by
      have := ((hasDerivAt_id s).mul_const θ).neg
      rw [one_mul] at this; exact this
    have h2 : HasDerivAt (fun s : ℝ => (1 - s) * θ') (-θ') s := by simpa using ((hasDerivAt_id s).const_sub 1).mul_const θ'
    refine (hasDerivAt_dot (hasDerivAt_turn n hn a h1) (hasDerivAt_turn n' hn' u h2)).congr_deriv ?_
    simp only [smul_dotProduct, dotProduct_smul, triple, smul_eq_mul, map_sub, map_smul, LinearMap.sub_apply, LinearMap.smul_apply, dotProduct_sub]
    ring
  have hb : ∀ s ∈ Set.Ico (0 : ℝ) 1, ‖turn n (-(s * θ)) a ⬝ᵥ ((θ • n - θ' • n') ⨯₃ turn n' ((1 - s) * θ') u)‖ ≤ C := by
    intro s _
    rw [Real.norm_eq_abs]
    refine (dot_le_len3 _ _).trans ?_
    rw [turn_len3 hn, hC]
    refine mul_le_mul_of_nonneg_left ((cross_len3 _ _).trans ?_) (len3_nonneg' _)
    rw [turn_len3 hn']
  have key := norm_image_sub_le_of_norm_deriv_le_segment_01' (f := g) (fun s _ => (hd s).hasDerivWithinAt) hb
  have e : g 1 - g 0 = len3 a ^ 2 := by
    have e1 : g 1 = a ⬝ᵥ turn n θ u := by simp only [g]; rw [turn_dot]; simp [turn_zero]
    have e0 : g 0 = a ⬝ᵥ turn n' θ' u := by simp only [g]; simp [turn_zero]
    rw [e1, e0, ← dotProduct_sub, ← ha, len3_sq]; simp [dotProduct, Fin.sum_univ_three]; ring
  rw [e, Real.norm_eq_abs, abs_of_nonneg (sq_nonneg _)] at key
  rcases (len3_nonneg' a).eq_or_lt with h | h
  · rw [← h]; exact mul_nonneg (len3_nonneg' _) (len3_nonneg' _)
  · rw [hC, sq] at key
    exact le_of_mul_le_mul_left key h

/-- rows multiplied by the attitude increments of two rotation vectors -/
theorem attInc_lip {φ φ' : V3 ℝ} (h : φ ≠ 0) (h' : φ' ≠ 0) (e : V3 ℝ) : len3 (e ᵥ* attInc φ - e ᵥ* attInc φ') ≤ len3 (φ - φ') * len3 e := by
  have k : ∀ {φ : V3 ℝ}, φ ≠ 0 → e ᵥ* attInc φ = turn ((len3 φ)⁻¹ • φ) (-len3 φ) e := fun {φ} h => by
    refine dotProduct_eq _ _ fun v => ?_
    rw [← dotProduct_mulVec, attInc_R _ _ h, turn_dot, neg_neg]; rfl
  have w : ∀ {φ : V3 ℝ}, φ ≠ 0 → -len3 φ • ((len3 φ)⁻¹ • φ) = -φ := fun {φ} h => by
    rw [smul_smul, neg_mul, mul_inv_cancel₀ (len3_pos h).ne', neg_one_smul]
  rw [k h, k h']
  refine (turn_lip (unit_of h) (unit_of h') _ _ e).trans (le_of_eq ?_)
  rw [w h, w h', show -φ - -φ' = (-1 : ℝ) • (φ - φ') by simp; abel, Props.len3_smul]; simp

/-- attitudes after one increment each -/
theorem attitude_drift {E E' : M3 ℝ} (hE' : IsRot E') {φ φ' : V3 ℝ} (h : φ ≠ 0) (h' : φ' ≠ 0) {δ η : ℝ} (hE : ∀ i, len3 (E i - E' i) ≤ δ)
    (hφ : len3 (φ - φ') ≤ η) (i : Fin 3) : len3 ((E * attInc φ) i - (E' * attInc φ') i) ≤ δ + η := by
  have e1 : (E * attInc φ) i - (E' * attInc φ') i = (E i - E' i) ᵥ* attInc φ + (E' i ᵥ* attInc φ - E' i ᵥ* attInc φ') := by
    rw [sub_vecMul, mul_apply_eq_vecMul, mul_apply_eq_vecMul]; abel
  rw [e1]
  refine (len3_add _ _).trans (add_le_add ?_ ((attInc_lip h h' _).trans ?_))
  · rw [← mulVec_transpose, len3_mulVec (attInc_isRot φ h).transpose]; exact hE i
  · rw [hE'.row_len3, mul_one]; exact hφ

end NavFuse
