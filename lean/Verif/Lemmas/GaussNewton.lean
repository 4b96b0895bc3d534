import Verif.Props.LeastSquares
import Mathlib.Analysis.Calculus.Deriv.MeanValue
import Mathlib.Analysis.Calculus.FDeriv.Comp
import Mathlib.Analysis.Calculus.FDeriv.Add
import Mathlib.Topology.Algebra.Module.FiniteDimension

/-! # Helpers for the Gauss-Newton iteration -/

namespace NavFuse.Props
open Matrix Spec

variable {n m : ℕ}

theorem len_sq (v : Fin n → ℝ) : len v ^ 2 = v ⬝ᵥ v := by
  unfold len
  rw [Real.sq_sqrt (Finset.sum_nonneg fun _ _ => sq_nonneg _)]
  simp [dotProduct, _root_.sq]

theorem len_nonneg (v : Fin n → ℝ) : 0 ≤ len v := Real.sqrt_nonneg _

theorem len_neg (v : Fin n → ℝ) : len (-v) = len v := by simp [len]

theorem len_smul (t : ℝ) (v : Fin n → ℝ) : len (t • v) = |t| * len v := by
  unfold len
  rw [show ∑ i, (t • v) i ^ 2 = t ^ 2 * ∑ i, v i ^ 2 by rw [Finset.mul_sum]; exact Finset.sum_congr rfl fun i _ => by simp; ring,
    Real.sqrt_mul (sq_nonneg _), Real.sqrt_sq_eq_abs]

/-- length in the metric of the weights -/
noncomputable def wlen (W : Matrix (Fin m) (Fin m) ℝ) (u : Fin m → ℝ) : ℝ := Real.sqrt (quad W u)

variable {W : Matrix (Fin m) (Fin m) ℝ}

theorem quad_nonneg (hW : W.PosDef) (u : Fin m → ℝ) : 0 ≤ quad W u := by
  have := hW.posSemidef.dotProduct_mulVec_nonneg u
  simpa [quad] using this

theorem wlen_sq (hW : W.PosDef) (u : Fin m → ℝ) : wlen W u ^ 2 = quad W u := Real.sq_sqrt (quad_nonneg hW u)

theorem wlen_nonneg (u : Fin m → ℝ) : 0 ≤ wlen W u := Real.sqrt_nonneg _

theorem wlen_le {u : Fin m → ℝ} {a : ℝ} (a0 : 0 ≤ a) (h : quad W u ≤ a ^ 2) : wlen W u ≤ a := by
  unfold wlen
  rw [Real.sqrt_le_left a0]
  exact h

theorem w_symm (hW : W.PosDef) (u v : Fin m → ℝ) : u ⬝ᵥ (W *ᵥ v) = v ⬝ᵥ (W *ᵥ u) := by
  have e : Wᵀ = W := by have := hW.isHermitian; rwa [IsHermitian, conjTranspose_eq_transpose_of_trivial] at this
  rw [dotProduct_mulVec, ← mulVec_transpose, e, dotProduct_comm]

/-- Cauchy-Schwarz in the metric of the weights -/
theorem w_cauchy (hW : W.PosDef) (u v : Fin m → ℝ) : u ⬝ᵥ (W *ᵥ v) ≤ wlen W u * wlen W v := by
  have hu := wlen_sq hW u
  have hv := wlen_sq hW v
  have su := wlen_nonneg (W := W) u
  have sv := wlen_nonneg (W := W) v
  rcases su.eq_or_lt with z | pu
  · have : u = 0 := by
      by_contra c
      have := hW.dotProduct_mulVec_pos c
      rw [← z] at hu
      simp only [quad, star_trivial] at hu this
      linarith
    subst this
    rw [zero_dotProduct, ← z, zero_mul]
  rcases sv.eq_or_lt with z | pv
  · have : v = 0 := by
      by_contra c
      have := hW.dotProduct_mulVec_pos c
      rw [← z] at hv
      simp only [quad, star_trivial] at hv this
      linarith
    subst this
    rw [mulVec_zero, dotProduct_zero, ← z, mul_zero]
  have key := quad_nonneg hW (wlen W v • u - wlen W u • v)
  have ex : quad W (wlen W v • u - wlen W u • v)
      = wlen W v ^ 2 * quad W u - 2 * (wlen W u * wlen W v) * (u ⬝ᵥ (W *ᵥ v)) + wlen W u ^ 2 * quad W v := by
    simp only [quad, mulVec_sub, mulVec_smul, sub_dotProduct, dotProduct_sub, smul_dotProduct, dotProduct_smul, smul_eq_mul]
    rw [w_symm hW v u]
    ring
  rw [ex, ← hu, ← hv] at key
  have p := mul_pos pu pv
  nlinarith

theorem one_posDef : (1 : Matrix (Fin m) (Fin m) ℝ).PosDef := PosDef.one

theorem wlen_one (u : Fin m → ℝ) : wlen 1 u = len u := by
  unfold wlen len quad
  rw [one_mulVec]; simp [dotProduct, _root_.sq]

theorem dot_le (u v : Fin n → ℝ) : u ⬝ᵥ v ≤ len u * len v := by
  have := w_cauchy (one_posDef (m := n)) u v
  rwa [one_mulVec, wlen_one, wlen_one] at this

theorem len_add_le (u v : Fin n → ℝ) : len (u + v) ≤ len u + len v := by
  have h := dot_le u v
  refine abs_le_of_sq_le_sq' ?_ (add_nonneg (len_nonneg u) (len_nonneg v)) |>.2
  rw [len_sq, add_dotProduct, dotProduct_add, dotProduct_add, dotProduct_comm v u, ← len_sq, ← len_sq]
  nlinarith

/-- the derivative as a continuous linear map -/
noncomputable def asDeriv (A : Matrix (Fin m) (Fin n) ℝ) : (Fin n → ℝ) →L[ℝ] (Fin m → ℝ) := LinearMap.toContinuousLinearMap A.mulVecLin

/-- error of the linearisation between two points, from a Lipschitz Jacobian -/
theorem taylor_le (hW : W.PosDef) {h : (Fin n → ℝ) → Fin m → ℝ} {D : (Fin n → ℝ) → Matrix (Fin m) (Fin n) ℝ} {x d : Fin n → ℝ} {l : ℝ}
    (hd : ∀ t ∈ Set.Icc (0 : ℝ) 1, HasFDerivAt h (asDeriv (D (x + t • d))) (x + t • d))
    (hl : ∀ t ∈ Set.Icc (0 : ℝ) 1, wlen W ((D (x + t • d) - D x) *ᵥ d) ≤ l * t) :
    wlen W (h (x + d) - h x - D x *ᵥ d) ≤ l / 2 := by
  obtain ⟨R, eR⟩ : ∃ R, R = h (x + d) - h x - D x *ᵥ d := ⟨_, rfl⟩
  rw [← eR]
  let ℓ : (Fin m → ℝ) →L[ℝ] ℝ := LinearMap.toContinuousLinearMap (dotProductBilin ℝ ℝ (W *ᵥ R))
  have ℓe : ∀ u, ℓ u = u ⬝ᵥ (W *ᵥ R) := fun u => by
    rw [dotProduct_comm]; rfl
  let g : ℝ → ℝ := fun t => ℓ (h (x + t • d)) - t * ℓ (D x *ᵥ d) - wlen W R * l * t ^ 2 / 2
  have gd : ∀ t ∈ Set.Icc (0 : ℝ) 1, HasDerivAt g (ℓ (D (x + t • d) *ᵥ d) - ℓ (D x *ᵥ d) - wlen W R * l * t) t := by
    intro t ht
    have h1 : HasDerivAt (fun t : ℝ => x + t • d) d t := by
      simpa using ((hasDerivAt_id t).smul_const d).const_add x
    have h2 : HasDerivAt (fun t : ℝ => h (x + t • d)) (D (x + t • d) *ᵥ d) t := by
      have := HasFDerivAt.comp_hasDerivAt t (hd t ht) h1
      exact this
    have h3 : HasDerivAt (fun t : ℝ => ℓ (h (x + t • d))) (ℓ (D (x + t • d) *ᵥ d)) t := ℓ.hasFDerivAt.comp_hasDerivAt t h2
    have h4 : HasDerivAt (fun t : ℝ => t * ℓ (D x *ᵥ d)) (ℓ (D x *ᵥ d)) t := by simpa using (hasDerivAt_id t).mul_const (ℓ (D x *ᵥ d))
    have h5 : HasDerivAt (fun t : ℝ => wlen W R * l * t ^ 2 / 2) (wlen W R * l * t) t := by
      have := (((hasDerivAt_pow 2 t).const_mul (wlen W R * l)).div_const 2)
      exact this.congr_deriv (by norm_num; ring)
    exact (h3.sub h4).sub h5
  have anti : AntitoneOn g (Set.Icc 0 1) := by
    refine antitoneOn_of_deriv_nonpos (convex_Icc 0 1) (fun t ht => (gd t ht).continuousAt.continuousWithinAt) ?_ ?_
    · intro t ht
      exact (gd t (interior_subset ht)).differentiableAt.differentiableWithinAt
    · intro t ht
      have ht' := interior_subset ht
      rw [(gd t ht').deriv, ← map_sub, ← sub_mulVec, ℓe]
      have a := w_cauchy hW ((D (x + t • d) - D x) *ᵥ d) R
      have b := mul_le_mul_of_nonneg_right (hl t ht') (wlen_nonneg (W := W) R)
      linarith
  have fin := anti (Set.left_mem_Icc.2 zero_le_one) (Set.right_mem_Icc.2 zero_le_one) zero_le_one
  simp only [g, one_smul, zero_smul, add_zero] at fin
  have e : ℓ R = ℓ (h (x + d)) - ℓ (h x) - ℓ (D x *ᵥ d) := by rw [eR, map_sub, map_sub]
  have q : ℓ R = wlen W R ^ 2 := by rw [ℓe, wlen_sq hW]; rfl
  have R0 := wlen_nonneg (W := W) R
  rcases R0.eq_or_lt with z | p
  · rw [← z]
    have := hl 1 ⟨zero_le_one, le_rfl⟩
    have := wlen_nonneg (W := W) ((D (x + (1:ℝ) • d) - D x) *ᵥ d)
    linarith
  · have : wlen W R * wlen W R ≤ wlen W R * (l / 2) := by nlinarith
    exact le_of_mul_le_mul_left this p

end NavFuse.Props
