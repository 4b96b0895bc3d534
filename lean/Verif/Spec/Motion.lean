import Verif.Spec.Rotation
import Mathlib.Analysis.Calculus.Deriv.Basic
import Mathlib.LinearAlgebra.CrossProduct

/-! # The equations of motion of a vehicle with inertial sensors, in a uniformly rotating frame, independent of the model -/

namespace NavFuse.Spec
open Matrix

/-- the matrix of the cross product with `v` -/
def crossMat (v : Fin 3 → ℝ) : Matrix (Fin 3) (Fin 3) ℝ := !![0, -v 2, v 1; v 2, 0, -v 0; -v 1, v 0, 0]

theorem crossMat_mulVec (v u : Fin 3 → ℝ) : crossMat v *ᵥ u = v ⨯₃ u := by
  ext i; fin_cases i <;> simp [crossMat, cross_apply, mulVec, dotProduct, Fin.sum_univ_three] <;> ring

/-- Attitude `R` (sensor axes to frame axes), velocity `v` and position `p` in a frame that turns with the angular velocity `o`, for `0 ≤ t ≤ T`: `ω` is the
angular rate and `a` the specific force in sensor axes, `g` the gravitation at a place, and `d` a further acceleration. -/
structure Motion (o : Fin 3 → ℝ) (T : ℝ) (g : (Fin 3 → ℝ) → Fin 3 → ℝ) (ω a d : ℝ → Fin 3 → ℝ) (R : ℝ → Matrix (Fin 3) (Fin 3) ℝ) (v p : ℝ → Fin 3 → ℝ) : Prop where
  attitude : ∀ t ∈ Set.Icc 0 T, ∀ i j, HasDerivAt (fun τ => R τ i j) ((R t * crossMat (ω t) - crossMat o * R t) i j) t
  velocity : ∀ t ∈ Set.Icc 0 T, ∀ i, HasDerivAt (fun τ => v τ i) ((R t *ᵥ a t - (2 : ℝ) • (o ⨯₃ v t) - o ⨯₃ (o ⨯₃ p t) + g (p t) + d t) i) t
  position : ∀ t ∈ Set.Icc 0 T, ∀ i, HasDerivAt (fun τ => p τ i) (v t i) t

end NavFuse.Spec
