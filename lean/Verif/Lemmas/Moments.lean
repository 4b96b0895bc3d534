import Verif.Spec.Estimation

/-! Bilinearity of second moments. -/

namespace NavFuse.Spec
open Matrix
variable {n m k : ℕ} {Ω : Type} [Fintype Ω] (p : Ω → ℝ)

theorem moment_add_left (a b : Ω → Fin n → ℝ) (c : Ω → Fin m → ℝ) :
    moment p (fun ω => a ω + b ω) c = moment p a c + moment p b c := by
  ext i j; simp [moment, ← Finset.sum_add_distrib, add_mul, mul_add]

theorem moment_add_right (a : Ω → Fin n → ℝ) (b c : Ω → Fin m → ℝ) :
    moment p a (fun ω => b ω + c ω) = moment p a b + moment p a c := by
  ext i j; simp [moment, ← Finset.sum_add_distrib, mul_add]

theorem moment_tr (a : Ω → Fin n → ℝ) (b : Ω → Fin m → ℝ) : (moment p a b)ᵀ = moment p b a := by
  ext i j; simp only [moment, transpose_apply]
  exact Finset.sum_congr rfl fun ω _ => by ring

theorem moment_mulVec_left (A : Matrix (Fin k) (Fin n) ℝ) (a : Ω → Fin n → ℝ) (b : Ω → Fin m → ℝ) :
    moment p (fun ω => A *ᵥ a ω) b = A * moment p a b := by
  ext i j
  simp only [moment, mul_apply, mulVec, dotProduct, Finset.sum_mul, Finset.mul_sum]
  rw [Finset.sum_comm]
  exact Finset.sum_congr rfl fun l _ => Finset.sum_congr rfl fun ω _ => by ring

theorem moment_mulVec_right (A : Matrix (Fin k) (Fin m) ℝ) (a : Ω → Fin n → ℝ) (b : Ω → Fin m → ℝ) :
    moment p a (fun ω => A *ᵥ b ω) = moment p a b * Aᵀ := by
  rw [← moment_tr, moment_mulVec_left, transpose_mul, moment_tr]

end NavFuse.Spec
