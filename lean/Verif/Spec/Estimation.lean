import Verif.RealInst

/-! # Specification vocabulary for estimation

Independent of the model: second moments of a finite ensemble, the positive semidefinite order, quadratic costs, stacked measurements. -/

namespace NavFuse.Spec
open Matrix

variable {n m p : ℕ}

/-- `A ≤ B` for covariance matrices: in every direction `A`'s variance is at most `B`'s (and the difference is symmetric). -/
def CovLe (A B : Matrix (Fin n) (Fin n) ℝ) : Prop := (B - A).IsSymm ∧ ∀ v : Fin n → ℝ, v ⬝ᵥ (A *ᵥ v) ≤ v ⬝ᵥ (B *ᵥ v)

/-- a covariance matrix: symmetric, non-negative variance in every direction -/
def IsCov (P : Matrix (Fin n) (Fin n) ℝ) : Prop := P.IsSymm ∧ ∀ v : Fin n → ℝ, 0 ≤ v ⬝ᵥ (P *ᵥ v)

/-- a regular covariance matrix: symmetric, positive variance in every direction -/
def IsPosCov (P : Matrix (Fin n) (Fin n) ℝ) : Prop := P.IsSymm ∧ ∀ v : Fin n → ℝ, v ≠ 0 → 0 < v ⬝ᵥ (P *ᵥ v)

/-- Second moment `E[a bᵀ]` over a finite ensemble `Ω` with weights `w`. -/
def moment {Ω : Type} [Fintype Ω] (w : Ω → ℝ) (a : Ω → Fin n → ℝ) (b : Ω → Fin m → ℝ) : Matrix (Fin n) (Fin m) ℝ :=
  fun i j => ∑ ω, w ω * (a ω i * b ω j)

/-- quadratic form `(u)ᵀ A (u)` -/
def quad (A : Matrix (Fin n) (Fin n) ℝ) (u : Fin n → ℝ) : ℝ := u ⬝ᵥ (A *ᵥ u)

/-- `x` is the unique minimiser of `f`. -/
def UniqueMin {X : Type} (f : X → ℝ) (x : X) : Prop := ∀ y, y ≠ x → f x < f y

/-- two vectors stacked -/
def stackV (a : Fin m → ℝ) (b : Fin p → ℝ) : Fin (m + p) → ℝ := Fin.append a b
/-- two matrices stacked -/
def stackM (A : Matrix (Fin m) (Fin n) ℝ) (B : Matrix (Fin p) (Fin n) ℝ) : Matrix (Fin (m + p)) (Fin n) ℝ := 
  of fun i j => Fin.append (fun k => A k j) (fun k => B k j) i
/-- block-diagonal matrix: the joint covariance of two uncorrelated measurements -/
def blockDiag2 (A : Matrix (Fin m) (Fin m) ℝ) (B : Matrix (Fin p) (Fin p) ℝ) : Matrix (Fin (m + p)) (Fin (m + p)) ℝ :=
  of fun i j => Fin.addCases (fun i' => Fin.addCases (fun j' => A i' j') (fun _ => 0) j)
    (fun i' => Fin.addCases (fun _ => 0) (fun j' => B i' j') j) i

theorem isCov_iff {P : Matrix (Fin n) (Fin n) ℝ} : IsCov P ↔ P.PosSemidef := by
  rw [posSemidef_iff_dotProduct_mulVec, IsHermitian, conjTranspose_eq_transpose_of_trivial, IsCov, IsSymm]; simp

theorem isPosCov_iff {P : Matrix (Fin n) (Fin n) ℝ} : IsPosCov P ↔ P.PosDef := by
  rw [posDef_iff_dotProduct_mulVec, IsHermitian, conjTranspose_eq_transpose_of_trivial, IsPosCov, IsSymm]; simp

theorem covLe_iff {A B : Matrix (Fin n) (Fin n) ℝ} : CovLe A B ↔ (B - A).PosSemidef := by
  rw [← isCov_iff, CovLe, IsCov]; simp [sub_mulVec]

end NavFuse.Spec
