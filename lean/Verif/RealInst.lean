import Verif.Eigen
import Mathlib.Analysis.SpecialFunctions.Complex.Arg
import Mathlib.Analysis.SpecialFunctions.Trigonometric.Inverse
import Mathlib.Analysis.SpecialFunctions.Trigonometric.Arctan
import Mathlib.Analysis.SpecialFunctions.Pow.Real
import Mathlib.Analysis.SpecialFunctions.Sqrt
import Mathlib.LinearAlgebra.Matrix.PosDef
import Mathlib.LinearAlgebra.Matrix.NonsingularInverse
import Mathlib.Analysis.Matrix.PosDef

/-! # The model at ℝ: exact real arithmetic

Division by zero, square roots of negative numbers and `asin` outside [-1,1] are totalised by Mathlib; theorems at ℝ either exclude
those inputs or are accompanied by one at `XR`. -/

set_option linter.unusedSectionVars false

namespace NavFuse

/-- truncation toward zero, as an integer -/
noncomputable def truncR (x : ℝ) : ℤ := if 0 ≤ x then ⌊x⌋ else ⌈x⌉

/-- C `fmod` on reals: the remainder of the quotient truncated toward zero -/
noncomputable def fmodR (x y : ℝ) : ℝ := x - y * (truncR (x / y) : ℝ)

noncomputable instance : Flt ℝ where
  lit q := (q : ℝ)
  ofInt n := (n : ℝ)
  pi := Real.pi
  sqrt := Real.sqrt
  sin := Real.sin
  cos := Real.cos
  tan := Real.tan
  asin := Real.arcsin
  atan := Real.arctan
  floor x := (⌊x⌋ : ℝ)
  abs x := |x|
  atan2 y x := Complex.arg ⟨x, y⟩
  fmod := fmodR
  powi x n := x ^ n
  powq x q := x ^ (q : ℝ)
  toLong x := if -2 ^ 63 ≤ truncR x ∧ truncR x < 2 ^ 63 then some (truncR x) else none
  lt x y := decide (x < y)
  le x y := decide (x ≤ y)
  eq x y := decide (x = y)
  order := .left

section
variable (x y : ℝ)
@[rsimp] theorem R_lit (q : ℚ) : (Flt.lit q : ℝ) = (q : ℝ) := rfl
@[rsimp] theorem R_ofInt (n : ℤ) : (Flt.ofInt n : ℝ) = (n : ℝ) := rfl
@[rsimp] theorem R_pi : (Flt.pi : ℝ) = Real.pi := rfl
@[rsimp] theorem R_sqrt : Flt.sqrt x = Real.sqrt x := rfl
@[rsimp] theorem R_sin : Flt.sin x = Real.sin x := rfl
@[rsimp] theorem R_cos : Flt.cos x = Real.cos x := rfl
@[rsimp] theorem R_tan : Flt.tan x = Real.tan x := rfl
@[rsimp] theorem R_asin : Flt.asin x = Real.arcsin x := rfl
@[rsimp] theorem R_atan : Flt.atan x = Real.arctan x := rfl
@[rsimp] theorem R_floor : Flt.floor x = (⌊x⌋ : ℝ) := rfl
@[rsimp] theorem R_abs : Flt.abs x = |x| := rfl
@[rsimp] theorem R_atan2 : Flt.atan2 y x = Complex.arg ⟨x, y⟩ := rfl
@[rsimp] theorem R_fmod : Flt.fmod x y = fmodR x y := rfl
@[rsimp] theorem R_powi (n : ℕ) : Flt.powi x n = x ^ n := rfl
@[rsimp] theorem R_powq (q : ℚ) : Flt.powq x q = x ^ (q : ℝ) := rfl
@[rsimp] theorem R_lt : (Flt.lt x y = true) ↔ x < y := by simp [Flt.lt]
@[rsimp] theorem R_le : (Flt.le x y = true) ↔ x ≤ y := by simp [Flt.le]
@[rsimp] theorem R_eq : (Flt.eq x y = true) ↔ x = y := by simp [Flt.eq]
end

attribute [rsimp] Rat.cast_zero Rat.cast_one Rat.cast_ofNat Rat.cast_ofScientific Rat.cast_neg Rat.cast_div Rat.cast_mul Rat.cast_natCast
  Rat.cast_intCast

/-! The vector and matrix operations of the model are Mathlib's. -/
section mat
variable {n m k : ℕ}
open Matrix

@[rsimp] theorem R_fsum (f : Fin n → ℝ) : fsum f = ∑ i, f i := by
  cases n with
  | zero => simp [fsum, R_lit]
  | succ n =>
    have key : ∀ t : SumTree (Fin (n + 1)), t.eval f = (t.leaves.map f).sum := by
      intro t
      induction t with
      | leaf i => simp [SumTree.eval, SumTree.leaves]
      | node s t hs ht => simp [SumTree.eval, SumTree.leaves, hs, ht]
    rw [fsum, key, ((((Flt.order ℝ).perm n).map f).sum_eq), Fin.sum_univ_def]
@[rsimp] theorem R_mmul (A : Matrix (Fin n) (Fin k) ℝ) (B : Matrix (Fin k) (Fin m) ℝ) : mmul A B = A * B := by
  ext i j; simp [mmul, R_fsum, Matrix.mul_apply]
@[rsimp] theorem R_mvec (A : Matrix (Fin n) (Fin k) ℝ) (v : Fin k → ℝ) : mvec A v = A *ᵥ v := by
  ext i; simp [mvec, R_fsum, Matrix.mulVec, dotProduct]
@[rsimp] theorem R_madd (A B : Matrix (Fin n) (Fin m) ℝ) : madd A B = A + B := rfl
@[rsimp] theorem R_msub (A B : Matrix (Fin n) (Fin m) ℝ) : msub A B = A - B := rfl
@[rsimp] theorem R_mneg (A : Matrix (Fin n) (Fin m) ℝ) : mneg A = -A := rfl
@[rsimp] theorem R_msmul (s : ℝ) (A : Matrix (Fin n) (Fin m) ℝ) : msmul s A = s • A := rfl
@[rsimp] theorem R_mtr (A : Matrix (Fin n) (Fin m) ℝ) : mtr A = Aᵀ := rfl
@[rsimp] theorem R_mid : (mid : Matrix (Fin n) (Fin n) ℝ) = 1 := by
  ext i j; simp [mid, Matrix.one_apply, R_lit]
@[rsimp] theorem R_mzero : (mzero : Matrix (Fin n) (Fin m) ℝ) = 0 := by ext i j; simp [mzero, R_lit]
@[rsimp] theorem R_vouter (u : Fin n → ℝ) (v : Fin m → ℝ) : vouter u v = Matrix.vecMulVec u v := rfl
@[rsimp] theorem R_vadd (u v : Fin n → ℝ) : vadd u v = u + v := rfl
@[rsimp] theorem R_vsub (u v : Fin n → ℝ) : vsub u v = u - v := rfl
@[rsimp] theorem R_vsmul (s : ℝ) (v : Fin n → ℝ) : vsmul s v = s • v := rfl
@[rsimp] theorem R_vdiv (v : Fin n → ℝ) (s : ℝ) : vdiv v s = s⁻¹ • v := by
  ext i; simp [vdiv, div_eq_inv_mul]
@[rsimp] theorem R_vdot (u v : Fin n → ℝ) : vdot u v = u ⬝ᵥ v := by simp [vdot, R_fsum, dotProduct]
@[rsimp] theorem R_vsqNorm (v : Fin n → ℝ) : vsqNorm v = v ⬝ᵥ v := by simp [vsqNorm, R_vdot]
@[rsimp] theorem R_vnorm (v : Fin n → ℝ) : vnorm v = Real.sqrt (v ⬝ᵥ v) := by simp [vnorm, R_vsqNorm, R_sqrt]

end mat

/-- Contract of the Eigen solvers at ℝ: the inverse of an invertible matrix is an inverse, and the LDLT solution of a symmetric positive
definite system solves it.  Nothing is assumed for other arguments. -/
structure LinSolver.Correct (L : LinSolver ℝ) : Prop where
  inv_mul : ∀ {n : ℕ} (A : Matrix (Fin n) (Fin n) ℝ), IsUnit A.det → A * L.inv A = 1
  solve : ∀ {n : ℕ} (A : Matrix (Fin n) (Fin n) ℝ) (b : Fin n → ℝ), A.PosDef → A.mulVec (L.ldltSolve A b) = b

/-- Mathlib's inverse, as a solver. -/
noncomputable def LinSolver.exact : LinSolver ℝ where
  inv A := A⁻¹
  ldltSolve A b := A⁻¹.mulVec b

/-- The contract is satisfiable. -/
theorem LinSolver.exact_correct : LinSolver.exact.Correct where
  inv_mul A h := Matrix.mul_nonsing_inv A h
  solve A b h := by
    show A.mulVec (A⁻¹.mulVec b) = b
    rw [Matrix.mulVec_mulVec, Matrix.mul_nonsing_inv A ((Matrix.isUnit_iff_isUnit_det A).1 h.isUnit), Matrix.one_mulVec]

/-- Under the contract, the solver's inverse of an invertible matrix is Mathlib's. -/
theorem LinSolver.Correct.inv_eq {L : LinSolver ℝ} (hL : L.Correct) {n : ℕ} (A : Matrix (Fin n) (Fin n) ℝ) (h : IsUnit A.det) :
    L.inv A = A⁻¹ := (Matrix.inv_eq_right_inv (hL.inv_mul A h)).symm

end NavFuse
