import Mathlib.LinearAlgebra.CrossProduct
import Mathlib.LinearAlgebra.Matrix.Determinant.Basic
import Mathlib.LinearAlgebra.Matrix.Notation
import Mathlib.Analysis.SpecialFunctions.Trigonometric.Basic
import Mathlib.Algebra.Quaternion

/-! # Rotations in space, independent of the model -/

namespace NavFuse.Spec

open Matrix Quaternion

/-- a proper rotation matrix: orthonormal with determinant +1 -/
def IsRot (R : Matrix (Fin 3) (Fin 3) ℝ) : Prop := R * Rᵀ = 1 ∧ R.det = 1

/-- the vector `v` turned by the angle `θ` about the unit axis `n` (right-hand rule; Rodrigues' formula) -/
noncomputable def turn (n : Fin 3 → ℝ) (θ : ℝ) (v : Fin 3 → ℝ) : Fin 3 → ℝ :=
  Real.cos θ • v + Real.sin θ • (n ⨯₃ v) + ((1 - Real.cos θ) * (n ⬝ᵥ v)) • n

/-- right-handed rotation about the first axis -/
noncomputable def rotX (t : ℝ) : Matrix (Fin 3) (Fin 3) ℝ := !![1, 0, 0; 0, Real.cos t, -Real.sin t; 0, Real.sin t, Real.cos t]
/-- right-handed rotation about the second axis -/
noncomputable def rotY (t : ℝ) : Matrix (Fin 3) (Fin 3) ℝ := !![Real.cos t, 0, Real.sin t; 0, 1, 0; -Real.sin t, 0, Real.cos t]
/-- right-handed rotation about the third axis -/
noncomputable def rotZ (t : ℝ) : Matrix (Fin 3) (Fin 3) ℝ := !![Real.cos t, -Real.sin t, 0; Real.sin t, Real.cos t, 0; 0, 0, 1]

/-- Euclidean length in space -/
noncomputable def len3 (v : Fin 3 → ℝ) : ℝ := Real.sqrt (v 0 ^ 2 + v 1 ^ 2 + v 2 ^ 2)

/-- the vector `v` turned about the direction of `φ` by the angle `|φ|` -/
noncomputable def rotByVec (φ v : Fin 3 → ℝ) : Fin 3 → ℝ := turn ((len3 φ)⁻¹ • φ) (len3 φ) v

/-- a quadruple, scalar part first, as a Mathlib quaternion -/
def toQ (q : Fin 4 → ℝ) : ℍ[ℝ] := ⟨q 0, q 1, q 2, q 3⟩
/-- a vector as a pure quaternion -/
def pureQ (v : Fin 3 → ℝ) : ℍ[ℝ] := ⟨0, v 0, v 1, v 2⟩

/-- squared length of a quadruple -/
def sq4 (q : Fin 4 → ℝ) : ℝ := q 0 ^ 2 + q 1 ^ 2 + q 2 ^ 2 + q 3 ^ 2

/-- Attitude from roll, pitch and heading: the matrix taking body coordinates (forward, right, down) to north-east-down coordinates.
Start aligned with north-east-down, turn by the heading about down, by the pitch about the new right axis, by the roll about the new
forward axis. -/
noncomputable def bodyToNed (roll pitch hdg : ℝ) : Matrix (Fin 3) (Fin 3) ℝ := rotZ hdg * rotY pitch * rotX roll

end NavFuse.Spec
