import Verif.Eigen

/-! # The two Eigen solvers NavFuse calls

`MatrixXd::inverse()` (src/filter/KalmanFilter.cpp:101 and 228) is Eigen's `PartialPivLU` followed by a solve with the identity;
`A.ldlt().solve(b)` (src/filter/BatchLeastSquares.cpp:38, 77, 138 and 212) is Eigen's `LDLT`. Eigen is not part of /repo; these are its
unblocked algorithms (Eigen 3.4, `src/LU/PartialPivLU.h` and `src/Cholesky/LDLT.h`) with factorisation and substitution interleaved, one
recursive call per eliminated column.  Simplified: the order in which the terms of one coefficient are subtracted (Eigen blocks large
matrices and accumulates LDLT updates column by column), which changes rounding only. -/

set_option linter.unusedSectionVars false

namespace NavFuse

variable {α : Type} [Add α] [Sub α] [Mul α] [Div α] [Neg α] [Flt α]

/-- `maxCoeff(&index)`: the first index of the largest coefficient -/
def argmax : {n : Nat} → (Fin (n + 1) → α) → Fin (n + 1)
  | 0, _ => 0
  | _ + 1, f =>
    let i := (argmax fun j => f j.castSucc).castSucc
    if Flt.lt (f i) (f (Fin.last _)) then Fin.last _ else i

/-- `PartialPivLU(A).solve(b)`: bring the largest coefficient of the first column to the top, eliminate (no division if that coefficient is
zero), continue with the remaining rows and columns, substitute back. -/
def luSolve : {n : Nat} → Matrix (Fin n) (Fin n) α → (Fin n → α) → Fin n → α
  | 0, _, _ => fun i => i.elim0
  | _ + 1, A, b =>
    let p := argmax fun i => Flt.abs (A i 0)
    let A' : Matrix _ _ α := Matrix.of fun i j => A (Equiv.swap 0 p i) j
    let b' := fun i => b (Equiv.swap 0 p i)
    let l := fun i => if Flt.eq (Flt.abs (A' 0 0)) (Flt.lit 0) then A' (Fin.succ i) 0 else A' (Fin.succ i) 0 / A' 0 0
    let x := luSolve (Matrix.of fun i j => A' (Fin.succ i) (Fin.succ j) - l i * A' 0 (Fin.succ j)) (fun i => b' (Fin.succ i) - l i * b' 0)
    Fin.cons ((b' 0 - fsum fun j => A' 0 (Fin.succ j) * x j) / A' 0 0) x

/-- `MatrixXd::inverse()` -/
def luInverse {n : Nat} (A : Matrix (Fin n) (Fin n) α) : Matrix (Fin n) (Fin n) α :=
  Matrix.of fun i j => luSolve A (fun k => if k = j then Flt.lit 1 else Flt.lit 0) i

/-- only the lower triangle is read -/
def lowerOf {n : Nat} (A : Matrix (Fin n) (Fin n) α) : Matrix (Fin n) (Fin n) α := Matrix.of fun i j => if j ≤ i then A i j else A j i

/-- `std::numeric_limits<double>::min()` -/
def dblMin : ℚ := 1 / 2 ^ 1022

/-- `LDLT(A).solve(b)`: `d` holds the diagonal of the original matrix, by which the pivots are chosen. A pivot that is zero is not divided by
during the factorisation; a pivot up to `dblMin` yields zero in the solve. -/
def ldltGo : {n : Nat} → Matrix (Fin n) (Fin n) α → (Fin n → α) → (Fin n → α) → Fin n → α
  | 0, _, _, _ => fun i => i.elim0
  | _ + 1, A, d, b =>
    let p := argmax fun i => Flt.abs (d i)
    let σ := Equiv.swap 0 p
    let A' : Matrix _ _ α := Matrix.of fun i j => lowerOf A (σ i) (σ j)
    let d' := fun i => d (σ i)
    let b' := fun i => b (σ i)
    let piv := A' 0 0
    let l := fun i => if Flt.lt (Flt.lit 0) (Flt.abs piv) then A' (Fin.succ i) 0 / piv else A' (Fin.succ i) 0
    let y := ldltGo (Matrix.of fun i j => A' (Fin.succ i) (Fin.succ j) - l i * (piv * l j)) (fun i => d' (Fin.succ i))
      (fun i => b' (Fin.succ i) - l i * b' 0)
    let z := if Flt.lt (Flt.lit dblMin) (Flt.abs piv) then b' 0 / piv else Flt.lit 0
    fun i => (Fin.cons (z - fsum fun j => l j * y j) y : Fin _ → α) (σ i)

/-- `A.ldlt().solve(b)` -/
def eigenLdlt {n : Nat} (A : Matrix (Fin n) (Fin n) α) (b : Fin n → α) : Fin n → α := ldltGo A (fun i => A i i) b

/-- the solvers as Eigen implements them -/
def LinSolver.eigen : LinSolver α where
  inv := luInverse
  ldltSolve := eigenLdlt

end NavFuse
