import Verif.Scalar
import Verif.Outcome
import Mathlib.LinearAlgebra.Matrix.Notation

/-! # The part of Eigen that NavFuse uses

Dynamically sized vectors and matrices with *checked* operations: a size mismatch or an index out of range is undefined behaviour in
the model (Eigen asserts in debug builds and reads or writes out of bounds in release builds).  Fixed-size `Vector3d`/`Matrix3d`
are plain functions on `Fin 3`.  Sums are evaluated in the order `Flt.order` of the arithmetic. -/

set_option linter.unusedSectionVars false

namespace NavFuse

variable {α : Type} [Add α] [Sub α] [Mul α] [Div α] [Neg α] [Flt α]

/-- the coefficient sums of Eigen's products, `dot` and `squaredNorm`; an empty sum is zero -/
def fsum : {n : Nat} → (Fin n → α) → α
  | 0, _ => Flt.lit 0
  | n + 1, f => ((Flt.order α).tree n).eval f

/-- `Eigen::Vector3d` -/
abbrev V3 (α : Type) := Fin 3 → α
/-- `Eigen::Matrix3d` -/
abbrev M3 (α : Type) := Matrix (Fin 3) (Fin 3) α

section fixed
variable {n m k : Nat}

/-- matrix product -/
def mmul (A : Matrix (Fin n) (Fin k) α) (B : Matrix (Fin k) (Fin m) α) : Matrix (Fin n) (Fin m) α :=
  Matrix.of fun i j => fsum fun l => A i l * B l j
/-- matrix times column vector -/
def mvec (A : Matrix (Fin n) (Fin k) α) (v : Fin k → α) : Fin n → α := fun i => fsum fun l => A i l * v l
/-- sum -/
def madd (A B : Matrix (Fin n) (Fin m) α) : Matrix (Fin n) (Fin m) α := Matrix.of fun i j => A i j + B i j
/-- difference -/
def msub (A B : Matrix (Fin n) (Fin m) α) : Matrix (Fin n) (Fin m) α := Matrix.of fun i j => A i j - B i j
/-- negation -/
def mneg (A : Matrix (Fin n) (Fin m) α) : Matrix (Fin n) (Fin m) α := Matrix.of fun i j => -A i j
/-- scalar times matrix -/
def msmul (s : α) (A : Matrix (Fin n) (Fin m) α) : Matrix (Fin n) (Fin m) α := Matrix.of fun i j => s * A i j
/-- transpose -/
def mtr (A : Matrix (Fin n) (Fin m) α) : Matrix (Fin m) (Fin n) α := Matrix.of fun i j => A j i
/-- `MatrixXd::Identity` -/
def mid : Matrix (Fin n) (Fin n) α := Matrix.of fun i j => if i = j then Flt.lit 1 else Flt.lit 0
/-- `MatrixXd::Zero` -/
def mzero : Matrix (Fin n) (Fin m) α := Matrix.of fun _ _ => Flt.lit 0
/-- `u * v.transpose()` -/
def vouter (u : Fin n → α) (v : Fin m → α) : Matrix (Fin n) (Fin m) α := Matrix.of fun i j => u i * v j
/-- vector sum -/
def vadd (u v : Fin n → α) : Fin n → α := fun i => u i + v i
/-- vector difference -/
def vsub (u v : Fin n → α) : Fin n → α := fun i => u i - v i
/-- scalar times vector -/
def vsmul (s : α) (v : Fin n → α) : Fin n → α := fun i => s * v i
/-- vector divided by scalar -/
def vdiv (v : Fin n → α) (s : α) : Fin n → α := fun i => v i / s
/-- `u.dot(v)` -/
def vdot (u v : Fin n → α) : α := fsum fun i => u i * v i
/-- `v.squaredNorm()` -/
def vsqNorm (v : Fin n → α) : α := vdot v v
/-- `v.norm()` -/
def vnorm (v : Fin n → α) : α := Flt.sqrt (vsqNorm v)

end fixed

/-- `v.normalized()`: Eigen divides by `sqrt(squaredNorm)` when the squared norm is positive and returns `v` itself otherwise
(Eigen/src/Core/Dot.h, since 3.3). -/
def vnormalized {n : Nat} (v : Fin n → α) : Fin n → α :=
  if Flt.lt (Flt.lit 0) (vsqNorm v) then vdiv v (Flt.sqrt (vsqNorm v)) else v

/-- `u.cross(v)` -/
def vcross (u v : V3 α) : V3 α :=
  ![u 1 * v 2 - u 2 * v 1, u 2 * v 0 - u 0 * v 2, u 0 * v 1 - u 1 * v 0]

/-- Eigen's fixed-size 3x3 cofactor `(i,j)` (Eigen/src/LU/InverseImpl.h, `cofactor_3x3`). -/
def cofactor3 (A : M3 α) (i j : Fin 3) : α :=
  A (i + 1) (j + 1) * A (i + 2) (j + 2) - A (i + 1) (j + 2) * A (i + 2) (j + 1)

/-- `Matrix3d::inverse()`: cofactors times the reciprocal of the determinant, which is expanded along the first column
(Eigen/src/LU/InverseImpl.h, `compute_inverse<MatrixType, ResultType, 3>`). -/
def inv3 (A : M3 α) : M3 α :=
  let det := fsum fun i => cofactor3 A i 0 * A i 0
  let invdet := Flt.lit 1 / det
  Matrix.of fun i j => cofactor3 A j i * invdet

/-- `Eigen::VectorXd` -/
structure DVec (α : Type) where
  n : Nat
  v : Fin n → α

/-- `Eigen::MatrixXd` -/
structure DMat (α : Type) where
  r : Nat
  c : Nat
  m : Matrix (Fin r) (Fin c) α

/-- The two Eigen solvers, as a parameter: the inverse of a dynamically sized square matrix (partial-pivoting LU) and `A.ldlt().solve(b)`.
`Verif/Model/Solvers.lean` has the algorithms Eigen uses.  Theorems that need more than "some matrix of the right size" assume `LinSolver.Correct` (`Verif/RealInst.lean`). -/
structure LinSolver (α : Type) where
  inv : {n : Nat} → Matrix (Fin n) (Fin n) α → Matrix (Fin n) (Fin n) α
  ldltSolve : {n : Nat} → Matrix (Fin n) (Fin n) α → (Fin n → α) → Fin n → α

namespace DVec
/-- `v[i]`, `v(i)` -/
def get (x : DVec α) (i : Nat) : Out α := if h : i < x.n then .ok (x.v ⟨i, h⟩) else .ub .index
/-- `v[i] = s` -/
def set (x : DVec α) (i : Nat) (s : α) : Out (DVec α) :=
  if i < x.n then .ok ⟨x.n, fun j => if j.val = i then s else x.v j⟩ else .ub .index
/-- `v << a, b, ...`: the comma initialiser must provide exactly `v.size()` coefficients. -/
def fill (x : DVec α) {k : Nat} (w : Fin k → α) : Out (DVec α) := if x.n = k then .ok ⟨k, w⟩ else .ub .dims
/-- `VectorXd::Zero(n)` -/
def zero (n : Nat) : DVec α := ⟨n, fun _ => Flt.lit 0⟩
/-- `u + v` -/
def add (x y : DVec α) : Out (DVec α) := if h : x.n = y.n then .ok ⟨x.n, vadd x.v (fun i => y.v (i.cast h))⟩ else .ub .dims
/-- `u - v` -/
def sub (x y : DVec α) : Out (DVec α) := if h : x.n = y.n then .ok ⟨x.n, vsub x.v (fun i => y.v (i.cast h))⟩ else .ub .dims
/-- `s * v` -/
def smul (s : α) (x : DVec α) : DVec α := ⟨x.n, vsmul s x.v⟩
/-- `v / s` -/
def divs (x : DVec α) (s : α) : DVec α := ⟨x.n, vdiv x.v s⟩
/-- `u.dot(v)` -/
def dot (x y : DVec α) : Out α := if h : x.n = y.n then .ok (vdot x.v (fun i => y.v (i.cast h))) else .ub .dims
/-- `v.norm()` -/
def norm (x : DVec α) : α := vnorm x.v
/-- `u * v.transpose()` -/
def outer (x y : DVec α) : DMat α := ⟨x.n, y.n, vouter x.v y.v⟩
end DVec

namespace DMat
/-- `A(i, j)` -/
def get (A : DMat α) (i j : Nat) : Out α :=
  if h : i < A.r ∧ j < A.c then .ok (A.m ⟨i, h.1⟩ ⟨j, h.2⟩) else .ub .index
/-- `A.col(j)` -/
def col (A : DMat α) (j : Nat) : Out (DVec α) := if h : j < A.c then .ok ⟨A.r, fun i => A.m i ⟨j, h⟩⟩ else .ub .index
/-- `A << ...`: the comma initialiser must provide exactly `rows × cols` coefficients. -/
def fill (A : DMat α) {k l : Nat} (w : Matrix (Fin k) (Fin l) α) : Out (DMat α) := if A.r = k ∧ A.c = l then .ok ⟨k, l, w⟩ else .ub .dims
/-- `MatrixXd::Zero(r, c)` -/
def zero (r c : Nat) : DMat α := ⟨r, c, mzero⟩
/-- `MatrixXd::Identity(n, n)` -/
def id (n : Nat) : DMat α := ⟨n, n, mid⟩
/-- `A.transpose()` -/
def tr (A : DMat α) : DMat α := ⟨A.c, A.r, mtr A.m⟩
/-- `A + B` -/
def add (A B : DMat α) : Out (DMat α) :=
  if h : A.r = B.r ∧ A.c = B.c then .ok ⟨A.r, A.c, madd A.m (B.m.submatrix (Fin.cast h.1) (Fin.cast h.2))⟩ else .ub .dims
/-- `A - B` -/
def sub (A B : DMat α) : Out (DMat α) :=
  if h : A.r = B.r ∧ A.c = B.c then .ok ⟨A.r, A.c, msub A.m (B.m.submatrix (Fin.cast h.1) (Fin.cast h.2))⟩ else .ub .dims
/-- `s * A` -/
def smul (s : α) (A : DMat α) : DMat α := ⟨A.r, A.c, msmul s A.m⟩
/-- `A * B` -/
def mul (A B : DMat α) : Out (DMat α) :=
  if h : A.c = B.r then .ok ⟨A.r, B.c, mmul A.m (B.m.submatrix (Fin.cast h) _root_.id)⟩ else .ub .dims
/-- `A * v` -/
def mulVec (A : DMat α) (x : DVec α) : Out (DVec α) :=
  if h : A.c = x.n then .ok ⟨A.r, mvec A.m (fun i => x.v (i.cast h))⟩ else .ub .dims
/-- `A.inverse()`; asserts that `A` is square -/
def inverse (L : LinSolver α) (A : DMat α) : Out (DMat α) :=
  if h : A.r = A.c then .ok ⟨A.r, A.r, L.inv (A.m.submatrix _root_.id (Fin.cast h))⟩ else .ub .dims
/-- `A.ldlt().solve(b)`; asserts that `A` is square and has as many rows as `b` -/
def ldltSolve (L : LinSolver α) (A : DMat α) (b : DVec α) : Out (DVec α) :=
  if h : A.r = A.c ∧ A.r = b.n then
    .ok ⟨A.r, L.ldltSolve (A.m.submatrix _root_.id (Fin.cast h.1)) (fun i => b.v (i.cast h.2))⟩ else .ub .dims
/-- `A.block<3,3>(p, q) = B` -/
def setBlock3 (A : DMat α) (p q : Nat) (B : M3 α) : Out (DMat α) :=
  if p + 3 ≤ A.r ∧ q + 3 ≤ A.c then
    .ok ⟨A.r, A.c, Matrix.of fun i j =>
      if h : (p ≤ i.val ∧ i.val < p + 3) ∧ (q ≤ j.val ∧ j.val < q + 3) then
        B ⟨i.val - p, by omega⟩ ⟨j.val - q, by omega⟩ else A.m i j⟩
  else .ub .index
end DMat

/-! Checked operations on operands that do fit. -/
section fit
variable {n m k : Nat}
open DMat

@[osimp] theorem DVec.add_fit (u v : Fin n → α) : DVec.add ⟨n, u⟩ ⟨n, v⟩ = .ok ⟨n, vadd u v⟩ := by simp [DVec.add]
@[osimp] theorem DVec.sub_fit (u v : Fin n → α) : DVec.sub ⟨n, u⟩ ⟨n, v⟩ = .ok ⟨n, vsub u v⟩ := by simp [DVec.sub]
@[osimp] theorem DVec.dot_fit (u v : Fin n → α) : DVec.dot ⟨n, u⟩ ⟨n, v⟩ = .ok (vdot u v) := by simp [DVec.dot]
@[osimp] theorem DVec.fill_fit (u w : Fin n → α) : DVec.fill ⟨n, u⟩ w = .ok ⟨n, w⟩ := by simp [DVec.fill]
@[osimp] theorem DMat.add_fit (A B : Matrix (Fin n) (Fin m) α) : DMat.add ⟨n, m, A⟩ ⟨n, m, B⟩ = .ok ⟨n, m, madd A B⟩ := by simp [DMat.add]
@[osimp] theorem DMat.sub_fit (A B : Matrix (Fin n) (Fin m) α) : DMat.sub ⟨n, m, A⟩ ⟨n, m, B⟩ = .ok ⟨n, m, msub A B⟩ := by simp [DMat.sub]
@[osimp] theorem DMat.mul_fit (A : Matrix (Fin n) (Fin k) α) (B : Matrix (Fin k) (Fin m) α) :
    DMat.mul ⟨n, k, A⟩ ⟨k, m, B⟩ = .ok ⟨n, m, mmul A B⟩ := by simp [DMat.mul]
@[osimp] theorem DMat.mulVec_fit (A : Matrix (Fin n) (Fin k) α) (v : Fin k → α) :
    DMat.mulVec ⟨n, k, A⟩ ⟨k, v⟩ = .ok ⟨n, mvec A v⟩ := by simp [DMat.mulVec]
@[osimp] theorem DMat.inverse_fit (L : LinSolver α) (A : Matrix (Fin n) (Fin n) α) :
    DMat.inverse L ⟨n, n, A⟩ = .ok ⟨n, n, L.inv A⟩ := by simp [DMat.inverse]
@[osimp] theorem DMat.ldltSolve_fit (L : LinSolver α) (A : Matrix (Fin n) (Fin n) α) (b : Fin n → α) :
    DMat.ldltSolve L ⟨n, n, A⟩ ⟨n, b⟩ = .ok ⟨n, L.ldltSolve A b⟩ := by simp [DMat.ldltSolve]
@[osimp] theorem DMat.fill_fit (A w : Matrix (Fin n) (Fin m) α) : DMat.fill ⟨n, m, A⟩ w = .ok ⟨n, m, w⟩ := by simp [DMat.fill]
@[osimp] theorem DMat.tr_fit (A : Matrix (Fin n) (Fin m) α) : DMat.tr ⟨n, m, A⟩ = ⟨m, n, mtr A⟩ := rfl
@[osimp] theorem DMat.smul_fit (s : α) (A : Matrix (Fin n) (Fin m) α) : DMat.smul s ⟨n, m, A⟩ = ⟨n, m, msmul s A⟩ := rfl
@[osimp] theorem DVec.outer_fit (u : Fin n → α) (v : Fin m → α) : DVec.outer ⟨n, u⟩ ⟨m, v⟩ = ⟨n, m, vouter u v⟩ := rfl
@[osimp] theorem DVec.smul_fit (s : α) (v : Fin n → α) : DVec.smul s ⟨n, v⟩ = ⟨n, vsmul s v⟩ := rfl
@[osimp] theorem DVec.divs_fit (s : α) (v : Fin n → α) : DVec.divs ⟨n, v⟩ s = ⟨n, vdiv v s⟩ := rfl
end fit

end NavFuse
