import Verif.Model.Kalman
import Verif.RealInst

/-! Evaluation of the Kalman model on arguments of consistent size, for every scalar type, and at ℝ. -/

set_option linter.unusedSectionVars false

namespace NavFuse.Kalman
open Matrix

variable {α : Type} [Add α] [Sub α] [Mul α] [Div α] [Neg α] [Flt α] {n m : ℕ}

theorem predict_fit (x : Fin n → α) (P F Q : Matrix (Fin n) (Fin n) α) (xo : Fin n → α) (Po : Matrix (Fin n) (Fin n) α) :
    filterPredict ⟨n, x⟩ ⟨n, n, P⟩ ⟨n, n, F⟩ ⟨n, n, Q⟩ ⟨n, xo⟩ ⟨n, n, Po⟩
      = .ok (true, ⟨n, mvec F x⟩, ⟨n, n, madd (mmul (mmul F P) (mtr F)) Q⟩) := by
  simp [filterPredict, osimp]

/-- gain as the code computes it -/
def gainC (L : LinSolver α) (P : Matrix (Fin n) (Fin n) α) (H : Matrix (Fin m) (Fin n) α) (R : Matrix (Fin m) (Fin m) α) :
    Matrix (Fin n) (Fin m) α :=
  mmul (mmul P (mtr H)) (L.inv (madd (mmul (mmul H P) (mtr H)) R))

theorem update_fit (L : LinSolver α) (x : Fin n → α) (P : Matrix (Fin n) (Fin n) α) (z : Fin m → α) (H : Matrix (Fin m) (Fin n) α)
    (R : Matrix (Fin m) (Fin m) α) (xo : Fin n → α) (Po : Matrix (Fin n) (Fin n) α) :
    filterUpdate L ⟨n, x⟩ ⟨n, n, P⟩ ⟨m, z⟩ ⟨m, n, H⟩ ⟨m, m, R⟩ ⟨n, xo⟩ ⟨n, n, Po⟩
      = .ok (true, ⟨n, vadd x (mvec (gainC L P H R) (vsub z (mvec H x)))⟩,
          ⟨n, n, madd (mmul (mmul (msub mid (mmul (gainC L P H R) H)) P) (mtr (msub mid (mmul (gainC L P H R) H))))
              (mmul (mmul (gainC L P H R) R) (mtr (gainC L P H R)))⟩) := by
  simp [filterUpdate, osimp, DMat.id, gainC]

theorem get_fit {n : ℕ} (W : Fin n → α) (i : Fin n) : DVec.get ⟨n, W⟩ i.val = .ok (W i) := by simp [DVec.get]
theorem col_fit {n m : ℕ} (A : Matrix (Fin n) (Fin m) α) (i : Fin m) :
    DMat.col ⟨n, m, A⟩ i.val = .ok ⟨n, fun k => A k i⟩ := by simp [DMat.col]

theorem accumMean_fit {N : ℕ} (W : Fin N → α) (A : Matrix (Fin n) (Fin N) α) (l : List (Fin N)) (acc : Fin n → α) :
    accumMean ⟨N, W⟩ ⟨n, N, A⟩ (l.map Fin.val) ⟨n, acc⟩
      = .ok ⟨n, l.foldl (fun acc i => vadd acc (vsmul (W i) (fun k => A k i))) acc⟩ := by
  induction l generalizing acc with
  | nil => simp [accumMean]
  | cons i l ih => simp only [List.map_cons, accumMean, get_fit, col_fit, osimp, ih, List.foldl_cons]

theorem accumScatter_fit {N : ℕ} (W : Fin N → α) (A : Matrix (Fin n) (Fin N) α) (a : Fin n → α) (B : Matrix (Fin m) (Fin N) α)
    (b : Fin m → α) (l : List (Fin N)) (acc : Matrix (Fin n) (Fin m) α) :
    accumScatter ⟨N, W⟩ ⟨n, N, A⟩ ⟨n, a⟩ ⟨m, N, B⟩ ⟨m, b⟩ (l.map Fin.val) ⟨n, m, acc⟩
      = .ok ⟨n, m, l.foldl (fun acc i => madd acc
          (vouter (vsmul (W i) (vsub (fun k => A k i) a)) (vsub (fun k => B k i) b))) acc⟩ := by
  induction l generalizing acc with
  | nil => simp [accumScatter]
  | cons i l ih =>
    simp only [List.map_cons, accumScatter, get_fit, col_fit, osimp, ih, List.foldl_cons]

theorem range_eq (N : ℕ) : List.range N = (List.finRange N).map Fin.val := by
  simp

/-- weighted mean, as accumulated by the code -/
def meanC {N : ℕ} (W : Fin N → α) (A : Matrix (Fin n) (Fin N) α) : Fin n → α :=
  (List.finRange N).foldl (fun acc i => vadd acc (vsmul (W i) (fun k => A k i))) (fun _ => Flt.lit 0)

/-- scatter matrix, as accumulated by the code -/
def scatterC {N : ℕ} (W : Fin N → α) (A : Matrix (Fin n) (Fin N) α) (a : Fin n → α) (B : Matrix (Fin m) (Fin N) α) (b : Fin m → α)
    (init : Matrix (Fin n) (Fin m) α) : Matrix (Fin n) (Fin m) α :=
  (List.finRange N).foldl (fun acc i => madd acc
          (vouter (vsmul (W i) (vsub (fun k => A k i) a)) (vsub (fun k => B k i) b))) init

theorem ukfPredict_fit (W : Fin (2 * n + 1) → α) (Y : Matrix (Fin n) (Fin (2 * n + 1)) α) (Q : Matrix (Fin n) (Fin n) α)
    (xo : Fin n → α) (Po : Matrix (Fin n) (Fin n) α) :
    filterUkfPredict ⟨2 * n + 1, W⟩ ⟨n, 2 * n + 1, Y⟩ ⟨n, n, Q⟩ ⟨n, xo⟩ ⟨n, n, Po⟩
      = .ok (true, ⟨n, meanC W Y⟩, ⟨n, n, scatterC W Y (meanC W Y) Y (meanC W Y) Q⟩) := by
  simp only [filterUkfPredict, ne_eq, not_true_eq_false, or_self, if_false, DVec.zero, range_eq, accumMean_fit, osimp, accumScatter_fit]
  rfl

theorem ukfUpdate_fit (L : LinSolver α) (x : Fin n → α) (P : Matrix (Fin n) (Fin n) α) (Y : Matrix (Fin n) (Fin (2 * n + 1)) α)
    (W : Fin (2 * n + 1) → α) (Z : Matrix (Fin m) (Fin (2 * n + 1)) α) (z : Fin m → α) (R : Matrix (Fin m) (Fin m) α)
    (xo : Fin n → α) (Po : Matrix (Fin n) (Fin n) α) :
    filterUkfUpdate L ⟨n, x⟩ ⟨n, n, P⟩ ⟨n, 2 * n + 1, Y⟩ ⟨2 * n + 1, W⟩ ⟨m, 2 * n + 1, Z⟩ ⟨m, z⟩ ⟨m, m, R⟩ ⟨n, xo⟩ ⟨n, n, Po⟩
      = .ok (true,
          ⟨n, vadd x (mvec (mmul (scatterC W Y x Z (meanC W Z) mzero) (L.inv (scatterC W Z (meanC W Z) Z (meanC W Z) R)))
                (vsub z (meanC W Z)))⟩,
          ⟨n, n, msub P (mmul (mmul (mmul (scatterC W Y x Z (meanC W Z) mzero) (L.inv (scatterC W Z (meanC W Z) Z (meanC W Z) R)))
                (scatterC W Z (meanC W Z) Z (meanC W Z) R))
              (mtr (mmul (scatterC W Y x Z (meanC W Z) mzero) (L.inv (scatterC W Z (meanC W Z) Z (meanC W Z) R)))))⟩) := by
  simp only [filterUkfUpdate, ne_eq, not_true_eq_false, or_self, if_false, DVec.zero, DMat.zero, range_eq, accumMean_fit, osimp, accumScatter_fit]
  rfl

/-! At ℝ -/

theorem foldl_add_R {ι β : Type} [AddCommMonoid β] (f : ι → β) (l : List ι) (a : β) :
    l.foldl (fun acc i => acc + f i) a = a + (l.map f).sum := by
  induction l generalizing a with
  | nil => simp
  | cons i l ih => simp [ih, add_assoc]

theorem meanC_R {N : ℕ} (W : Fin N → ℝ) (A : Matrix (Fin n) (Fin N) ℝ) : meanC W A = A *ᵥ W := by
  simp only [meanC, rsimp]
  rw [show (fun _ : Fin n => (0 : ℝ)) = 0 from rfl, foldl_add_R, zero_add, ← Fin.sum_univ_def]
  ext k; simp [mulVec, dotProduct, Finset.sum_apply, mul_comm]

theorem scatterC_R {N : ℕ} (W : Fin N → ℝ) (A : Matrix (Fin n) (Fin N) ℝ) (a : Fin n → ℝ) (B : Matrix (Fin m) (Fin N) ℝ) (b : Fin m → ℝ)
    (init : Matrix (Fin n) (Fin m) ℝ) :
    scatterC W A a B b init = init + ∑ i, W i • vecMulVec (fun k => A k i - a k) (fun k => B k i - b k) := by
  simp only [scatterC, rsimp]
  rw [foldl_add_R, ← Fin.sum_univ_def]
  congr 1
  refine Finset.sum_congr rfl fun i _ => ?_
  ext p q; simp [vecMulVec, mul_assoc]

theorem predict_R (x : Fin n → ℝ) (P F Q : Matrix (Fin n) (Fin n) ℝ) (xo : Fin n → ℝ) (Po : Matrix (Fin n) (Fin n) ℝ) :
    filterPredict ⟨n, x⟩ ⟨n, n, P⟩ ⟨n, n, F⟩ ⟨n, n, Q⟩ ⟨n, xo⟩ ⟨n, n, Po⟩
      = .ok (true, ⟨n, F *ᵥ x⟩, ⟨n, n, F * P * Fᵀ + Q⟩) := by
  rw [predict_fit]; simp only [rsimp]

end NavFuse.Kalman
