import Verif.Model.Pva
import Verif.Spec.ErrorModel
import Verif.Lemmas.NavEval

/-! Evaluation of the error-dynamics functions in 3×3 blocks. -/

set_option linter.unusedSectionVars false
set_option linter.unnecessarySeqFocus false

namespace NavFuse.Pva
open Matrix NavFuse.Spec NavFuse.XR

section generic
variable {α : Type} [Add α] [Sub α] [Mul α] [Div α] [Neg α] [Flt α]

/-- the 9×9 matrix with the given 3×3 blocks -/
def blk (B : Fin 3 → Fin 3 → M3 α) : Matrix (Fin 9) (Fin 9) α :=
  of fun i j => B ⟨i.val / 3, by omega⟩ ⟨j.val / 3, by omega⟩ ⟨i.val % 3, by omega⟩ ⟨j.val % 3, by omega⟩

theorem zero_blk : (DMat.zero 9 9 : DMat α) = ⟨9, 9, blk fun _ _ => mzero⟩ := rfl

theorem set_blk (B : Fin 3 → Fin 3 → M3 α) (p q : Fin 3) (C : M3 α) {m n : ℕ} (hm : m = 3 * p.val) (hn : n = 3 * q.val) :
    DMat.setBlock3 ⟨9, 9, blk B⟩ m n C = .ok ⟨9, 9, blk fun i j => if i = p ∧ j = q then C else B i j⟩ := by
  subst hm hn
  unfold DMat.setBlock3
  rw [if_pos ⟨by show 3 * p.val + 3 ≤ 9; omega, by show 3 * q.val + 3 ≤ 9; omega⟩]
  congr 2
  ext i j
  simp only [of_apply, blk]
  by_cases h : (3 * p.val ≤ i.val ∧ i.val < 3 * p.val + 3) ∧ (3 * q.val ≤ j.val ∧ j.val < 3 * q.val + 3)
  · have hi : (⟨i.val / 3, by omega⟩ : Fin 3) = p := by ext; simp; omega
    have hj : (⟨j.val / 3, by omega⟩ : Fin 3) = q := by ext; simp; omega
    rw [dif_pos h, if_pos ⟨hi, hj⟩]
    have e1 : i.val - 3 * p.val = i.val % 3 := by have : i.val / 3 = p.val := congrArg Fin.val hi; omega
    have e2 : j.val - 3 * q.val = j.val % 3 := by have : j.val / 3 = q.val := congrArg Fin.val hj; omega
    simp only [e1, e2]
  · rw [dif_neg h, if_neg]
    rintro ⟨hi, hj⟩
    apply h
    simp only [Fin.ext_iff] at hi hj
    omega

/-- blocks of `F` in `inertialErrorDynamics` -/
def inertialF (X GI : M3 α) : Fin 3 → Fin 3 → M3 α := ![![mzero, mzero, mzero], ![X, mzero, GI], ![mzero, mid, mzero]]
/-- blocks of `G` in all three functions -/
def forceG (R A B : M3 α) : Fin 3 → Fin 3 → M3 α := ![![mneg R, mzero, mzero], ![mzero, A, B], ![mzero, mzero, mzero]]
/-- blocks of `F` in `ecefErrorDynamics` -/
def ecefF (X GE O : M3 α) : Fin 3 → Fin 3 → M3 α :=
  ![![mneg O, mzero, mzero], ![X, msmul (-Flt.lit 2) O, mneg (msub (mmul O O) GE)], ![mzero, mid, mzero]]

theorem ok_congr {B C B' C' : Fin 3 → Fin 3 → M3 α} (h : ∀ i j, B i j = C i j) (h' : ∀ i j, B' i j = C' i j) :
    (.ok (true, ⟨9, 9, blk B⟩, ⟨9, 9, blk B'⟩) : Out (Bool × DMat α × DMat α)) = .ok (true, ⟨9, 9, blk C⟩, ⟨9, 9, blk C'⟩) := by
  rw [show B = C from funext fun i => funext fun j => h i j, show B' = C' from funext fun i => funext fun j => h' i j]

theorem inertial_eval (aI : V3 α) (GI RS2I : M3 α) (F0 G0 : Matrix (Fin 9) (Fin 9) α) :
    inertialErrorDynamics aI GI RS2I ⟨9, 9, F0⟩ ⟨9, 9, G0⟩ =
      .ok (true, ⟨9, 9, blk (inertialF (NavUtils.skewSymmetric aI).2 GI)⟩, ⟨9, 9, blk (forceG RS2I RS2I mid)⟩) := by
  simp only [inertialErrorDynamics, ne_eq, not_true_eq_false, or_self, if_false, zero_blk, NavUtils.skewSymmetric, Bool.not_true, Bool.false_eq_true]
  rw [set_blk (m := 3) (n := 0) _ 1 0 _ rfl rfl, Out.ok_bind, set_blk (m := 6) (n := 3) _ 2 1 _ rfl rfl, Out.ok_bind,
    set_blk (m := 3) (n := 6) _ 1 2 _ rfl rfl, Out.ok_bind, set_blk (m := 0) (n := 0) _ 0 0 _ rfl rfl, Out.ok_bind,
    set_blk (m := 3) (n := 3) _ 1 1 _ rfl rfl, Out.ok_bind, set_blk (m := 3) (n := 6) _ 1 2 _ rfl rfl, Out.ok_bind]
  exact ok_congr (fun i j => by fin_cases i <;> fin_cases j <;> rfl) (fun i j => by fin_cases i <;> fin_cases j <;> rfl)

theorem ecef_eval (aE : V3 α) (GE RS2E O : M3 α) (F0 G0 : Matrix (Fin 9) (Fin 9) α) :
    ecefErrorDynamics aE GE RS2E O ⟨9, 9, F0⟩ ⟨9, 9, G0⟩ =
      .ok (true, ⟨9, 9, blk (ecefF (NavUtils.skewSymmetric aE).2 GE O)⟩, ⟨9, 9, blk (forceG RS2E RS2E mid)⟩) := by
  simp only [ecefErrorDynamics, ne_eq, not_true_eq_false, or_self, if_false, zero_blk, NavUtils.skewSymmetric, Bool.not_true, Bool.false_eq_true]
  rw [set_blk (m := 0) (n := 0) _ 0 0 _ rfl rfl, Out.ok_bind,
    set_blk (m := 3) (n := 0) _ 1 0 _ rfl rfl, Out.ok_bind, set_blk (m := 3) (n := 3) _ 1 1 _ rfl rfl, Out.ok_bind,
    set_blk (m := 6) (n := 3) _ 2 1 _ rfl rfl, Out.ok_bind,
    set_blk (m := 3) (n := 6) _ 1 2 _ rfl rfl, Out.ok_bind, set_blk (m := 0) (n := 0) _ 0 0 _ rfl rfl, Out.ok_bind,
    set_blk (m := 3) (n := 3) _ 1 1 _ rfl rfl, Out.ok_bind, set_blk (m := 3) (n := 6) _ 1 2 _ rfl rfl, Out.ok_bind]
  exact ok_congr (fun i j => by fin_cases i <;> fin_cases j <;> rfl) (fun i j => by fin_cases i <;> fin_cases j <;> rfl)

theorem ned_eval (aN : V3 α) (GN RS2N : M3 α) (lla llaDot llaDDot : V3 α) (F0 G0 : Matrix (Fin 9) (Fin 9) α) :
    nedErrorDynamics aN GN RS2N lla llaDot llaDDot ⟨9, 9, F0⟩ ⟨9, 9, G0⟩ =
      .ok (true, ⟨9, 9, nedF aN GN lla llaDot llaDDot⟩, ⟨9, 9, blk (forceG RS2N (mmul (inv3 (nedD lla)) RS2N) (inv3 (nedD lla)))⟩) := by
  simp only [nedErrorDynamics, ne_eq, not_true_eq_false, or_self, if_false, zero_blk, DMat.fill, and_self, if_true, Out.ok_bind]
  rw [set_blk (m := 0) (n := 0) _ 0 0 _ rfl rfl, Out.ok_bind,
    set_blk (m := 3) (n := 3) _ 1 1 _ rfl rfl, Out.ok_bind, set_blk (m := 3) (n := 6) _ 1 2 _ rfl rfl, Out.ok_bind]
  refine congrArg (fun B => Except.ok (true, (⟨9, 9, nedF aN GN lla llaDot llaDDot⟩ : DMat α), (⟨9, 9, blk B⟩ : DMat α))) ?_
  funext i j
  fin_cases i <;> fin_cases j <;> rfl

end generic

theorem blk_X (B : Fin 3 → Fin 3 → M3 ℝ) : blk (fun i j => finM (B i j)) = finM (blk B) := rfl

/-- a block matrix acts on a vector block by block -/
theorem blk_mulVec (B : Fin 3 → Fin 3 → M3 ℝ) (x : Fin 9 → ℝ) (k : Fin 3) :
    part k (blk B *ᵥ x) = B k 0 *ᵥ part 0 x + B k 1 *ᵥ part 1 x + B k 2 *ᵥ part 2 x := by
  ext i
  fin_cases k <;> fin_cases i <;> simp [part, blk, mulVec, dotProduct, Fin.sum_univ_succ] <;> ring

theorem part_add (k : Fin 3) (x y : Fin 9 → ℝ) : part k (x + y) = part k x + part k y := rfl

end NavFuse.Pva
