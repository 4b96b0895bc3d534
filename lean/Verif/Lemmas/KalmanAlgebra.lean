import Verif.RealInst
import Mathlib.Analysis.Matrix.Order

/-! Matrix algebra behind the Kalman filter theorems, over arbitrary finite index types. -/

set_option linter.unusedSectionVars false

namespace NavFuse
open Matrix

/-- normalise a (rectangular) matrix identity by distributing, reassociating and collecting terms -/
macro "mat_ring" : tactic => `(tactic|
  (simp only [Matrix.mul_add, Matrix.add_mul, Matrix.mul_sub, Matrix.sub_mul, Matrix.mul_one, Matrix.one_mul, Matrix.mul_neg, Matrix.neg_mul,
    Matrix.transpose_add, Matrix.transpose_sub, Matrix.transpose_mul, Matrix.transpose_one, Matrix.transpose_neg, Matrix.transpose_transpose,
    Matrix.mul_assoc] <;> abel))

namespace KA
variable {n m : Type} [Fintype n] [Fintype m] [DecidableEq n] [DecidableEq m]

theorem psd_tr {P : Matrix n n ℝ} (hP : P.PosSemidef) : Pᵀ = P := by
  have := hP.isHermitian; rwa [IsHermitian, conjTranspose_eq_transpose_of_trivial] at this

theorem psd_conj {P : Matrix n n ℝ} (hP : P.PosSemidef) (A : Matrix m n ℝ) : (A * P * Aᵀ).PosSemidef := by
  have := hP.mul_mul_conjTranspose_same A; rwa [conjTranspose_eq_transpose_of_trivial] at this

theorem psd_conj' {P : Matrix n n ℝ} (hP : P.PosSemidef) (A : Matrix n m ℝ) : (Aᵀ * P * A).PosSemidef := by
  have := hP.conjTranspose_mul_mul_same A; rwa [conjTranspose_eq_transpose_of_trivial] at this

theorem pd_det {S : Matrix m m ℝ} (hS : S.PosDef) : IsUnit S.det := (isUnit_iff_isUnit_det S).1 hS.isUnit

/-- innovation covariance -/
def innov (P : Matrix n n ℝ) (H : Matrix m n ℝ) (R : Matrix m m ℝ) : Matrix m m ℝ := H * P * Hᵀ + R

theorem innov_pd {P : Matrix n n ℝ} (hP : P.PosSemidef) (H : Matrix m n ℝ) {R : Matrix m m ℝ} (hR : R.PosDef) :
    (innov P H R).PosDef := PosDef.posSemidef_add (psd_conj hP H) hR

/-- gain -/
noncomputable def gain (P : Matrix n n ℝ) (H : Matrix m n ℝ) (R : Matrix m m ℝ) : Matrix n m ℝ := P * Hᵀ * (innov P H R)⁻¹

/-- Joseph form for an arbitrary gain: the error covariance of the linear update with gain `G` -/
def joseph (P : Matrix n n ℝ) (H : Matrix m n ℝ) (R : Matrix m m ℝ) (G : Matrix n m ℝ) : Matrix n n ℝ :=
  (1 - G * H) * P * (1 - G * H)ᵀ + G * R * Gᵀ

theorem gain_mul_innov {P : Matrix n n ℝ} {H : Matrix m n ℝ} {R : Matrix m m ℝ} (h : IsUnit (innov P H R).det) :
    gain P H R * innov P H R = P * Hᵀ := by
  rw [gain, Matrix.mul_assoc, nonsing_inv_mul _ h, Matrix.mul_one]

/-- expansion of the Joseph form -/
theorem joseph_expand {P : Matrix n n ℝ} (hP : Pᵀ = P) (H : Matrix m n ℝ) (R : Matrix m m ℝ) (G : Matrix n m ℝ) :
    joseph P H R G = P - G * (H * P) - P * Hᵀ * Gᵀ + G * innov P H R * Gᵀ := by
  have _ := hP
  simp only [joseph, innov, transpose_sub, transpose_one, transpose_mul]
  mat_ring

theorem hp_eq {P : Matrix n n ℝ} (hP : Pᵀ = P) {H : Matrix m n ℝ} {R : Matrix m m ℝ} (hS : (innov P H R)ᵀ = innov P H R)
    (h : IsUnit (innov P H R).det) : H * P = innov P H R * (gain P H R)ᵀ := by
  have := congrArg transpose (gain_mul_innov h)
  simp only [transpose_mul, transpose_transpose, hP, hS] at this
  exact this.symm

/-- Any gain: its error covariance is the optimal one plus a square. -/
theorem joseph_gap {P : Matrix n n ℝ} (hP : Pᵀ = P) {H : Matrix m n ℝ} {R : Matrix m m ℝ} (hS : (innov P H R)ᵀ = innov P H R)
    (h : IsUnit (innov P H R).det) (G : Matrix n m ℝ) :
    joseph P H R G = P - gain P H R * innov P H R * (gain P H R)ᵀ
      + (G - gain P H R) * innov P H R * (G - gain P H R)ᵀ := by
  rw [joseph_expand hP, hp_eq hP hS h, ← gain_mul_innov h]
  simp only [transpose_sub]
  mat_ring

theorem joseph_opt {P : Matrix n n ℝ} (hP : Pᵀ = P) {H : Matrix m n ℝ} {R : Matrix m m ℝ} (hS : (innov P H R)ᵀ = innov P H R)
    (h : IsUnit (innov P H R).det) :
    joseph P H R (gain P H R) = P - gain P H R * innov P H R * (gain P H R)ᵀ := by
  rw [joseph_gap hP hS h]; simp

theorem joseph_short {P : Matrix n n ℝ} (hP : Pᵀ = P) {H : Matrix m n ℝ} {R : Matrix m m ℝ} (hS : (innov P H R)ᵀ = innov P H R)
    (h : IsUnit (innov P H R).det) :
    joseph P H R (gain P H R) = (1 - gain P H R * H) * P := by
  rw [joseph_opt hP hS h, Matrix.mul_assoc, ← hp_eq hP hS h]
  mat_ring

theorem joseph_psd {P : Matrix n n ℝ} (hP : P.PosSemidef) (H : Matrix m n ℝ) {R : Matrix m m ℝ} (hR : R.PosSemidef)
    (G : Matrix n m ℝ) : (joseph P H R G).PosSemidef := (psd_conj hP _).add (psd_conj hR _)

/-- information gained from a measurement -/
noncomputable def info (H : Matrix m n ℝ) (R : Matrix m m ℝ) : Matrix n n ℝ := Hᵀ * R⁻¹ * H

theorem info_psd (H : Matrix m n ℝ) {R : Matrix m m ℝ} (hR : R.PosDef) : (info H R).PosSemidef := psd_conj' hR.inv.posSemidef H

/-- `1 + P Λ` is invertible for positive semidefinite `P` and `Λ`. -/
theorem one_add_mul_unit {P L : Matrix n n ℝ} (hP : P.PosSemidef) (hL : L.PosSemidef) : IsUnit (1 + P * L).det := by
  rw [← isUnit_iff_isUnit_det, ← mulVec_injective_iff_isUnit]
  intro u w huw
  have h0 : (1 + P * L) *ᵥ (u - w) = 0 := by
    rw [mulVec_sub]; exact sub_eq_zero.2 huw
  set x := u - w with hx
  have h1 : x = -(P *ᵥ (L *ᵥ x)) := by
    rw [add_mulVec, one_mulVec, ← mulVec_mulVec] at h0
    exact eq_neg_of_add_eq_zero_left h0
  have hq : 0 ≤ (L *ᵥ x) ⬝ᵥ (P *ᵥ (L *ᵥ x)) := by
    have := hP.dotProduct_mulVec_nonneg (L *ᵥ x); simpa using this
  have hl : 0 ≤ x ⬝ᵥ (L *ᵥ x) := by
    have := hL.dotProduct_mulVec_nonneg x; simpa using this
  have hsum : x ⬝ᵥ (L *ᵥ x) = -((L *ᵥ x) ⬝ᵥ (P *ᵥ (L *ᵥ x))) := by
    conv_lhs => rw [h1]
    rw [neg_dotProduct, dotProduct_comm, ← h1]
  have hz : x ⬝ᵥ (L *ᵥ x) = 0 := by linarith
  have hLx : L *ᵥ x = 0 := by
    have := (hL.dotProduct_mulVec_zero_iff x).1 (by simpa using hz); exact this
  rw [hLx, mulVec_zero, neg_zero] at h1
  exact sub_eq_zero.1 (hx ▸ h1)

/-- push-through identity for the gain -/
theorem one_add_mul_gain {P : Matrix n n ℝ} (hP : P.PosSemidef) (H : Matrix m n ℝ) {R : Matrix m m ℝ} (hR : R.PosDef) :
    (1 + P * info H R) * gain P H R = P * Hᵀ * R⁻¹ := by
  have hS := pd_det (innov_pd hP H hR)
  have hRd := pd_det hR
  have key : (1 + P * info H R) * (P * Hᵀ) = P * Hᵀ * R⁻¹ * innov P H R := by
    simp only [info, innov, Matrix.mul_add, Matrix.add_mul, Matrix.one_mul]
    rw [Matrix.mul_assoc (P * Hᵀ) R⁻¹ R, nonsing_inv_mul _ hRd, Matrix.mul_one]
    rw [add_comm]; simp only [Matrix.mul_assoc]
  rw [gain, ← Matrix.mul_assoc, key, Matrix.mul_assoc, mul_nonsing_inv _ hS, Matrix.mul_one]

theorem one_add_mul_one_sub {P : Matrix n n ℝ} (hP : P.PosSemidef) (H : Matrix m n ℝ) {R : Matrix m m ℝ} (hR : R.PosDef) :
    (1 + P * info H R) * (1 - gain P H R * H) = 1 := by
  rw [Matrix.mul_sub, ← Matrix.mul_assoc, one_add_mul_gain hP H hR, Matrix.mul_one, info]
  simp only [Matrix.mul_assoc]; abel

/-- covariance update in push-through form -/
theorem post_cov {P : Matrix n n ℝ} (hP : P.PosSemidef) (H : Matrix m n ℝ) {R : Matrix m m ℝ} (hR : R.PosDef) :
    (1 + P * info H R) * joseph P H R (gain P H R) = P := by
  have hS := innov_pd hP H hR
  rw [joseph_short (psd_tr hP) (psd_tr hS.posSemidef) (pd_det hS), ← Matrix.mul_assoc, one_add_mul_one_sub hP H hR, Matrix.one_mul]

/-- state update in push-through form -/
theorem post_mean {P : Matrix n n ℝ} (hP : P.PosSemidef) (H : Matrix m n ℝ) {R : Matrix m m ℝ} (hR : R.PosDef) (x : n → ℝ) (z : m → ℝ) :
    (1 + P * info H R) *ᵥ (x + gain P H R *ᵥ (z - H *ᵥ x)) = x + P *ᵥ (Hᵀ *ᵥ (R⁻¹ *ᵥ z)) := by
  have e : x + gain P H R *ᵥ (z - H *ᵥ x) = (1 - gain P H R * H) *ᵥ x + gain P H R *ᵥ z := by
    rw [sub_mulVec, one_mulVec, mulVec_sub, mulVec_mulVec]; abel
  rw [e, mulVec_add, mulVec_mulVec, one_add_mul_one_sub hP H hR, one_mulVec, mulVec_mulVec, one_add_mul_gain hP H hR]
  simp only [mulVec_mulVec, Matrix.mul_assoc]

end KA
end NavFuse
