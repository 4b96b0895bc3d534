import Verif.Lemmas.RoundPva
import Verif.Lemmas.RoundZero
import Verif.Eigen

/-! # Rounding errors of the inverse of a diagonal scale matrix -/

set_option linter.unusedSimpArgs false

namespace NavFuse
open Matrix NavUtils Pva
variable [Machine] {r : ℝ → ℝ}

/-- a diagonal matrix, with -1 at the end -/
def diagM {α : Type} [Neg α] [Flt α] (A B : α) : M3 α := !![A, Flt.lit 0, Flt.lit 0; Flt.lit 0, B, Flt.lit 0; Flt.lit 0, Flt.lit 0, -Flt.lit 1]

namespace Rz
omit [Machine] in
theorem congr {X : Dbl r} {y y' M M' : ℝ} {k : ℕ} (a : Rz X y k M) (h : y = y') (h' : M = M') : Rz X y' k M' := h ▸ h' ▸ a
end Rz

/-- Every entry of the inverse that Eigen computes for a diagonal matrix has a small relative error, and the entries off the diagonal are exactly zero. -/
theorem inv_diag_rz (h : Rounds53 r) {A B : Dbl r} {y w : ℝ} {k : ℕ} (hA : Rz A y k |y|) (hB : Rz B w k |w|) (hk : k ≤ 100)
    (yl : 1e-40 ≤ |y|) (yh : |y| ≤ 1e40) (wl : 1e-40 ≤ |w|) (wh : |w| ≤ 1e40) (i j : Fin 3) :
    Rz (inv3 (diagM A B) i j) (diagonal ![y⁻¹, w⁻¹, -1] i j) (6 * k + 14) |diagonal ![y⁻¹, w⁻¹, -1] i j| := by
  have yp : 0 < |y| := lt_of_lt_of_le (by norm_num) yl
  have wp : 0 < |w| := lt_of_lt_of_le (by norm_num) wl
  have y0 : y ≠ 0 := abs_pos.1 yp
  have w0 : w ≠ 0 := abs_pos.1 wp
  have yw1 : 1e-80 ≤ |y| * |w| := le_trans (by norm_num) (mul_le_mul yl wl (by norm_num) yp.le)
  have yw2 : |y| * |w| ≤ 1e80 := (mul_le_mul yh wh wp.le (by norm_num)).trans (by norm_num)
  have z : Rz (Flt.lit 0 : Dbl r) 0 0 0 := .zero h
  have o : Rz (-Flt.lit 1 : Dbl r) (-1) 0 1 := (Rz.one h).neg
  have zz : Rz (Flt.lit 0 * Flt.lit 0 : Dbl r) 0 1 0 := (z.mul h z (by simp) (by norm_num) (by norm_num)).congr (by ring) (by ring)
  -- cofactors
  have c00 : Rz (B * -Flt.lit 1 - Flt.lit 0 * Flt.lit 0) (-w) (k + 2) |w| :=
    ((hB.mul h o (fun _ _ => by linarith) (by linarith) (by omega)).sub h (zz.mono (by omega)) (by linarith) (by omega)).congr (by ring) (by ring)
  have c11 : Rz (-Flt.lit 1 * A - Flt.lit 0 * Flt.lit 0) (-y) (k + 2) |y| :=
    (((o.mul h hA (fun _ _ => by linarith) (by linarith) (by omega)).mono (k' := k + 1) (by omega)).sub h (zz.mono (by omega)) (by linarith)
      (by omega)).congr (by ring) (by ring)
  have c22 : Rz (A * B - Flt.lit 0 * Flt.lit 0) (y * w) (2 * k + 2) (|y| * |w|) :=
    ((((hA.mul h hB (fun _ _ => by linarith) (by linarith) (by omega)).mono (k' := 2 * k + 1) (by omega))).sub h (zz.mono (by omega)) (by linarith)
      (by omega)).congr (by ring) (by ring)
  have zr : ∀ {U : Dbl r} {u m : ℝ}, Rz U u k m → Rz (Flt.lit 0 * Flt.lit 0 - U * Flt.lit 0) 0 (k + 2) 0 := fun a =>
    ((zz.mono (k' := k + 1) (by omega)).sub h (a.mul h z (by simp) (by norm_num) (by omega)) (by norm_num) (by omega)).congr (by ring) (by ring)
  have zl : ∀ {U : Dbl r} {u m : ℝ}, Rz U u k m → Rz (Flt.lit 0 * Flt.lit 0 - Flt.lit 0 * U) 0 (k + 2) 0 := fun a =>
    ((zz.mono (k' := k + 1) (by omega)).sub h ((z.mul h a (by simp) (by norm_num) (by omega)).mono (by omega)) (by norm_num) (by omega)).congr
      (by ring) (by ring)
  have o' : Rz (-Flt.lit 1 : Dbl r) (-1) k 1 := o.mono (by omega)
  have det : Rz (fsum fun i => cofactor3 (diagM A B) i 0 * diagM A B i 0) (-(w * y)) (2 * k + 3 + 2) |-(w * y)| := by
    refine (Rz.fsum3 h (F := fun i => cofactor3 (diagM A B) i 0 * diagM A B i 0) (y := ![-(w * y), 0, 0]) (M := ![|w| * |y|, 0, 0]) (k := 2 * k + 3)
      (fun i => ?_) ?_ (by omega)).congr ?_ ?_
    · fin_cases i
      · exact ((c00.mul h hA (fun _ _ => by linarith) (by linarith) (by omega)).mono (by omega)).congr (by simp) rfl
      · exact (((zr o').mul h z (by simp) (by norm_num) (by omega)).mono (by omega)).congr (by simp) (by simp)
      · exact (((zl hB).mul h z (by simp) (by norm_num) (by omega)).mono (by omega)).congr (by simp) (by simp)
    · simp only [cons_val_zero, cons_val_one, cons_val]; linarith
    · simp
    · simp [abs_mul]
  have inv := det.inv h (by rw [abs_neg, abs_mul]; linarith) (by rw [abs_neg, abs_mul]; linarith) (by omega)
  have ia : 1 / |-(w * y)| = |y|⁻¹ * |w|⁻¹ := by rw [abs_neg, abs_mul, one_div, mul_inv, mul_comm]
  have iy : 1e-40 ≤ |y|⁻¹ := by rw [← inv_inv (1e-40 : ℝ)]; exact inv_anti₀ yp (yh.trans (by norm_num))
  have iw : 1e-40 ≤ |w|⁻¹ := by rw [← inv_inv (1e-40 : ℝ)]; exact inv_anti₀ wp (wh.trans (by norm_num))
  have iy' : |y|⁻¹ ≤ 1e40 := by rw [← inv_inv (1e40 : ℝ)]; exact inv_anti₀ (by norm_num) (le_trans (by norm_num) yl)
  have iw' : |w|⁻¹ ≤ 1e40 := by rw [← inv_inv (1e40 : ℝ)]; exact inv_anti₀ (by norm_num) (le_trans (by norm_num) wl)
  have e1 : |w| * (1 / |-(w * y)|) = |y|⁻¹ := by rw [ia]; field_simp
  have e2 : |y| * (1 / |-(w * y)|) = |w|⁻¹ := by rw [ia]; field_simp
  have e3 : |y| * |w| * (1 / |-(w * y)|) = 1 := by rw [ia]; field_simp
  have off : ∀ {U : Dbl r}, Rz U 0 (k + 2) 0 →
      Rz (U * (Flt.lit 1 / fsum fun i => cofactor3 (diagM A B) i 0 * diagM A B i 0)) 0 (6 * k + 14) |(0 : ℝ)| := fun a =>
    ((a.mul h inv (by simp) (by norm_num) (by omega)).mono (by omega)).congr (by simp) (by simp)
  fin_cases i <;> fin_cases j
  · exact ((c00.mul h inv (fun _ _ => by rw [e1]; linarith) (by rw [e1]; linarith) (by omega)).mono (k' := 6 * k + 14) (by omega)).congr
      (by simp; field_simp) (by rw [e1]; simp)
  · exact off (zr o')
  · exact off (zl hB)
  · exact off (zl o')
  · exact ((c11.mul h inv (fun _ _ => by rw [e2]; linarith) (by rw [e2]; linarith) (by omega)).mono (k' := 6 * k + 14) (by omega)).congr
      (by simp; field_simp) (by rw [e2]; simp)
  · exact off (zr hA)
  · exact off (zr hB)
  · exact off (zl hA)
  · exact ((c22.mul h inv (fun _ _ => by rw [e3]; norm_num) (by rw [e3]; norm_num) (by omega)).mono (k' := 6 * k + 14) (by omega)).congr
      (by simp; field_simp) (by rw [e3]; simp)

end NavFuse
