import Verif.Model.J2000
import Verif.Spec.Iau
import Verif.Lemmas.Rot
import Verif.RealInst

/-! Lemmas about the J2000 rotations at ℝ. -/

set_option linter.unusedSimpArgs false

namespace NavFuse
open Spec Rotations Matrix

theorem frameX_R (t : ℝ) : frameX t = R1 t := by
  simp only [frameX, R1, rotX, rsimp]
  ext i j; fin_cases i <;> fin_cases j <;> simp
theorem frameY_R (t : ℝ) : frameY t = R2 t := by
  simp only [frameY, R2, rotY, rsimp]
  ext i j; fin_cases i <;> fin_cases j <;> simp
theorem frameZ_R (t : ℝ) : frameZ t = R3 t := by
  simp only [frameZ, R3, rotZ, rsimp]
  ext i j; fin_cases i <;> fin_cases j <;> simp

theorem rotX_isRot (t : ℝ) : IsRot (rotX t) := by
  have := Real.sin_sq_add_cos_sq t
  constructor
  · ext i j; fin_cases i <;> fin_cases j <;> simp [rotX, mul_apply, Fin.sum_univ_three] <;> first | linear_combination this | ring
  · simp [rotX, det_fin_three]; linear_combination this
theorem rotY_isRot (t : ℝ) : IsRot (rotY t) := by
  have := Real.sin_sq_add_cos_sq t
  constructor
  · ext i j; fin_cases i <;> fin_cases j <;> simp [rotY, mul_apply, Fin.sum_univ_three] <;> first | linear_combination this | ring
  · simp [rotY, det_fin_three]; linear_combination this
theorem rotZ_isRot (t : ℝ) : IsRot (rotZ t) := by
  have := Real.sin_sq_add_cos_sq t
  constructor
  · ext i j; fin_cases i <;> fin_cases j <;> simp [rotZ, mul_apply, Fin.sum_univ_three] <;> first | linear_combination this | ring
  · simp [rotZ, det_fin_three]; linear_combination this

theorem R1_isRot (t : ℝ) : IsRot (R1 t) := (rotX_isRot t).transpose
theorem R2_isRot (t : ℝ) : IsRot (R2 t) := (rotY_isRot t).transpose
theorem R3_isRot (t : ℝ) : IsRot (R3 t) := (rotZ_isRot t).transpose

theorem iauMatrix_isRot (T dpsi deps gast xp yp : ℝ) : IsRot (iauMatrix T dpsi deps gast xp yp) := by
  unfold iauMatrix
  exact ((((R2_isRot _).mul (R1_isRot _)).mul (R3_isRot _)).mul (((R1_isRot _).mul (R3_isRot _)).mul (R1_isRot _))).mul
    (((R3_isRot _).mul (R2_isRot _)).mul (R3_isRot _))

theorem arcs_R : (arcs : ℝ) = 648000 / Real.pi := by simp only [arcs, rsimp]; norm_num
theorem J_R : (mjdJ2000 : ℝ) = 51544.5 := by simp only [mjdJ2000, rsimp]

theorem precession_R (m : ℝ) : computePrecession mjdJ2000 m
    = R3 (-iauZ (centuries m)) * R2 (iauTheta (centuries m)) * R3 (-iauZeta (centuries m)) := by
  have h0 : ((mjdJ2000 : ℝ) - mjdJ2000) / Flt.lit 36525 = 0 := by simp
  have h1 : (m - (mjdJ2000 : ℝ)) / Flt.lit 36525 = centuries m := by rw [J_R, centuries]; simp only [rsimp]
  have hz : iauZeta (centuries m) = (((Flt.lit 2306.2181 + (Flt.lit 1.39656 - Flt.lit 0.000139 * (0 : ℝ)) * 0) +
      ((Flt.lit 0.30188 - Flt.lit 0.000344 * (0 : ℝ)) + Flt.lit 0.017998 * centuries m) * centuries m) * centuries m) / (arcs : ℝ) := by
    rw [arcs_R, div_div_eq_mul_div, iauZeta, arcsec]; simp only [rsimp]; ring
  have ht : iauTheta (centuries m) = (((Flt.lit 2004.3109 - (Flt.lit 0.85330 + Flt.lit 0.000217 * (0 : ℝ)) * 0) -
      ((Flt.lit 0.42665 + Flt.lit 0.000217 * (0 : ℝ)) + Flt.lit 0.041833 * centuries m) * centuries m) * centuries m) / (arcs : ℝ) := by
    rw [arcs_R, div_div_eq_mul_div, iauTheta, arcsec]; simp only [rsimp]; ring
  have hzz : iauZ (centuries m) = iauZeta (centuries m) + ((((Flt.lit 0.79280 + Flt.lit 0.000411 * (0 : ℝ)) + Flt.lit 0.000205 * centuries m) *
      centuries m) * centuries m) / (arcs : ℝ) := by
    rw [arcs_R, div_div_eq_mul_div, iauZ, iauZeta, arcsec]; simp only [rsimp]; ring
  simp only [computePrecession, h0, h1, frameZ_R, frameY_R, R_mmul, ← hz, ← ht, ← hzz]

theorem obliquity_R (m : ℝ) : meanObliquity m = iauObliquity (centuries m) := by
  have h1 : (m - (mjdJ2000 : ℝ)) / Flt.lit 36525 = centuries m := by rw [J_R, centuries]; simp only [rsimp]
  simp only [meanObliquity, h1]
  simp only [iauObliquity, radC, arcsec, rsimp]; ring

theorem nutation_R (m : ℝ) : computeNutation m
    = R1 (-(iauObliquity (centuries m) + (nutationAngles m).2)) * R3 (-(nutationAngles m).1) * R1 (iauObliquity (centuries m)) := by
  simp only [computeNutation, frameX_R, frameZ_R, R_mmul, obliquity_R]
  rw [show -(iauObliquity (centuries m) + (nutationAngles m).2) = -iauObliquity (centuries m) - (nutationAngles m).2 by ring]

/-- Terrestrial Time and UT1 as Modified Julian Dates -/
noncomputable def ttOf (mjdUtc : ℝ) (e : EopVal ℝ) : ℝ := mjdUtc + (32.184 + e.taiUtc) / 86400
noncomputable def ut1Of (mjdUtc : ℝ) (e : EopVal ℝ) : ℝ := mjdUtc + e.ut1Utc / 86400

theorem j2k_R (u : ℝ) (e : EopVal ℝ) : j2kProduct u e
    = iauMatrix (centuries (ttOf u e)) (nutationAngles (ttOf u e)).1 (nutationAngles (ttOf u e)).2 (gsTime (ut1Of u e) (ttOf u e))
        e.xPole e.yPole := by
  have h1 : u + ((Flt.lit 32.184 : ℝ) - (-e.taiUtc)) / Flt.lit 86400 = ttOf u e := by
    simp only [ttOf, rsimp, sub_neg_eq_add]
  have h2 : u + e.ut1Utc / (Flt.lit 86400 : ℝ) = ut1Of u e := by simp only [ut1Of, rsimp]
  simp only [j2kProduct, h1, h2, R_mmul, polarRotation, frameX_R, frameY_R, computeGreenwichHourAngle, frameZ_R, nutation_R, precession_R,
    iauMatrix]

/-! The nutation series. -/

/-- sums of the absolute coefficients of the table -/
def nutSum (f : NutRow → Int) : Int := (nutTable.map fun c => (f c).natAbs).sum

theorem nut_fold (T : ℝ) (arg : NutRow → ℝ) (L : List NutRow) (s : ℝ × ℝ) :
    L.foldl (fun (s : ℝ × ℝ) c =>
      (s.1 + (((c.c5 : ℝ) + ((c.c6 : ℝ) * T)) * Real.sin (arg c)), s.2 + (((c.c7 : ℝ) + ((c.c8 : ℝ) * T)) * Real.cos (arg c)))) s
    = (s.1 + (L.map fun c => ((c.c5 : ℝ) + c.c6 * T) * Real.sin (arg c)).sum, s.2 + (L.map fun c => ((c.c7 : ℝ) + c.c8 * T) * Real.cos (arg c)).sum) := by
  induction L generalizing s with
  | nil => simp
  | cons c L ih => simp only [List.foldl_cons, ih, List.map_cons, List.sum_cons, add_assoc]

theorem series_bound (T : ℝ) (f g : NutRow → Int) (w : NutRow → ℝ) (hw : ∀ c, |w c| ≤ 1) (L : List NutRow) :
    |(L.map fun c => ((f c : ℝ) + g c * T) * w c).sum| ≤ ((L.map fun c => ((f c).natAbs : Int)).sum : Int)
      + ((L.map fun c => ((g c).natAbs : Int)).sum : Int) * |T| := by
  induction L with
  | nil => simp
  | cons c L ih =>
    simp only [List.map_cons, List.sum_cons]
    push_cast at ih ⊢
    have h1 : |((f c : ℝ) + g c * T) * w c| ≤ |(f c : ℝ)| + |(g c : ℝ)| * |T| := by
      rw [abs_mul]
      calc |(f c : ℝ) + g c * T| * |w c| ≤ |(f c : ℝ) + g c * T| * 1 := mul_le_mul_of_nonneg_left (hw c) (abs_nonneg _)
        _ = |(f c : ℝ) + g c * T| := mul_one _
        _ ≤ |(f c : ℝ)| + |(g c : ℝ) * T| := abs_add_le _ _
        _ = _ := by rw [abs_mul]
    have := abs_add_le (((f c : ℝ) + g c * T) * w c) (L.map fun c => ((f c : ℝ) + g c * T) * w c).sum
    nlinarith

theorem fmod_pos_R (x y : ℝ) (hy : 0 < y) : ∃ k : ℤ, fmodR x y = x - k * y ∧ |fmodR x y| < y ∧ (0 ≤ x → 0 ≤ fmodR x y) ∧ (x ≤ 0 → fmodR x y ≤ 0) := by
  refine ⟨truncR (x / y), by rw [fmodR]; ring, ?_, ?_, ?_⟩
  all_goals
    have e : x = x / y * y := by field_simp
    rw [fmodR, truncR]
  · split_ifs with h
    · have a := Int.floor_le (x / y); have b := Int.lt_floor_add_one (x / y)
      rw [abs_lt]; constructor <;> nlinarith
    · have a := Int.le_ceil (x / y); have b := Int.ceil_lt_add_one (x / y)
      rw [abs_lt]; constructor <;> nlinarith
  · intro hx
    rw [if_pos (div_nonneg hx hy.le)]
    have a := Int.floor_le (x / y)
    nlinarith
  · intro hx
    split_ifs with h
    · have hz : x / y = 0 := le_antisymm (div_nonpos_of_nonpos_of_nonneg hx hy.le) h
      rw [hz]; simp [hx]
    · have a := Int.le_ceil (x / y)
      nlinarith

end NavFuse
