import Verif.Lemmas.J2000
import Verif.Props.AttitudeRnd

/-! # Rounding errors of products of frame rotations -/

set_option linter.unusedSimpArgs false

namespace NavFuse.Props
open Matrix Spec Rotations
variable [Machine] {r : ℝ → ℝ}

/-- product of two matrices that are close to rotations -/
theorem RowsNear.mmul (h : Rounds53 r) {A B : M3 (Rnd r)} {E F : Matrix (Fin 3) (Fin 3) ℝ} {d e : ℝ} (hA : RowsNear A E d) (hB : RowsNear B F e)
    (hE : IsRot E) (hF : IsRot F) (hd : d ≤ 1 / 1000) (he : e ≤ 1 / 1000) : RowsNear (mmul A B) (E * F) (d + 174 / 100 * e + 18 * ulp) := by
  have hu := ulp_pos
  have hd0 : 0 ≤ d := (len3_nonneg' _).trans (hA 0)
  have he0 : 0 ≤ e := (len3_nonneg' _).trans (hB 0)
  intro i
  have hl : len3 (valM A i) ≤ 1001 / 1000 := by
    have := len3_add (valM A i - E i) (E i)
    rw [sub_add_cancel, hE.row_len3] at this
    linarith [hA i]
  have hA1 : ∀ l, |(A i l).val| ≤ 1001 / 1000 := fun l => (le_len3 (valM A i) l).trans hl
  have hB1 : ∀ l j, |(B l j).val| ≤ 1001 / 1000 := fun l j => by
    have := len3_add (valM B l - F l) (F l)
    rw [sub_add_cancel, hF.row_len3] at this
    refine (le_len3 (valM B l) j).trans ?_
    linarith [hB l]
  have hs : |(A i 0).val| + |(A i 1).val| + |(A i 2).val| ≤ 1737 / 1000 := by
    have e := len3_sq (valM A i)
    have e0 : valM A i 0 = (A i 0).val := rfl
    have e1 : valM A i 1 = (A i 1).val := rfl
    have e2 : valM A i 2 = (A i 2).val := rfl
    rw [e0, e1, e2, ← sq_abs (A i 0).val, ← sq_abs (A i 1).val, ← sq_abs (A i 2).val] at e
    have n := len3_nonneg' (valM A i)
    have q : len3 (valM A i) ^ 2 ≤ (1001 / 1000) ^ 2 := by gcongr
    generalize |(A i 0).val| = x at *
    generalize |(A i 1).val| = y at *
    generalize |(A i 2).val| = z at *
    refine abs_le_of_sq_le_sq' ?_ (by norm_num) |>.2
    nlinarith [sq_nonneg (x - y), sq_nonneg (y - z), sq_nonneg (z - x)]
  have hf : ∀ j, |(NavFuse.mmul A B i j).val - (valM A i ᵥ* valM B) j| ≤ 1003 / 100 * ulp := by
    intro j
    have dd := Rnd.dot3 h (fun l => A i l) (fun l => B l j) (1003 / 1000) (fun l => by
      rw [abs_mul]
      have := mul_le_mul (hA1 l) (hB1 l j) (abs_nonneg _) (by norm_num)
      linarith)
    have e2 : (NavFuse.mmul A B i j).val = (fsum fun l => A i l * B l j).val := rfl
    rw [e2]
    have e : (valM A i ᵥ* valM B) j = ∑ l, (A i l).val * (B l j).val := rfl
    rw [e]
    linarith
  have hv : valM A i ᵥ* (valM B - F) = (A i 0).val • (valM B 0 - F 0) + ((A i 1).val • (valM B 1 - F 1) + (A i 2).val • (valM B 2 - F 2)) := by
    ext j
    simp only [vecMul, dotProduct, Fin.sum_univ_three, Pi.add_apply, Pi.smul_apply, smul_eq_mul]
    rw [add_assoc]; rfl
  have hvl : len3 (valM A i ᵥ* (valM B - F)) ≤ 1737 / 1000 * e := by
    rw [hv]
    have sm : ∀ (k : ℝ) (v : Fin 3 → ℝ), len3 (k • v) = |k| * len3 v := fun k v => by
      rw [len3_norm, len3_norm, WithLp.toLp_smul, norm_smul, Real.norm_eq_abs]
    refine (len3_add _ _).trans ?_
    have := len3_add ((A i 1).val • (valM B 1 - F 1)) ((A i 2).val • (valM B 2 - F 2))
    rw [sm, sm] at this
    rw [sm]
    have g : ∀ l, |(A i l).val| * len3 (valM B l - F l) ≤ |(A i l).val| * e := fun l => mul_le_mul_of_nonneg_left (hB l) (abs_nonneg _)
    have := mul_le_mul_of_nonneg_right hs he0
    linarith [g 0, g 1, g 2]
  have split : valM (NavFuse.mmul A B) i - (E * F) i = (valM (NavFuse.mmul A B) i - valM A i ᵥ* valM B) + (valM A i ᵥ* (valM B - F) + (valM A i - E i) ᵥ* F) := by
    rw [sub_vecMul, vecMul_sub]
    have : (E * F) i = E i ᵥ* F := rfl
    rw [this]; abel
  rw [split]
  refine (len3_add _ _).trans ?_
  have t2 := len3_add (valM A i ᵥ* (valM B - F)) ((valM A i - E i) ᵥ* F)
  rw [hF.len3_vecMul] at t2
  have := len3_of_entries (v := valM (NavFuse.mmul A B) i - valM A i ᵥ* valM B) (show 0 ≤ 1003 / 100 * ulp by positivity) hf
  linarith [hA i]

omit [Machine] in
theorem RowsNear.mono {A : M3 (Rnd r)} {E : Matrix (Fin 3) (Fin 3) ℝ} {d e : ℝ} (h : RowsNear A E d) (hde : d ≤ e) : RowsNear A E e :=
  fun i => (h i).trans hde

omit [Machine] in
theorem sqrt_add_le (p q u v : ℝ) : Real.sqrt ((p + u) ^ 2 + (q + v) ^ 2) ≤ Real.sqrt (p ^ 2 + q ^ 2) + Real.sqrt (u ^ 2 + v ^ 2) := by
  have := len3_add ![p, q, 0] ![u, v, 0]
  simpa [len3] using this

/-- a pair that approximates (cos, sin) of an angle -/
theorem pair_near (_h : Rounds53 r) (x : Rnd r) (t d : ℝ) (hx : |x.val - t| ≤ d) :
    Real.sqrt (((Flt.cos x).val - Real.cos t) ^ 2 + ((Flt.sin x).val - Real.sin t) ^ 2) ≤ d + ulp := by
  have hu := ulp_pos
  have hd : 0 ≤ d := (abs_nonneg _).trans hx
  have hs : |(Flt.sin x).val - Real.sin x.val| ≤ ulp / 2 := by
    have := (Machine.faithful .sin x.val 0).err 0 (Real.sin x.val) (by simpa using Real.abs_sin_le_one x.val)
    refine this.trans ?_
    rw [ulp, zero_sub, _root_.zpow_neg]; norm_num
  have hc : |(Flt.cos x).val - Real.cos x.val| ≤ ulp / 2 := by
    have := (Machine.faithful .cos x.val 0).err 0 (Real.cos x.val) (by simpa using Real.abs_cos_le_one x.val)
    refine this.trans ?_
    rw [ulp, zero_sub, _root_.zpow_neg]; norm_num
  have s1 : ((Flt.sin x).val - Real.sin x.val) ^ 2 ≤ (ulp / 2) ^ 2 := by
    rw [← sq_abs]; gcongr
  have c1 : ((Flt.cos x).val - Real.cos x.val) ^ 2 ≤ (ulp / 2) ^ 2 := by
    rw [← sq_abs]; gcongr
  have a1 : ((Flt.cos x).val - Real.cos x.val) ^ 2 + ((Flt.sin x).val - Real.sin x.val) ^ 2 ≤ ulp ^ 2 := by nlinarith
  have a2 : (Real.cos x.val - Real.cos t) ^ 2 + (Real.sin x.val - Real.sin t) ^ 2 ≤ d ^ 2 := by
    have sc := Real.sin_sq_add_cos_sq x.val
    have e1 := Real.sin_sq_add_cos_sq t
    have e2 := Real.cos_sub x.val t
    have e3 := Real.one_sub_sq_div_two_le_cos (x := x.val - t)
    have e4 : (x.val - t) ^ 2 ≤ d ^ 2 := by rw [← sq_abs]; gcongr
    nlinarith
  have b1 := Real.sqrt_le_sqrt a1
  have b2 := Real.sqrt_le_sqrt a2
  rw [Real.sqrt_sq hu.le] at b1
  rw [Real.sqrt_sq hd] at b2
  have := sqrt_add_le ((Flt.cos x).val - Real.cos x.val) ((Flt.sin x).val - Real.sin x.val) (Real.cos x.val - Real.cos t) (Real.sin x.val - Real.sin t)
  rw [sub_add_sub_cancel, sub_add_sub_cancel] at this
  linarith

omit [Machine] in
theorem len3_xy {a b e : ℝ} (h : Real.sqrt (a ^ 2 + b ^ 2) ≤ e) : len3 ![a, b, 0] ≤ e := by simpa [len3] using h
omit [Machine] in
theorem len3_xz {a b e : ℝ} (h : Real.sqrt (a ^ 2 + b ^ 2) ≤ e) : len3 ![a, 0, b] ≤ e := by simpa [len3] using h
omit [Machine] in
theorem len3_yz {a b e : ℝ} (h : Real.sqrt (a ^ 2 + b ^ 2) ≤ e) : len3 ![0, a, b] ≤ e := by simpa [len3] using h
omit [Machine] in
theorem len3_none {e : ℝ} (h : 0 ≤ e) : len3 ![0, 0, 0] ≤ e := by simpa [len3] using h

theorem frame_near (h : Rounds53 r) (x : Rnd r) (t d : ℝ) (hx : |x.val - t| ≤ d) :
    RowsNear (frameX x) (R1 t) (d + ulp) ∧ RowsNear (frameY x) (R2 t) (d + ulp) ∧ RowsNear (frameZ x) (R3 t) (d + ulp) := by
  have hp := pair_near h x t d hx
  have h0 : 0 ≤ d + ulp := (Real.sqrt_nonneg _).trans hp
  have z := Rnd.lit_zero h
  have o := Rnd.lit_one h
  have n : ∀ y : Rnd r, (-y).val = -y.val := fun _ => rfl
  generalize hc : (Flt.cos x).val = c at *
  generalize hs : (Flt.sin x).val = s at *
  have hp2 : Real.sqrt ((s - Real.sin t) ^ 2 + (c - Real.cos t) ^ 2) ≤ d + ulp := by rw [add_comm]; exact hp
  have hp3 : Real.sqrt ((-(s - Real.sin t)) ^ 2 + (c - Real.cos t) ^ 2) ≤ d + ulp := by rw [neg_sq, add_comm]; exact hp
  have hp4 : Real.sqrt ((c - Real.cos t) ^ 2 + (-(s - Real.sin t)) ^ 2) ≤ d + ulp := by rw [neg_sq]; exact hp
  refine ⟨fun i => ?_, fun i => ?_, fun i => ?_⟩
  · fin_cases i
    · convert len3_none h0 using 2
      ext j; fin_cases j <;> simp [valM, frameX, R1, rotX, z, o, n]
    · convert len3_yz hp using 2
      ext j; fin_cases j <;> simp [valM, frameX, R1, rotX, z, o, n, hc, hs]
    · convert len3_yz hp3 using 2
      ext j; fin_cases j <;> simp [valM, frameX, R1, rotX, z, o, n, hc, hs] <;> ring
  · fin_cases i
    · convert len3_xz hp4 using 2
      ext j; fin_cases j <;> simp [valM, frameY, R2, rotY, z, o, n, hc, hs] <;> ring
    · convert len3_none h0 using 2
      ext j; fin_cases j <;> simp [valM, frameY, R2, rotY, z, o, n]
    · convert len3_xz hp2 using 2
      ext j; fin_cases j <;> simp [valM, frameY, R2, rotY, z, o, n, hc, hs]
  · fin_cases i
    · convert len3_xy hp using 2
      ext j; fin_cases j <;> simp [valM, frameZ, R3, rotZ, z, o, n, hc, hs]
    · convert len3_xy hp3 using 2
      ext j; fin_cases j <;> simp [valM, frameZ, R3, rotZ, z, o, n, hc, hs] <;> ring
    · convert len3_none h0 using 2
      ext j; fin_cases j <;> simp [valM, frameZ, R3, rotZ, z, o, n]

/-- precession · … : three frame rotations, errors of the angles `a b c` -/
theorem three_near (h : Rounds53 r) {A B C : M3 (Rnd r)} {E F G : Matrix (Fin 3) (Fin 3) ℝ} {a b c : ℝ} (hE : IsRot E) (hF : IsRot F) (hG : IsRot G)
    (hA : RowsNear A E (a + ulp)) (hB : RowsNear B F (b + ulp)) (hC : RowsNear C G (c + ulp)) (ha : a ≤ 1 / 10000) (hb : b ≤ 1 / 10000)
    (hc : c ≤ 1 / 10000) : RowsNear (mmul (mmul A B) C) (E * F * G) (a + 174 / 100 * b + 174 / 100 * c + 41 * ulp) := by
  have hu := ulp_pos
  have hu2 := ulp_le
  have h1 := hA.mmul h hB hE hF (by linarith) (by linarith)
  have h2 := h1.mmul h hC (hE.mul hF) hG (by linarith) (by linarith)
  exact h2.mono (by linarith)

omit [Machine] in
/-- the rows of a matrix close to a rotation are nearly orthonormal -/
theorem RowsNear.gram {A : M3 (Rnd r)} {E : Matrix (Fin 3) (Fin 3) ℝ} {d : ℝ} (h : RowsNear A E d) (hE : IsRot E) (hd : d ≤ 1 / 10) (i j : Fin 3) :
    |(valM A * (valM A)ᵀ - 1) i j| ≤ 21 / 10 * d := by
  have hE1 : E i ⬝ᵥ E j = (1 : Matrix (Fin 3) (Fin 3) ℝ) i j := by rw [← hE.1]; rfl
  have hs : (valM A * (valM A)ᵀ - 1) i j = (valM A i - E i) ⬝ᵥ E j + E i ⬝ᵥ (valM A j - E j) + (valM A i - E i) ⬝ᵥ (valM A j - E j) := by
    rw [Matrix.sub_apply, ← hE1]
    have : (valM A * (valM A)ᵀ) i j = valM A i ⬝ᵥ valM A j := rfl
    rw [this]
    simp only [sub_dotProduct, dotProduct_sub]; ring
  rw [hs]
  have a1 := dot_le_len3 (valM A i - E i) (E j)
  have a2 := dot_le_len3 (E i) (valM A j - E j)
  have a3 := dot_le_len3 (valM A i - E i) (valM A j - E j)
  rw [hE.row_len3] at a1 a2
  have b1 := h i
  have b2 := h j
  have d0 := (len3_nonneg' _).trans b1
  have b3 := mul_le_mul b1 b2 (len3_nonneg' _) d0
  have b4 : d * d ≤ d * (1 / 10) := mul_le_mul_of_nonneg_left hd d0
  refine (abs_add_le _ _).trans ?_
  have := abs_add_le ((valM A i - E i) ⬝ᵥ E j) (E i ⬝ᵥ (valM A j - E j))
  linarith

omit [Machine] in
/-- lengths of vectors are nearly preserved -/
theorem RowsNear.length {A : M3 (Rnd r)} {E : Matrix (Fin 3) (Fin 3) ℝ} {d : ℝ} (h : RowsNear A E d) (hE : IsRot E) (x : Fin 3 → ℝ) :
    |len3 (valM A *ᵥ x) - len3 x| ≤ 1733 / 1000 * d * len3 x := by
  have d0 := (len3_nonneg' _).trans (h 0)
  have e : ∀ i, |((valM A - E) *ᵥ x) i| ≤ d * len3 x := fun i => by
    have := dot_le_len3 ((valM A - E) i) x
    exact this.trans (mul_le_mul_of_nonneg_right (h i) (len3_nonneg' _))
  have l := len3_of_entries (mul_nonneg d0 (len3_nonneg' x)) e
  have le : len3 (E *ᵥ x) = len3 x := by
    rw [← vecMul_transpose]; exact hE.transpose.len3_vecMul x
  have t1 := len3_add ((valM A - E) *ᵥ x) (E *ᵥ x)
  have t2 := len3_add (-((valM A - E) *ᵥ x)) (valM A *ᵥ x)
  have ln : len3 (-((valM A - E) *ᵥ x)) = len3 ((valM A - E) *ᵥ x) := by simp [len3]
  rw [ln] at t2
  rw [sub_mulVec, sub_add_cancel, le, ← sub_mulVec] at t1
  rw [sub_mulVec, neg_sub, sub_add_cancel, le, ← sub_mulVec] at t2
  rw [abs_le]; constructor <;> linarith

end NavFuse.Props
