import Verif.Props.J2000
import Verif.Props.AttitudeRnd
import Verif.Lemmas.RoundJ2000
import Mathlib.Analysis.SpecialFunctions.Trigonometric.Bounds

/-! # How fast the orientation of the Earth changes -/

set_option linter.unusedSimpArgs false

namespace NavFuse.Props
open Matrix Spec Rotations

/-- nutation in longitude and obliquity: the series of the table at the IAU arguments, not reduced -/
noncomputable def iauNutation (T : ℝ) : ℝ × ℝ :=
  ((nutTable.map fun c => ((c.c5 : ℝ) + c.c6 * T) * Real.sin (termAngle (iauArgs T) c)).sum * (1e-5 * arcsec),
   (nutTable.map fun c => ((c.c7 : ℝ) + c.c8 * T) * Real.cos (termAngle (iauArgs T) c)).sum * (1e-5 * arcsec))

/-- The orientation of the Earth at the UTC instant `u` (Modified Julian Date) with the orientation parameters `e`: the IAU matrix at Terrestrial Time
and UT1. -/
noncomputable def orientation (u : ℝ) (e : EopVal ℝ) : Matrix (Fin 3) (Fin 3) ℝ :=
  let T := centuries (u + (e.taiUtc + 32.184) / 86400)
  let n := iauNutation T
  iauMatrix T n.1 n.2 (2 * Real.pi * (iauGmst (centuries (u + e.ut1Utc / 86400)) / 86400) + n.1 * Real.cos (iauObliquity T)) e.xPole e.yPole

theorem nutation_eq (m : ℝ) : nutationAngles m = iauNutation (centuries m) := Prod.ext (C19_reduction m).2.1 (C19_reduction m).2.2

theorem arcsec_bd : 0 < arcsec ∧ arcsec < 4.8482e-6 := by
  have := Real.pi_lt_d6; have := Real.pi_pos
  unfold arcsec; constructor
  · positivity
  · rw [div_lt_iff₀ (by norm_num)]; norm_num at *; linarith

/-! ## The angles -/

/-- a cubic on |T| ≤ 1.01 -/
theorem cubic_lip (a b c d T S : ℝ) (hT : |T| ≤ 1.01) (hS : |S| ≤ 1.01) :
    |(a + b * T + c * T ^ 2 + d * T ^ 3) - (a + b * S + c * S ^ 2 + d * S ^ 3)| ≤ (|b| + 2.02 * |c| + 3.1 * |d|) * |T - S| := by
  have e : (a + b * T + c * T ^ 2 + d * T ^ 3) - (a + b * S + c * S ^ 2 + d * S ^ 3) = (b + c * (T + S) + d * (T ^ 2 + T * S + S ^ 2)) * (T - S) := by ring
  rw [e, abs_mul]
  refine mul_le_mul_of_nonneg_right ?_ (abs_nonneg _)
  refine (abs_add_le _ _).trans (add_le_add ((abs_add_le _ _).trans (add_le_add le_rfl ?_)) ?_)
  · rw [abs_mul, mul_comm 2.02]
    refine mul_le_mul_of_nonneg_left ((abs_add_le _ _).trans ?_) (abs_nonneg _)
    norm_num at *; linarith
  · rw [abs_mul, mul_comm 3.1]
    refine mul_le_mul_of_nonneg_left ?_ (abs_nonneg _)
    have h1 : |T ^ 2| ≤ 1.0201 := by rw [abs_of_nonneg (sq_nonneg T)]; have := abs_le.1 hT; norm_num at *; nlinarith
    have h2 : |S ^ 2| ≤ 1.0201 := by rw [abs_of_nonneg (sq_nonneg S)]; have := abs_le.1 hS; norm_num at *; nlinarith
    have h3 : |T * S| ≤ 1.0201 := by rw [abs_mul]; norm_num at *; nlinarith [abs_nonneg S, abs_nonneg T]
    refine (abs_add_le _ _).trans ?_
    have := abs_add_le (T ^ 2) (T * S)
    norm_num at *; linarith

theorem args_lip (T S : ℝ) (hT : |T| ≤ 1.01) (hS : |S| ≤ 1.01) (i : Fin 5) : |iauArgs T i - iauArgs S i| ≤ 1.74e9 * |T - S| := by
  have key : ∀ a b c d : ℝ, |b| + 2.02 * |c| + 3.1 * |d| ≤ 1.74e9 →
      |(a + b * T + c * T ^ 2 + d * T ^ 3) - (a + b * S + c * S ^ 2 + d * S ^ 3)| ≤ 1.74e9 * |T - S| := fun a b c d h =>
    (cubic_lip a b c d T S hT hS).trans (mul_le_mul_of_nonneg_right h (abs_nonneg _))
  fin_cases i
  · have := key 485866.733 (1325 * 1296000 + 715922.633) 31.310 0.064 (by norm_num [abs_of_pos])
    simpa [iauArgs] using this
  · have := key 1287099.804 (99 * 1296000 + 1292581.224) (-0.577) (-0.012) (by norm_num [abs_of_pos])
    simpa [iauArgs, sub_eq_add_neg] using this
  · have := key 335778.877 (1342 * 1296000 + 295263.137) (-13.257) 0.011 (by norm_num [abs_of_pos])
    simpa [iauArgs, sub_eq_add_neg] using this
  · have := key 1072261.307 (1236 * 1296000 + 1105601.328) (-6.891) 0.019 (by norm_num [abs_of_pos])
    simpa [iauArgs, sub_eq_add_neg] using this
  · have := key 450160.280 (-(5 * 1296000 + 482890.539)) 7.455 0.008 (by rw [abs_neg]; norm_num [abs_of_pos])
    rw [neg_mul, neg_mul] at this
    simpa [iauArgs, sub_eq_add_neg] using this

theorem term_lip (T S : ℝ) (hT : |T| ≤ 1.01) (hS : |S| ≤ 1.01) (c : NutRow) (hc : NutRow.Small c) :
    |termAngle (iauArgs T) c - termAngle (iauArgs S) c| ≤ 1.69e5 * |T - S| := by
  obtain ⟨c0, c1, c2, c3, c4, -⟩ := hc
  have ha := arcsec_bd
  have k : ∀ (n : ℤ) i, n.natAbs ≤ 4 → |(n : ℝ) * (iauArgs T i - iauArgs S i)| ≤ 4 * (1.74e9 * |T - S|) := fun n i hn => by
    rw [abs_mul]
    have h1 : |n| ≤ 4 := by rw [Int.abs_eq_natAbs]; omega
    exact mul_le_mul (by exact_mod_cast h1) (args_lip T S hT hS i) (abs_nonneg _) (by norm_num)
  have e : termAngle (iauArgs T) c - termAngle (iauArgs S) c = (c.c0 * (iauArgs T 0 - iauArgs S 0) + c.c1 * (iauArgs T 1 - iauArgs S 1) +
      c.c2 * (iauArgs T 2 - iauArgs S 2) + c.c3 * (iauArgs T 3 - iauArgs S 3) + c.c4 * (iauArgs T 4 - iauArgs S 4)) * arcsec := by
    unfold termAngle; ring
  rw [e, abs_mul, abs_of_pos ha.1]
  have k0 := k _ 0 c0; have k1 := k _ 1 c1; have k2 := k _ 2 c2; have k3 := k _ 3 c3; have k4 := k _ 4 c4
  generalize (c.c0 : ℝ) * (iauArgs T 0 - iauArgs S 0) = x0 at *
  generalize (c.c1 : ℝ) * (iauArgs T 1 - iauArgs S 1) = x1 at *
  generalize (c.c2 : ℝ) * (iauArgs T 2 - iauArgs S 2) = x2 at *
  generalize (c.c3 : ℝ) * (iauArgs T 3 - iauArgs S 3) = x3 at *
  generalize (c.c4 : ℝ) * (iauArgs T 4 - iauArgs S 4) = x4 at *
  have s : |x0 + x1 + x2 + x3 + x4| ≤ 20 * (1.74e9 * |T - S|) := by
    have := abs_add_le (x0 + x1 + x2 + x3) x4; have := abs_add_le (x0 + x1 + x2) x3; have := abs_add_le (x0 + x1) x2; have := abs_add_le x0 x1
    linarith
  have n := abs_nonneg (T - S)
  refine (mul_le_mul s ha.2.le ha.1.le (by positivity)).trans ?_
  norm_num
  linarith

theorem sum_lip (w : NutRow → ℤ) (f g : NutRow → ℝ) (K : ℝ) (L : List NutRow) (h : ∀ c ∈ L, |f c - g c| ≤ (w c : ℝ) * K) :
    |(L.map f).sum - (L.map g).sum| ≤ ((L.map w).sum : ℤ) * K := by
  induction L with
  | nil => simp
  | cons c L ih =>
    simp only [List.map_cons, List.sum_cons]
    push_cast
    have h1 := h c (by simp)
    have h2 := ih fun c' hc' => h c' (by simp [hc'])
    push_cast at h2
    rw [add_sub_add_comm, add_mul]
    exact (abs_add_le _ _).trans (add_le_add h1 h2)

theorem coef_lip (a b : ℤ) (T S x y d : ℝ) (hT : |T| ≤ 1.01) (hy : |y| ≤ 1) (hxy : |x - y| ≤ d) :
    |((a : ℝ) + b * T) * x - (a + b * S) * y| ≤ (((a.natAbs : ℤ) + 2 * (b.natAbs : ℤ) : ℤ) : ℝ) * (d + |T - S|) := by
  have e : ((a : ℝ) + b * T) * x - (a + b * S) * y = (a + b * T) * (x - y) + b * (T - S) * y := by ring
  have ab : (((a.natAbs : ℤ) + 2 * (b.natAbs : ℤ) : ℤ) : ℝ) = |(a : ℝ)| + 2 * |(b : ℝ)| := by push_cast; simp
  rw [e, ab]
  have na := abs_nonneg (a : ℝ); have nb := abs_nonneg (b : ℝ)
  have h1 : |(a : ℝ) + b * T| ≤ |(a : ℝ)| + 2 * |(b : ℝ)| := by
    refine (abs_add_le _ _).trans (add_le_add le_rfl ?_)
    rw [abs_mul, mul_comm 2]
    exact mul_le_mul_of_nonneg_left (hT.trans (by norm_num)) nb
  have h2 := mul_le_mul h1 hxy (abs_nonneg _) (by positivity)
  have h3 : |(b : ℝ) * (T - S) * y| ≤ (|(a : ℝ)| + 2 * |(b : ℝ)|) * |T - S| := by
    rw [abs_mul, abs_mul]
    have := mul_le_mul_of_nonneg_left hy (mul_nonneg nb (abs_nonneg (T - S)))
    nlinarith [abs_nonneg (T - S)]
  refine (abs_add_le _ _).trans ?_
  rw [abs_mul]
  linarith

/-- nutation: at most 17 radians per century -/
theorem nut_lip (T S : ℝ) (hT : |T| ≤ 1.01) (hS : |S| ≤ 1.01) :
    |(iauNutation T).1 - (iauNutation S).1| ≤ 17 * |T - S| ∧ |(iauNutation T).2 - (iauNutation S).2| ≤ 17 * |T - S| := by
  have ha := arcsec_bd
  have n := abs_nonneg (T - S)
  have fin : ∀ (w : NutRow → ℤ) (f g : NutRow → ℝ), (nutTable.map w).sum ≤ 1950000 → (∀ c ∈ nutTable, |f c - g c| ≤ (w c : ℝ) * (1.69e5 * |T - S| + |T - S|)) →
      |(nutTable.map f).sum * (1e-5 * arcsec) - (nutTable.map g).sum * (1e-5 * arcsec)| ≤ 17 * |T - S| := by
    intro w f g hw h
    have s := sum_lip w f g _ nutTable h
    have hw' : (((nutTable.map w).sum : ℤ) : ℝ) ≤ 1950000 := by exact_mod_cast hw
    have s' := s.trans (mul_le_mul_of_nonneg_right hw' (by positivity))
    rw [← sub_mul, abs_mul, abs_of_pos (show 0 < 1e-5 * arcsec by have := ha.1; positivity)]
    refine (mul_le_mul s' (mul_le_mul_of_nonneg_left ha.2.le (by norm_num)) (by have := ha.1; positivity) (by positivity)).trans ?_
    norm_num
    linarith
  constructor
  · refine fin (fun c => (c.c5.natAbs : ℤ) + 2 * (c.c6.natAbs : ℤ)) _ _ (by decide +kernel) fun c hc => ?_
    refine coef_lip _ _ T S _ _ _ hT (Real.abs_sin_le_one _) ?_
    exact (Real.abs_sin_sub_sin_le _ _).trans (term_lip T S hT hS c (nutTable_small c hc))
  · refine fin (fun c => (c.c7.natAbs : ℤ) + 2 * (c.c8.natAbs : ℤ)) _ _ (by decide +kernel) fun c hc => ?_
    refine coef_lip _ _ T S _ _ _ hT (Real.abs_cos_le_one _) ?_
    exact (Real.abs_cos_sub_cos_le _ _).trans (term_lip T S hT hS c (nutTable_small c hc))

theorem iauNut_le (T : ℝ) (hT : |T| ≤ 1.01) : |(iauNutation T).1| ≤ 1e-4 := by
  have h := (C19_bounded (51544.5 + 36525 * T)).1
  have e : centuries (51544.5 + 36525 * T) = T := by unfold centuries; ring
  rw [nutation_eq, e] at h
  have ha := arcsec_bd
  refine h.trans ?_
  norm_num at hT ha ⊢
  nlinarith [abs_nonneg T]

/-! ## Matrices -/

/-- two matrices that act on positions almost alike -/
def OpNear (A B : Matrix (Fin 3) (Fin 3) ℝ) (d : ℝ) : Prop := ∀ x, len3 ((A - B) *ᵥ x) ≤ d * len3 x

theorem len3_mulVec {A : Matrix (Fin 3) (Fin 3) ℝ} (hA : IsRot A) (x : Fin 3 → ℝ) : len3 (A *ᵥ x) = len3 x := by
  rw [← vecMul_transpose]; exact hA.transpose.len3_vecMul x

theorem OpNear.mono {A B : Matrix (Fin 3) (Fin 3) ℝ} {d e : ℝ} (h : OpNear A B d) (hde : d ≤ e) : OpNear A B e :=
  fun x => (h x).trans (mul_le_mul_of_nonneg_right hde (len3_nonneg' x))

theorem OpNear.mul {A A' B B' : Matrix (Fin 3) (Fin 3) ℝ} {d e : ℝ} (h : OpNear A A' d) (h' : OpNear B B' e) (hA : IsRot A) (hB : IsRot B') :
    OpNear (A * B) (A' * B') (d + e) := fun x => by
  have s : (A * B - A' * B') *ᵥ x = A *ᵥ ((B - B') *ᵥ x) + (A - A') *ᵥ (B' *ᵥ x) := by
    simp only [mulVec_mulVec, ← add_mulVec]
    congr 1; noncomm_ring
  rw [s]
  refine (len3_add _ _).trans ?_
  rw [len3_mulVec hA]
  have := h (B' *ᵥ x)
  rw [len3_mulVec hB] at this
  linarith [h' x]

theorem chord_sq (g k : ℝ) : (Real.cos g - Real.cos k) ^ 2 + (Real.sin g - Real.sin k) ^ 2 = 2 - 2 * Real.cos (g - k) := by
  have e1 := Real.sin_sq_add_cos_sq g; have e2 := Real.sin_sq_add_cos_sq k; have e3 := Real.cos_sub g k
  nlinarith

theorem chord_le (g k : ℝ) : (Real.cos g - Real.cos k) ^ 2 + (Real.sin g - Real.sin k) ^ 2 ≤ |g - k| ^ 2 := by
  have e3 := Real.one_sub_sq_div_two_le_cos (x := g - k)
  rw [chord_sq, sq_abs]; linarith

theorem frame_lip (g k : ℝ) : OpNear (R1 g) (R1 k) |g - k| ∧ OpNear (R2 g) (R2 k) |g - k| ∧ OpNear (R3 g) (R3 k) |g - k| := by
  have c := chord_le g k
  have n := abs_nonneg (g - k)
  refine ⟨fun x => ?_, fun x => ?_, fun x => ?_⟩ <;>
  · unfold len3
    rw [← Real.sqrt_sq n, ← Real.sqrt_mul (sq_nonneg _)]
    refine Real.sqrt_le_sqrt ?_
    generalize |g - k| ^ 2 = K at *
    simp [R1, R2, R3, rotX, rotY, rotZ, mulVec, dotProduct, Fin.sum_univ_three, transpose_apply, Matrix.of_apply]
    generalize Real.cos g - Real.cos k = C at *
    generalize Real.sin g = s at *
    generalize Real.sin k = s' at *
    nlinarith [mul_le_mul_of_nonneg_right c (sq_nonneg (x 0)), mul_le_mul_of_nonneg_right c (sq_nonneg (x 1)), mul_le_mul_of_nonneg_right c (sq_nonneg (x 2)),
      mul_nonneg ((add_nonneg (sq_nonneg C) (sq_nonneg (s - s'))).trans c) (sq_nonneg (x 0)), mul_nonneg ((add_nonneg (sq_nonneg C) (sq_nonneg (s - s'))).trans c) (sq_nonneg (x 1)),
      mul_nonneg ((add_nonneg (sq_nonneg C) (sq_nonneg (s - s'))).trans c) (sq_nonneg (x 2))]

theorem OpNear.symm {A B : Matrix (Fin 3) (Fin 3) ℝ} {d : ℝ} (h : OpNear A B d) : OpNear B A d := fun x => by
  have e : (B - A) *ᵥ x = (-1 : ℝ) • ((A - B) *ᵥ x) := by rw [neg_one_smul, ← neg_mulVec, neg_sub]
  rw [e, len3_smul]; simpa using h x

/-- nutation and precession at `T` centuries -/
noncomputable def celestial (T : ℝ) : Matrix (Fin 3) (Fin 3) ℝ :=
  (R1 (-(iauObliquity T + (iauNutation T).2)) * R3 (-(iauNutation T).1) * R1 (iauObliquity T)) * (R3 (-iauZ T) * R2 (iauTheta T) * R3 (-iauZeta T))

theorem celestial_isRot (T : ℝ) : IsRot (celestial T) :=
  (((R1_isRot _).mul (R3_isRot _)).mul (R1_isRot _)).mul (((R3_isRot _).mul (R2_isRot _)).mul (R3_isRot _))

theorem angle_lip (b c d T S : ℝ) (hT : |T| ≤ 1.01) (hS : |S| ≤ 1.01) (hk : |b| + 2.02 * |c| + 3.1 * |d| ≤ 2400) (a : ℝ) :
    |(a + b * T + c * T ^ 2 + d * T ^ 3) * arcsec - (a + b * S + c * S ^ 2 + d * S ^ 3) * arcsec| ≤ 0.012 * |T - S| := by
  have ha := arcsec_bd
  rw [← sub_mul, abs_mul, abs_of_pos ha.1]
  have n := abs_nonneg (T - S)
  have := (cubic_lip a b c d T S hT hS).trans (mul_le_mul_of_nonneg_right hk n)
  refine (mul_le_mul this ha.2.le ha.1.le (by positivity)).trans ?_
  norm_num
  linarith

theorem celestial_lip (T S : ℝ) (hT : |T| ≤ 1.01) (hS : |S| ≤ 1.01) : OpNear (celestial T) (celestial S) (35 * |T - S|) := by
  obtain ⟨n1, n2⟩ := nut_lip T S hT hS
  have n := abs_nonneg (T - S)
  have ob : |iauObliquity T - iauObliquity S| ≤ 0.012 * |T - S| := by
    have := angle_lip (-46.8150) (-0.00059) 0.001813 T S hT hS (by norm_num [abs_of_pos]) 84381.447996
    unfold iauObliquity; simpa only [neg_mul, ← sub_eq_add_neg] using this
  have z : |iauZ T - iauZ S| ≤ 0.012 * |T - S| := by
    have := angle_lip 2306.2181 1.09468 0.018203 T S hT hS (by norm_num [abs_of_pos]) 0
    unfold iauZ; simpa only [zero_add] using this
  have ze : |iauZeta T - iauZeta S| ≤ 0.012 * |T - S| := by
    have := angle_lip 2306.2181 0.30188 0.017998 T S hT hS (by norm_num [abs_of_pos]) 0
    unfold iauZeta; simpa only [zero_add] using this
  have th : |iauTheta T - iauTheta S| ≤ 0.012 * |T - S| := by
    have := angle_lip 2004.3109 (-0.42665) (-0.041833) T S hT hS (by norm_num [abs_of_pos]) 0
    unfold iauTheta; simpa only [zero_add, neg_mul, ← sub_eq_add_neg] using this
  have neg : ∀ x y : ℝ, |-x - -y| = |x - y| := fun x y => by rw [neg_sub_neg, abs_sub_comm]
  have f1 := ((frame_lip (-(iauObliquity T + (iauNutation T).2)) (-(iauObliquity S + (iauNutation S).2))).1.mul
    (frame_lip (-(iauNutation T).1) (-(iauNutation S).1)).2.2 (R1_isRot _) (R3_isRot _)).mul (frame_lip (iauObliquity T) (iauObliquity S)).1
    ((R1_isRot _).mul (R3_isRot _)) (R1_isRot _)
  have f2 := ((frame_lip (-iauZ T) (-iauZ S)).2.2.mul (frame_lip (iauTheta T) (iauTheta S)).2.1 (R3_isRot _) (R2_isRot _)).mul
    (frame_lip (-iauZeta T) (-iauZeta S)).2.2 ((R3_isRot _).mul (R2_isRot _)) (R3_isRot _)
  refine (f1.mul f2 (((R1_isRot _).mul (R3_isRot _)).mul (R1_isRot _)) (((R3_isRot _).mul (R2_isRot _)).mul (R3_isRot _))).mono ?_
  rw [neg, neg, neg, neg]
  have sum : |iauObliquity T + (iauNutation T).2 - (iauObliquity S + (iauNutation S).2)| ≤ 0.012 * |T - S| + 17 * |T - S| := by
    rw [add_sub_add_comm]; exact (abs_add_le _ _).trans (add_le_add ob n2)
  norm_num at n1 ob z ze th sum
  linarith

/-- mean sidereal time: the rate -/
theorem gmst_rate (a b : ℝ) (ha : |a - 51544.5| ≤ 36530) (hb : |b - 51544.5| ≤ 36530) :
    ∃ k, 86636.55 ≤ k ∧ k ≤ 86636.56 ∧ iauGmst (centuries a) - iauGmst (centuries b) = k * (a - b) := by
  refine ⟨((876600 * 3600 + 8640184.812866) / 36525) + 0.093104 / 36525 * (centuries a + centuries b)
        - 0.0000062 / 36525 * (centuries a ^ 2 + centuries a * centuries b + centuries b ^ 2), ?_, ?_, by unfold iauGmst centuries; ring⟩
  all_goals
    have hA : |centuries a| ≤ 2 := by
      have h2 := abs_le.1 ha
      unfold centuries; norm_num at h2; rw [abs_le]; constructor <;> norm_num <;> linarith
    have hB : |centuries b| ≤ 2 := by
      have h2 := abs_le.1 hb
      unfold centuries; norm_num at h2; rw [abs_le]; constructor <;> norm_num <;> linarith
    generalize centuries a = A at *
    generalize centuries b = B at *
    have a1 := abs_le.1 hA; have b1 := abs_le.1 hB
    have q1 : A ^ 2 + A * B + B ^ 2 ≤ 12 := by nlinarith
    have q2 : 0 ≤ A ^ 2 + A * B + B ^ 2 := by nlinarith [sq_nonneg (A + B), sq_nonneg A, sq_nonneg B]
    norm_num
    linarith

/-- The angle of the Earth's rotation at `u`. -/
noncomputable def sidereal (u : ℝ) (e : EopVal ℝ) : ℝ :=
  2 * Real.pi * (iauGmst (centuries (u + e.ut1Utc / 86400)) / 86400) +
    (iauNutation (centuries (u + (e.taiUtc + 32.184) / 86400))).1 * Real.cos (iauObliquity (centuries (u + (e.taiUtc + 32.184) / 86400)))

theorem orientation_eq (u : ℝ) (e : EopVal ℝ) : orientation u e
    = (R2 (-e.xPole) * R1 (-e.yPole)) * R3 (sidereal u e) * celestial (centuries (u + (e.taiUtc + 32.184) / 86400)) := by
  simp only [orientation, iauMatrix, celestial, sidereal, Matrix.mul_assoc]

theorem orientation_isRot (u : ℝ) (e : EopVal ℝ) : IsRot (orientation u e) := by
  rw [orientation_eq]
  exact (((R2_isRot _).mul (R1_isRot _)).mul (R3_isRot _)).mul (celestial_isRot _)

theorem sidereal_rate (u d : ℝ) (e e' : EopVal ℝ) (hd0 : 0 ≤ d) (hd : d ≤ 1.2e-5) (hu : |u - 51544.5| ≤ 36525) (ht : e'.taiUtc = e.taiUtc) (htai : |e.taiUtc| ≤ 100)
    (hut : |e.ut1Utc| ≤ 1) (hut' : |e'.ut1Utc - e.ut1Utc| ≤ 2 * d) :
    6.2995 * d ≤ sidereal (u + d) e' - sidereal u e ∧ sidereal (u + d) e' - sidereal u e ≤ 6.3013 * d := by
  have hu' := abs_le.1 hu
  have t1 := abs_le.1 htai; have t2 := abs_le.1 hut; have t3 := abs_le.1 hut'
  norm_num at hd hu'
  obtain ⟨k, k1, k2, hk⟩ := gmst_rate (u + d + e'.ut1Utc / 86400) (u + e.ut1Utc / 86400)
    (by rw [abs_le]; constructor <;> norm_num <;> linarith) (by rw [abs_le]; constructor <;> norm_num <;> linarith)
  have hT : |centuries (u + d + (e'.taiUtc + 32.184) / 86400)| ≤ 1.01 := by
    rw [ht]; unfold centuries; rw [abs_le]; constructor <;> norm_num <;> linarith
  have hS : |centuries (u + (e.taiUtc + 32.184) / 86400)| ≤ 1.01 := by
    unfold centuries; rw [abs_le]; constructor <;> norm_num <;> linarith
  have hTS : |centuries (u + d + (e'.taiUtc + 32.184) / 86400) - centuries (u + (e.taiUtc + 32.184) / 86400)| = d / 36525 := by
    rw [ht]; unfold centuries
    rw [show (u + d + (e.taiUtc + 32.184) / 86400 - 51544.5) / 36525 - (u + (e.taiUtc + 32.184) / 86400 - 51544.5) / 36525 = d / 36525 by ring,
      abs_of_nonneg (by positivity)]
  have nl := (nut_lip _ _ hT hS).1
  have nb := iauNut_le _ hS
  have ob : |iauObliquity (centuries (u + d + (e'.taiUtc + 32.184) / 86400)) - iauObliquity (centuries (u + (e.taiUtc + 32.184) / 86400))| ≤
      0.012 * |centuries (u + d + (e'.taiUtc + 32.184) / 86400) - centuries (u + (e.taiUtc + 32.184) / 86400)| := by
    have := angle_lip (-46.8150) (-0.00059) 0.001813 _ _ hT hS (by norm_num [abs_of_pos]) 84381.447996
    unfold iauObliquity; simpa only [neg_mul, ← sub_eq_add_neg] using this
  rw [hTS] at nl ob
  unfold sidereal
  generalize centuries (u + d + (e'.taiUtc + 32.184) / 86400) = T at *
  generalize centuries (u + (e.taiUtc + 32.184) / 86400) = S at *
  have cb := (Real.abs_cos_sub_cos_le (iauObliquity T) (iauObliquity S)).trans ob
  have eq : |(iauNutation T).1 * Real.cos (iauObliquity T) - (iauNutation S).1 * Real.cos (iauObliquity S)| ≤ 17.1 * (d / 36525) := by
    rw [show (iauNutation T).1 * Real.cos (iauObliquity T) - (iauNutation S).1 * Real.cos (iauObliquity S)
      = ((iauNutation T).1 - (iauNutation S).1) * Real.cos (iauObliquity T) + (iauNutation S).1 * (Real.cos (iauObliquity T) - Real.cos (iauObliquity S)) by ring]
    refine (abs_add_le _ _).trans ?_
    rw [abs_mul, abs_mul]
    have c1 := mul_le_mul nl (Real.abs_cos_le_one (iauObliquity T)) (abs_nonneg _) (by positivity)
    have c2 := mul_le_mul nb cb (abs_nonneg _) (by norm_num)
    norm_num at *
    linarith
  have eq' := abs_le.1 eq
  have pl := Real.pi_gt_d6; have pg := Real.pi_lt_d6
  generalize (iauNutation T).1 * Real.cos (iauObliquity T) = P at *
  generalize (iauNutation S).1 * Real.cos (iauObliquity S) = Q at *
  generalize iauGmst (centuries (u + d + e'.ut1Utc / 86400)) = G at *
  have hG : G = iauGmst (centuries (u + e.ut1Utc / 86400)) + k * (u + d + e'.ut1Utc / 86400 - (u + e.ut1Utc / 86400)) := by linarith
  have s : 2 * Real.pi * (G / 86400) + P - (2 * Real.pi * (iauGmst (centuries (u + e.ut1Utc / 86400)) / 86400) + Q)
      = 2 * Real.pi / 86400 * (k * (d + (e'.ut1Utc - e.ut1Utc) / 86400)) + (P - Q) := by rw [hG]; ring
  rw [s]
  have r1 : d * (1 - 2 / 86400) ≤ d + (e'.ut1Utc - e.ut1Utc) / 86400 := by linarith
  have r2 : d + (e'.ut1Utc - e.ut1Utc) / 86400 ≤ d * (1 + 2 / 86400) := by linarith
  generalize d + (e'.ut1Utc - e.ut1Utc) / 86400 = D at *
  norm_num at k1 k2 pl pg eq' r1 r2
  have rD : 0 ≤ D := le_trans (by positivity) r1
  have l1 : 1732731 / 20 * (d * (43199 / 43200)) ≤ k * D := mul_le_mul k1 r1 (by positivity) (by linarith)
  have l2 : k * D ≤ 2165914 / 25 * (d * (43201 / 43200)) := mul_le_mul k2 r2 rD (by norm_num)
  have kd : 0 ≤ k * D := mul_nonneg (by linarith) rD
  have m1 : 2 * (3141592 / 1000000) / 86400 * (1732731 / 20 * (d * (43199 / 43200))) ≤ 2 * Real.pi / 86400 * (k * D) :=
    mul_le_mul (by linarith) l1 (by positivity) (by have := Real.pi_pos; positivity)
  have m2 : 2 * Real.pi / 86400 * (k * D) ≤ 2 * (3141593 / 1000000) / 86400 * (2165914 / 25 * (d * (43201 / 43200))) :=
    mul_le_mul (by linarith) l2 kd (by positivity)
  norm_num at *
  constructor <;> linarith

/-- Between two instants less than a second apart the Earth has turned by the time between them, in days, times 6.30 radians. -/
theorem orientation_rate (u d : ℝ) (e e' : EopVal ℝ) (hd0 : 0 ≤ d) (hd : d ≤ 1.2e-5) (hu : |u - 51544.5| ≤ 36525) (ht : e'.taiUtc = e.taiUtc) (htai : |e.taiUtc| ≤ 100)
    (hut : |e.ut1Utc| ≤ 1) (hut' : |e'.ut1Utc - e.ut1Utc| ≤ 2 * d) (hx : |e'.xPole - e.xPole| ≤ 1e-5 * d) (hy : |e'.yPole - e.yPole| ≤ 1e-5 * d) :
    OpNear (orientation u e) (orientation (u + d) e') (6.303 * d) ∧
    ∃ x, len3 x = 1 ∧ 6.298 * d ≤ len3 ((orientation u e - orientation (u + d) e') *ᵥ x) := by
  obtain ⟨s1, s2⟩ := sidereal_rate u d e e' hd0 hd hu ht htai hut hut'
  have hu' := abs_le.1 hu
  have t1 := abs_le.1 htai
  norm_num at hd hu'
  have hT : |centuries (u + d + (e'.taiUtc + 32.184) / 86400)| ≤ 1.01 := by
    rw [ht]; unfold centuries; rw [abs_le]; constructor <;> norm_num <;> linarith
  have hS : |centuries (u + (e.taiUtc + 32.184) / 86400)| ≤ 1.01 := by
    unfold centuries; rw [abs_le]; constructor <;> norm_num <;> linarith
  have hTS : |centuries (u + (e.taiUtc + 32.184) / 86400) - centuries (u + d + (e'.taiUtc + 32.184) / 86400)| = d / 36525 := by
    rw [ht, abs_sub_comm]; unfold centuries
    rw [show (u + d + (e.taiUtc + 32.184) / 86400 - 51544.5) / 36525 - (u + (e.taiUtc + 32.184) / 86400 - 51544.5) / 36525 = d / 36525 by ring,
      abs_of_nonneg (by positivity)]
  have cl := celestial_lip _ _ hS hT
  rw [hTS] at cl
  rw [orientation_eq, orientation_eq]
  have ci := celestial_isRot (centuries (u + (e.taiUtc + 32.184) / 86400))
  have ci' := celestial_isRot (centuries (u + d + (e'.taiUtc + 32.184) / 86400))
  generalize celestial (centuries (u + (e.taiUtc + 32.184) / 86400)) = Q at *
  generalize celestial (centuries (u + d + (e'.taiUtc + 32.184) / 86400)) = Q' at *
  have neg : ∀ x y : ℝ, |-x - -y| = |y - x| := fun x y => by rw [neg_sub_neg]
  have W : OpNear (R2 (-e.xPole) * R1 (-e.yPole)) (R2 (-e'.xPole) * R1 (-e'.yPole)) (2e-5 * d) :=
    ((frame_lip (-e.xPole) (-e'.xPole)).2.1.mul (frame_lip (-e.yPole) (-e'.yPole)).1 (R2_isRot _) (R1_isRot _)).mono (by rw [neg, neg]; norm_num at *; linarith)
  have Wi := (R2_isRot (-e.xPole)).mul (R1_isRot (-e.yPole))
  have Wi' := (R2_isRot (-e'.xPole)).mul (R1_isRot (-e'.yPole))
  generalize R2 (-e.xPole) * R1 (-e.yPole) = A at *
  generalize R2 (-e'.xPole) * R1 (-e'.yPole) = A' at *
  have gl := (frame_lip (sidereal u e) (sidereal (u + d) e')).2.2
  have ga : |sidereal u e - sidereal (u + d) e'| = sidereal (u + d) e' - sidereal u e := by
    rw [abs_sub_comm, abs_of_nonneg]; exact le_trans (by positivity) s1
  have ch := chord_sq (sidereal u e) (sidereal (u + d) e')
  rw [ga] at gl
  have gi := R3_isRot (sidereal u e); have gi' := R3_isRot (sidereal (u + d) e')
  constructor
  · refine ((W.mul gl Wi gi').mul cl (Wi.mul gi) ci').mono ?_
    norm_num at *; linarith
  · refine ⟨Qᵀ *ᵥ ![1, 0, 0], ?_, ?_⟩
    · rw [len3_mulVec ci.transpose]; simp [len3]
    · have l0 : len3 ![(1 : ℝ), 0, 0] = 1 := by simp [len3]
      generalize hg : sidereal (u + d) e' = g' at *
      generalize sidereal u e = g at *
      have sp : A *ᵥ ((R3 g - R3 g') *ᵥ ![1, 0, 0]) = (A * R3 g * Q - A' * R3 g' * Q') *ᵥ (Qᵀ *ᵥ ![1, 0, 0]) +
          ((-1 : ℝ) • ((A - A') *ᵥ (R3 g' *ᵥ ![1, 0, 0])) + (-1 : ℝ) • (A' *ᵥ (R3 g' *ᵥ ((Q - Q') *ᵥ (Qᵀ *ᵥ ![1, 0, 0]))))) := by
        have hQ : Q * Qᵀ = 1 := ci.1
        simp only [mulVec_mulVec, neg_one_smul, ← neg_mulVec, ← add_mulVec]
        congr 1
        simp only [Matrix.sub_mul, Matrix.mul_sub, Matrix.mul_assoc, hQ, Matrix.mul_one]
        abel
      have n1 := congrArg len3 sp
      rw [len3_mulVec Wi] at n1
      have n2 := len3_add ((A * R3 g * Q - A' * R3 g' * Q') *ᵥ (Qᵀ *ᵥ ![1, 0, 0]))
          ((-1 : ℝ) • ((A - A') *ᵥ (R3 g' *ᵥ ![1, 0, 0])) + (-1 : ℝ) • (A' *ᵥ (R3 g' *ᵥ ((Q - Q') *ᵥ (Qᵀ *ᵥ ![1, 0, 0])))))
      have n3 := len3_add ((-1 : ℝ) • ((A - A') *ᵥ (R3 g' *ᵥ ![1, 0, 0]))) ((-1 : ℝ) • (A' *ᵥ (R3 g' *ᵥ ((Q - Q') *ᵥ (Qᵀ *ᵥ ![1, 0, 0])))))
      rw [len3_smul, len3_smul, len3_mulVec Wi', len3_mulVec gi'] at n3
      have n4 := W (R3 g' *ᵥ ![1, 0, 0])
      rw [len3_mulVec gi', l0] at n4
      have n5 := cl (Qᵀ *ᵥ ![1, 0, 0])
      rw [len3_mulVec ci.transpose, l0] at n5
      have key : (g' - g) * 0.9999999 ≤ len3 ((R3 g - R3 g') *ᵥ ![1, 0, 0]) := by
        have e0 : len3 ((R3 g - R3 g') *ᵥ ![1, 0, 0]) = Real.sqrt (2 - 2 * Real.cos (g - g')) := by
          rw [← ch]; unfold len3
          simp [R3, rotZ, mulVec, dotProduct, Fin.sum_univ_three]
          congr 2; ring
        rw [e0]
        refine Real.le_sqrt_of_sq_le ?_
        have hx1 : |g - g'| ≤ 1e-4 := by rw [ga]; norm_num at *; linarith
        have c := Real.cos_bound (x := g - g') (hx1.trans (by norm_num))
        have e4 : |g - g'| ^ 4 = (g' - g) ^ 2 * (g' - g) ^ 2 := by rw [ga]; ring
        have e5 : (g' - g) ^ 2 ≤ 1e-8 := by rw [← ga]; norm_num at *; nlinarith [abs_nonneg (g - g')]
        rw [e4] at c
        have c' := (abs_le.1 c).2
        have e6 := mul_le_mul_of_nonneg_left e5 (sq_nonneg (g' - g))
        have e7 : (g - g') ^ 2 = (g' - g) ^ 2 := by ring
        rw [e7] at c'
        rw [mul_pow]
        norm_num at *
        linarith [sq_nonneg (g' - g)]
      norm_num at *
      linarith

end NavFuse.Props
