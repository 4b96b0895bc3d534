import Verif.Lemmas.Approx
import Verif.Lemmas.StrapdownEval

/-! # Rounding errors of one navigation step

The numerical bounds were produced by interval propagation; each line is checked here. -/

namespace NavFuse
open Spec NavUtils Gravity
variable [Machine] {r : ℝ → ℝ}

namespace Ap
variable {x x' : Rnd r} {y y' d d' M M' D N : ℝ}

theorem sq (_h : Rounds53 r) (a : Ap x y d M) (hD : d * (2 * M + d) + (M ^ 2 + d * (2 * M + d)) / 4e15 ≤ D) (hN : M ^ 2 ≤ N)
    (hp : 1e-50 ≤ M ^ 2 := by norm_num) :
    Ap (Flt.powi x 2) (y ^ 2) D N := by
  have e : |x.val ^ 2 - y ^ 2| ≤ d * (2 * M + d) := by
    rw [show x.val ^ 2 - y ^ 2 = (x.val - y) * (x.val + y) by ring, abs_mul]
    refine mul_le_mul a.err ?_ (abs_nonneg _) a.d_nonneg
    linarith [abs_add_le x.val y, a.val_le, a.mag]
  have m : |y ^ 2| ≤ M ^ 2 := by rw [abs_pow]; exact pow_le_pow_left₀ (abs_nonneg _) a.mag 2
  exact ⟨round (Machine.faithful .pow _ _) e m hD (.inl hp), m.trans hN⟩

omit [Machine] in
theorem sqrt_near {x y d s : ℝ} (hs : 0 < s) (hy : s ^ 2 ≤ y) (he : |x - y| ≤ d) : |Real.sqrt x - Real.sqrt y| ≤ d / s := by
  have y0 : 0 ≤ y := (sq_nonneg s).trans hy
  have hsy : s ≤ Real.sqrt y := Real.le_sqrt_of_sq_le hy
  have d0 : 0 ≤ d := (abs_nonneg _).trans he
  have hp : 0 < Real.sqrt x + Real.sqrt y := by linarith [Real.sqrt_nonneg x]
  rcases le_total 0 x with hx | hx
  · have e : (Real.sqrt x - Real.sqrt y) * (Real.sqrt x + Real.sqrt y) = x - y := by
      have h1 := Real.mul_self_sqrt hx
      have h2 := Real.mul_self_sqrt y0
      linarith [h1, h2, show (Real.sqrt x - Real.sqrt y) * (Real.sqrt x + Real.sqrt y) = Real.sqrt x * Real.sqrt x - Real.sqrt y * Real.sqrt y by ring]
    rw [le_div_iff₀ hs]
    calc |Real.sqrt x - Real.sqrt y| * s ≤ |Real.sqrt x - Real.sqrt y| * (Real.sqrt x + Real.sqrt y) :=
          mul_le_mul_of_nonneg_left (by linarith [Real.sqrt_nonneg x]) (abs_nonneg _)
      _ = |x - y| := by rw [← e, abs_mul, abs_of_pos hp]
      _ ≤ d := he
  · rw [Real.sqrt_eq_zero_of_nonpos hx, zero_sub, abs_neg, abs_of_nonneg (Real.sqrt_nonneg _), le_div_iff₀ hs]
    have h2 := Real.mul_self_sqrt y0
    have h3 : y ≤ d := by rw [abs_sub_comm] at he; linarith [le_abs_self (y - x)]
    nlinarith [Real.sqrt_nonneg y]

theorem sqrt (h : Rounds53 r) (a : Ap x y d M) {s : ℝ} (hs : 0 < s) (hy : s ^ 2 ≤ y) (hd : d / s ≤ d') (hM : M ≤ N ^ 2) (hD : d' + (N + d') / 4e15 ≤ D)
    (hN1 : 1e-50 ≤ N := by norm_num) : Ap (Flt.sqrt x) (Real.sqrt y) D N := by
  have m : |Real.sqrt y| ≤ N := by
    rw [abs_of_nonneg (Real.sqrt_nonneg _)]
    exact Real.sqrt_le_iff.2 ⟨le_trans (by norm_num) hN1, (le_abs_self y).trans (a.mag.trans hM)⟩
  exact ⟨round h ((sqrt_near hs hy a.err).trans hd) m hD (.inl hN1), m⟩

omit [Machine] in
theorem pow15_near {x y d : ℝ} (hd : d ≤ 1e-3) (hy : 0.99 ≤ y ∧ y ≤ 1) (he : |x - y| ≤ d) : |x ^ ((1.5 : ℚ) : ℝ) - y ^ ((1.5 : ℚ) : ℝ)| ≤ 3.2 * d := by
  have hx := abs_le.1 he
  rw [NavUtils.pow15 (by linarith), NavUtils.pow15 (by linarith)]
  have e := sqrt_near (x := x) (y := y) (s := 0.99) (by norm_num) (by norm_num; linarith) he
  have u1 : Real.sqrt x ≤ 1.001 := Real.sqrt_le_iff.2 ⟨by norm_num, by norm_num; linarith⟩
  have u2 : Real.sqrt y ≤ 1 := Real.sqrt_le_iff.2 ⟨by norm_num, by norm_num; linarith⟩
  have p1 := Real.sqrt_nonneg x
  have p2 := Real.sqrt_nonneg y
  have d0 : 0 ≤ d := (abs_nonneg _).trans he
  rw [show Real.sqrt x ^ 3 - Real.sqrt y ^ 3 = (Real.sqrt x - Real.sqrt y) * (Real.sqrt x ^ 2 + Real.sqrt x * Real.sqrt y + Real.sqrt y ^ 2) by ring, abs_mul]
  have q : |Real.sqrt x ^ 2 + Real.sqrt x * Real.sqrt y + Real.sqrt y ^ 2| ≤ 3.1 := by
    rw [abs_of_nonneg (by positivity)]; nlinarith
  calc _ ≤ d / 0.99 * 3.1 := mul_le_mul e q (abs_nonneg _) (by positivity)
    _ ≤ _ := by rw [div_mul_eq_mul_div, div_le_iff₀ (by norm_num)]; nlinarith

theorem pow15 (_h : Rounds53 r) (a : Ap x y d M) (hd : d ≤ 1e-3) (hy : 0.99 ≤ y ∧ y ≤ 1) (hD : 3.2 * d + (1 + 3.2 * d) / 4e15 ≤ D) :
    Ap (Flt.powq x 1.5) (y ^ ((1.5 : ℚ) : ℝ)) D 1 := by
  have m : |y ^ ((1.5 : ℚ) : ℝ)| ≤ 1 := by
    rw [abs_of_nonneg (Real.rpow_nonneg (by linarith) _)]
    exact Real.rpow_le_one (by linarith) hy.2 (by norm_num)
  exact ⟨round (Machine.faithful .pow _ _) (pow15_near hd hy a.err) m hD, m⟩

end Ap

namespace Aj
variable {X X' : Dbl r} {x x' : Rnd r} {y y' d d' M M' D N : ℝ}

theorem sq (h : Rounds53 r) (a : Aj X x y d M) (hD : d * (2 * M + d) + (M ^ 2 + d * (2 * M + d)) / 4e15 ≤ D) (hN : M ^ 2 ≤ N)
    (hp : 1e-50 ≤ M ^ 2 := by norm_num) (hv : N + D ≤ 1e200 := by norm_num) : Aj (Flt.powi X 2) (Flt.powi x 2) (y ^ 2) D N :=
  have c := Ap.sq h a.ap hD hN hp
  ⟨a.sim.powi 2 (small c hv), c⟩

theorem sqrt (h : Rounds53 r) (a : Aj X x y d M) {s : ℝ} (hs : 0 < s) (hy : s ^ 2 ≤ y) (hd : d / s ≤ d') (hM : M ≤ N ^ 2) (hD : d' + (N + d') / 4e15 ≤ D)
    (hN1 : 1e-50 ≤ N := by norm_num) (hds : d ≤ s ^ 2 := by norm_num) (hv : N + D ≤ 1e200 := by norm_num) :
    Aj (Flt.sqrt X) (Flt.sqrt x) (Real.sqrt y) D N :=
  have c := Ap.sqrt h a.ap hs hy hd hM hD hN1
  have h0 : 0 ≤ x.val := by have := (abs_le.1 a.err).1; linarith
  ⟨a.sim.sqrt h0 (small c hv), c⟩

theorem pow15 (h : Rounds53 r) (a : Aj X x y d M) (hd : d ≤ 1e-3) (hy : 0.99 ≤ y ∧ y ≤ 1) (hD : 3.2 * d + (1 + 3.2 * d) / 4e15 ≤ D)
    (hv : 1 + D ≤ 1e200 := by norm_num) : Aj (Flt.powq X 1.5) (Flt.powq x 1.5) (y ^ ((1.5 : ℚ) : ℝ)) D 1 :=
  have c := Ap.pow15 h a.ap hd hy hD
  have h0 : 0 < x.val := by
    have := (abs_le.1 a.err).1
    have := hy.1
    norm_num at *; linarith
  ⟨a.sim.powq 1.5 h0 (small c hv), c⟩

end Aj

/-! Bounds of the exact quantities. -/

omit [Machine] in
theorem w_range (φ : ℝ) : 0.99 ≤ (Flt.lit 1 : ℝ) - eSqG * Flt.powi (Flt.sin φ) 2 ∧ (Flt.lit 1 : ℝ) - eSqG * Flt.powi (Flt.sin φ) 2 ≤ 1 := by
  have e : (Flt.lit 1 : ℝ) - eSqG * Flt.powi (Flt.sin φ) 2 = 1 - ecc2 * Real.sin φ ^ 2 := by simp only [eSq_R, rsimp]
  rw [e]
  have h1 := Real.sin_sq_le_one φ
  have h2 := sq_nonneg (Real.sin φ)
  have h3 := ecc2_pos
  have h4 : ecc2 ≤ 0.0067 := by rw [ecc2_eq]; norm_num [flattening]
  constructor <;> nlinarith

omit [Machine] in
theorem merid_low (φ z : ℝ) (hz : |z| ≤ 20010) :
    6315000 ≤ |(a : ℝ) * (Flt.lit 1 - eSqG) / Flt.powq (Flt.lit 1 - eSqG * Flt.powi (Flt.sin φ) 2) 1.5 + z| := by
  obtain ⟨h1, h2⟩ := w_range φ
  have hp : 0 < ((Flt.lit 1 : ℝ) - eSqG * Flt.powi (Flt.sin φ) 2) ^ ((1.5 : ℚ) : ℝ) := Real.rpow_pos_of_pos (by linarith) _
  have hq : ((Flt.lit 1 : ℝ) - eSqG * Flt.powi (Flt.sin φ) 2) ^ ((1.5 : ℚ) : ℝ) ≤ 1 := Real.rpow_le_one (by linarith) h2 (by norm_num)
  have hn : (6335439 : ℝ) ≤ (a : ℝ) * (Flt.lit 1 - eSqG) := by
    rw [eSq_R, a_R, ecc2_eq]; simp only [rsimp]; norm_num [semiMajor, flattening]
  have : (6335439 : ℝ) ≤ (a : ℝ) * (Flt.lit 1 - eSqG) / Flt.powq (Flt.lit 1 - eSqG * Flt.powi (Flt.sin φ) 2) 1.5 := by
    show (6335439 : ℝ) ≤ (a : ℝ) * (Flt.lit 1 - eSqG) / ((Flt.lit 1 : ℝ) - eSqG * Flt.powi (Flt.sin φ) 2) ^ ((1.5 : ℚ) : ℝ)
    rw [le_div_iff₀ hp]; nlinarith
  obtain ⟨g1, g2⟩ := abs_le.1 hz
  rw [le_abs]; left; linarith

omit [Machine] in
theorem cos_low {φ : ℝ} (h : |φ| ≤ 1.251) : 0.311 ≤ Real.cos φ := by
  have h1 : Real.cos 1.251 ≤ Real.cos φ := by
    rw [← Real.cos_abs φ]
    exact Real.cos_le_cos_of_nonneg_of_le_pi (abs_nonneg _) (by linarith [Real.pi_gt_d4]) h
  have h2 : Real.sin 0.3197 ≤ Real.cos 1.251 := by
    rw [← Real.sin_pi_div_two_sub]
    exact Real.sin_le_sin_of_le_of_le_pi_div_two (by linarith [Real.pi_gt_d4]) (by linarith [Real.pi_gt_d4]) (by linarith [Real.pi_gt_d4])
  have h3 := Real.sin_gt_sub_cube (x := 0.3197) (by norm_num)
  norm_num at h3 h2 h1 ⊢
  linarith

omit [Machine] in
theorem prime_low (φ z : ℝ) (hφ : |φ| ≤ 1.251) (hz : |z| ≤ 20010) :
    1977000 ≤ |((a : ℝ) / Flt.sqrt (Flt.lit 1 - eSqG * Flt.powi (Flt.sin φ) 2) + z) * Flt.cos φ| := by
  obtain ⟨h1, h2⟩ := w_range φ
  have hp : 0 < Real.sqrt ((Flt.lit 1 : ℝ) - eSqG * Flt.powi (Flt.sin φ) 2) := Real.sqrt_pos.2 (by linarith)
  have hq : Real.sqrt ((Flt.lit 1 : ℝ) - eSqG * Flt.powi (Flt.sin φ) 2) ≤ 1 := Real.sqrt_le_one.2 h2
  have h3 : (6378137 : ℝ) ≤ (a : ℝ) / Flt.sqrt (Flt.lit 1 - eSqG * Flt.powi (Flt.sin φ) 2) := by
    show (6378137 : ℝ) ≤ (a : ℝ) / Real.sqrt ((Flt.lit 1 : ℝ) - eSqG * Flt.powi (Flt.sin φ) 2)
    rw [le_div_iff₀ hp, a_R, semiMajor]; linarith
  obtain ⟨g1, g2⟩ := abs_le.1 hz
  have h4 := cos_low hφ
  rw [le_abs]; left
  show (1977000 : ℝ) ≤ ((a : ℝ) / Flt.sqrt (Flt.lit 1 - eSqG * Flt.powi (Flt.sin φ) 2) + z) * Real.cos φ
  nlinarith

theorem eSq_ap (h : Rounds53 r) : Aj (eSqG : Dbl r) (eSqG : Rnd r) (eSqG : ℝ) 1009e-20 0.0067 := by
  have s1 : Aj _ _ _ 25e-17 1 := .lit h 1 (by norm_num [abs_of_pos]) (by norm_num)
  have s2 : Aj _ _ _ 7457e-17 298257222101e-9 := .lit h 298.257222101 (by norm_num [abs_of_pos]) (by norm_num)
  have s3 : Aj _ _ _ 2516e-21 3353e-6 := .div h s1 s2 (m := 298257222101e-9) (q := 1677e-21) (by norm_num [abs_of_pos]) (by norm_num) (by norm_num) (by norm_num) (by norm_num)
  have s4 : Aj _ _ _ 5e-16 2 := .lit h 2 (by norm_num [abs_of_pos]) (by norm_num)
  have s5 : Aj _ _ _ 8386e-21 6706e-6 := .mul h s4 s3 (by norm_num) (by norm_num)
  have s6 : Aj _ _ _ 1969e-23 1125e-8 := .sq h s3 (by norm_num) (by norm_num)
  have s7 : Aj _ _ _ 1009e-20 6718e-6 := .sub h s5 s6 (by norm_num) (by norm_num)
  refine ⟨s7.sim, s7.err, ?_⟩
  rw [eSq_R, abs_of_pos ecc2_pos, ecc2_eq]; norm_num [flattening]

theorem wE_ap (h : Rounds53 r) : Aj (wE : Dbl r) (wE : Rnd r) (wE : ℝ) 5471e-23 7293e-8 := by
  have s1 : Aj _ _ _ 1824e-18 7292115e-6 := .lit h 7.292115 (by norm_num [abs_of_pos]) (by norm_num)
  have s2 : Aj _ _ _ 25e-22 0.00001 := .lit h 1e-5 (by norm_num [abs_of_pos]) (by norm_num)
  have s3 : Aj _ _ _ 5471e-23 7293e-8 := .mul h s1 s2 (by norm_num) (by norm_num)
  exact s3

omit [Machine] in
theorem pow15_low (φ : ℝ) : 0.98 ≤ |((Flt.lit 1 : ℝ) - eSqG * Flt.powi (Flt.sin φ) 2) ^ ((1.5 : ℚ) : ℝ)| := by
  obtain ⟨h1, h2⟩ := w_range φ
  rw [abs_of_nonneg (Real.rpow_nonneg (by linarith) _), NavUtils.pow15 (by linarith)]
  have : 0.994 ≤ Real.sqrt ((Flt.lit 1 : ℝ) - eSqG * Flt.powi (Flt.sin φ) 2) := Real.le_sqrt_of_sq_le (by norm_num at h1 ⊢; linarith)
  calc (0.98 : ℝ) ≤ 0.994 ^ 3 := by norm_num
    _ ≤ _ := pow_le_pow_left₀ (by norm_num) this 3

theorem radii_ap (h : Rounds53 r) {X : Dbl r} {x : Rnd r} {y : ℝ} (y0 : Aj X x y 13e-16 1.251) :
    Aj (a / Flt.sqrt (Flt.lit 1 - eSqG * Flt.powi (Flt.sin X) 2)) (a / Flt.sqrt (Flt.lit 1 - eSqG * Flt.powi (Flt.sin x) 2)) ((a : ℝ) / Flt.sqrt (Flt.lit 1 - eSqG * Flt.powi (Flt.sin y) 2)) 8374e-12 6443000
    ∧ Aj (a * (Flt.lit 1 - eSqG) / Flt.powq (Flt.lit 1 - eSqG * Flt.powi (Flt.sin X) 2) 1.5)
        (a * (Flt.lit 1 - eSqG) / Flt.powq (Flt.lit 1 - eSqG * Flt.powi (Flt.sin x) 2) 1.5)
        ((a : ℝ) * (Flt.lit 1 - eSqG) / Flt.powq (Flt.lit 1 - eSqG * Flt.powi (Flt.sin y) 2) 1.5) 2141e-11 6555000 := by
  have es := eSq_ap h
  have s1 : Aj _ _ _ 1551e-18 1 := .sin h y0 (by norm_num)
  have s2 : Aj _ _ _ 1551e-18 1 := .cos h y0 (by norm_num)
  have s3 : Aj _ _ _ 3353e-18 1 := .sq h s1 (by norm_num) (by norm_num)
  have s4 : Aj _ _ _ 3424e-20 0.0067 := .mul h es s3 (by norm_num) (by norm_num)
  have s5 : Aj _ _ _ 25e-17 1 := .lit h 1 (by norm_num [abs_of_pos]) (by norm_num)
  have s6 : Aj _ _ _ 536e-18 1.007 := .sub h s5 s4 (by norm_num) (by norm_num)
  have s7 : Aj _ _ _ 536e-18 1 := s6.bound (abs_le.2 ⟨le_trans (by norm_num) (w_range y).1, (w_range y).2⟩)
  have s8 : Aj _ _ _ 7916e-19 1 := .sqrt h s7 (s := 0.99) (d' := 5415e-19) (by norm_num) (le_trans (by norm_num) (w_range y).1) (by norm_num) (by norm_num) (by norm_num)
  have s9 : Aj _ _ _ 1595e-12 6378137 := .lit h 6378137 (by norm_num [abs_of_pos]) (by norm_num)
  have s10 : Aj _ _ _ 8374e-12 6443000 := .div h s9 s8 (m := 0.99) (q := 6763e-12) (by rw [abs_of_nonneg (Real.sqrt_nonneg _)]; exact Real.le_sqrt_of_sq_le (le_trans (by norm_num) (w_range y).1)) (by norm_num) (by norm_num) (by norm_num) (by norm_num)
  have s11 : Aj _ _ _ 1967e-18 1 := .pow15 h s7 (by norm_num) (w_range y) (by norm_num)
  have s12 : Aj _ _ _ 25e-17 1 := .lit h 1 (by norm_num [abs_of_pos]) (by norm_num)
  have s13 : Aj _ _ _ 5118e-19 1.007 := .sub h s12 es (by norm_num) (by norm_num)
  have s14 : Aj _ _ _ 6477e-12 6423000 := .mul h s9 s13 (by norm_num) (by norm_num)
  have s15 : Aj _ _ _ 2141e-11 6555000 := .div h s14 s11 (m := 0.98) (q := 1977e-11) (pow15_low y) (by norm_num) (by norm_num) (by norm_num) (by norm_num)
  exact ⟨s10, s15⟩

/-- the rates -/
theorem dyn_ap (h : Rounds53 r) {DVN GN : V3 (Dbl r)} {DT : Dbl r} {Y : Fin 6 → Dbl r} {dVN gN : V3 (Rnd r)} {dt : Rnd r} {y : Fin 6 → Rnd r} {dVN' gN' : V3 ℝ} {dt' : ℝ} {y' : Fin 6 → ℝ}
    (y0 : Aj (Y 0) (y 0) (y' 0) 13e-16 1.251) (y2 : Aj (Y 2) (y 2) (y' 2) 2e-11 20010)
    (y3 : Aj (Y 3) (y 3) (y' 3) 1e-12 305) (y4 : Aj (Y 4) (y 4) (y' 4) 1e-12 305) (y5 : Aj (Y 5) (y 5) (y' 5) 1e-12 305)
    (a0 : Aj (DVN 0 / DT) (dVN 0 / dt) (dVN' 0 / dt') 1e-11 56) (a1 : Aj (DVN 1 / DT) (dVN 1 / dt) (dVN' 1 / dt') 1e-11 56)
    (a2 : Aj (DVN 2 / DT) (dVN 2 / dt) (dVN' 2 / dt') 1e-11 56)
    (g0 : Aj (GN 0) (gN 0) (gN' 0) 2e-13 11) (g1 : Aj (GN 1) (gN 1) (gN' 1) 2e-13 11) (g2 : Aj (GN 2) (gN 2) (gN' 2) 2e-13 11) :
    Aj (dynG DVN GN DT Y 0) (dynG dVN gN dt y 0) (dynG dVN' gN' dt' y' 0) 347e-21 483e-7 ∧ Aj (dynG DVN GN DT Y 1) (dynG dVN gN dt y 1) (dynG dVN' gN' dt' y' 1) 2236e-21 1543e-7
    ∧ Aj (dynG DVN GN DT Y 2) (dynG dVN gN dt y 2) (dynG dVN' gN' dt' y' 2) 1e-12 305 ∧ Aj (dynG DVN GN DT Y 3) (dynG dVN gN dt y 3) (dynG dVN' gN' dt' y' 3) 1028e-14 67.12
    ∧ Aj (dynG DVN GN DT Y 4) (dynG dVN gN dt y 4) (dynG dVN' gN' dt' y' 4) 103e-13 67.2 ∧ Aj (dynG DVN GN DT Y 5) (dynG dVN gN dt y 5) (dynG dVN' gN' dt' y' 5) 1028e-14 67.12 := by
  obtain ⟨hN, hM⟩ := radii_ap h y0
  have we := wE_ap h
  have s1 : Aj _ _ _ 1551e-18 1 := .sin h y0 (by norm_num)
  have s2 : Aj _ _ _ 1551e-18 1 := .cos h y0 (by norm_num)
  have s3 : Aj _ _ _ 2308e-11 6576000 := .add h hM y2 (by norm_num) (by norm_num)
  have s4 : Aj _ _ _ 347e-21 483e-7 := .div h y3 s3 (m := 6315000) (q := 3349e-22) (merid_low _ _ y2.mag) (by norm_num) (by norm_num) (by norm_num) (by norm_num)
  have s5 : Aj _ _ _ 1001e-11 6464000 := .add h hN y2 (by norm_num) (by norm_num)
  have s6 : Aj _ _ _ 2166e-11 6464000 := .mul h s5 s2 (by norm_num) (by norm_num)
  have s7 : Aj _ _ _ 2236e-21 1543e-7 := .div h y4 s6 (m := 1977000) (q := 2197e-21) (prime_low _ _ y0.mag y2.mag) (by norm_num) (by norm_num) (by norm_num) (by norm_num)
  have s8 : Aj _ _ _ 5e-16 2 := .lit h 2 (by norm_num [abs_of_pos]) (by norm_num)
  have s9 : Aj _ _ _ 1e-12 305 := .neg y5
  have s10 : Aj _ _ _ 1824e-22 1459e-7 := .mul h s8 we (by norm_num) (by norm_num)
  have s11 : Aj _ _ _ 1022e-14 67 := .add h a0 g0 (by norm_num) (by norm_num)
  have s12 : Aj _ _ _ 4452e-22 1459e-7 := .mul h s10 s1 (by norm_num) (by norm_num)
  have s13 : Aj _ _ _ 2929e-19 0.0445 := .mul h s12 y4 (by norm_num) (by norm_num)
  have s14 : Aj _ _ _ 1024e-14 67.05 := .sub h s11 s13 (by norm_num) (by norm_num)
  have s15 : Aj _ _ _ 1579e-19 0.01474 := .mul h s4 y5 (by norm_num) (by norm_num)
  have s16 : Aj _ _ _ 1026e-14 67.07 := .add h s14 s15 (by norm_num) (by norm_num)
  have s17 : Aj _ _ _ 2514e-21 1543e-7 := .mul h s7 s1 (by norm_num) (by norm_num)
  have s18 : Aj _ _ _ 9329e-19 0.04707 := .mul h s17 y4 (by norm_num) (by norm_num)
  have s19 : Aj _ _ _ 1028e-14 67.12 := .sub h s16 s18 (by norm_num) (by norm_num)
  have s20 : Aj _ _ _ 1022e-14 67 := .add h a1 g1 (by norm_num) (by norm_num)
  have s21 : Aj _ _ _ 4452e-22 1459e-7 := .mul h s10 s1 (by norm_num) (by norm_num)
  have s22 : Aj _ _ _ 2929e-19 0.0445 := .mul h s21 y3 (by norm_num) (by norm_num)
  have s23 : Aj _ _ _ 1024e-14 67.05 := .add h s20 s22 (by norm_num) (by norm_num)
  have s24 : Aj _ _ _ 4452e-22 1459e-7 := .mul h s10 s2 (by norm_num) (by norm_num)
  have s25 : Aj _ _ _ 2929e-19 0.0445 := .mul h s24 y5 (by norm_num) (by norm_num)
  have s26 : Aj _ _ _ 1026e-14 67.1 := .add h s23 s25 (by norm_num) (by norm_num)
  have s27 : Aj _ _ _ 2514e-21 1543e-7 := .mul h s7 s1 (by norm_num) (by norm_num)
  have s28 : Aj _ _ _ 9329e-19 0.04707 := .mul h s27 y3 (by norm_num) (by norm_num)
  have s29 : Aj _ _ _ 1028e-14 67.15 := .add h s26 s28 (by norm_num) (by norm_num)
  have s30 : Aj _ _ _ 2514e-21 1543e-7 := .mul h s7 s2 (by norm_num) (by norm_num)
  have s31 : Aj _ _ _ 9329e-19 0.04707 := .mul h s30 y5 (by norm_num) (by norm_num)
  have s32 : Aj _ _ _ 103e-13 67.2 := .add h s29 s31 (by norm_num) (by norm_num)
  have s33 : Aj _ _ _ 1022e-14 67 := .add h a2 g2 (by norm_num) (by norm_num)
  have s34 : Aj _ _ _ 4452e-22 1459e-7 := .mul h s10 s2 (by norm_num) (by norm_num)
  have s35 : Aj _ _ _ 2929e-19 0.0445 := .mul h s34 y4 (by norm_num) (by norm_num)
  have s36 : Aj _ _ _ 1024e-14 67.05 := .sub h s33 s35 (by norm_num) (by norm_num)
  have s37 : Aj _ _ _ 2514e-21 1543e-7 := .mul h s7 s2 (by norm_num) (by norm_num)
  have s38 : Aj _ _ _ 9329e-19 0.04707 := .mul h s37 y4 (by norm_num) (by norm_num)
  have s39 : Aj _ _ _ 1026e-14 67.1 := .sub h s36 s38 (by norm_num) (by norm_num)
  have s40 : Aj _ _ _ 1579e-19 0.01474 := .mul h s4 y3 (by norm_num) (by norm_num)
  have s41 : Aj _ _ _ 1028e-14 67.12 := .sub h s39 s40 (by norm_num) (by norm_num)
  exact ⟨s4, s7, s9, s19, s32, s41⟩

set_option maxHeartbeats 1600000 in
/-- one Runge-Kutta step -/
theorem rk4_ap (h : Rounds53 r) {DVN GN : V3 (Dbl r)} {DT : Dbl r} {Y : Fin 6 → Dbl r} {dVN gN : V3 (Rnd r)} {dt : Rnd r} {y : Fin 6 → Rnd r} {dVN' gN' : V3 ℝ} {dt' : ℝ} {y' : Fin 6 → ℝ}
    (y0 : Aj (Y 0) (y 0) (y' 0) 0 1.25) (y1 : Aj (Y 1) (y 1) (y' 1) 0 4) (y2 : Aj (Y 2) (y 2) (y' 2) 0 20000)
    (y3 : Aj (Y 3) (y 3) (y' 3) 0 300) (y4 : Aj (Y 4) (y 4) (y' 4) 0 300) (y5 : Aj (Y 5) (y 5) (y' 5) 0 300) (hdt : Aj DT dt dt' 5e-18 0.02)
    (a0 : Aj (DVN 0 / DT) (dVN 0 / dt) (dVN' 0 / dt') 1e-11 56) (a1 : Aj (DVN 1 / DT) (dVN 1 / dt) (dVN' 1 / dt') 1e-11 56)
    (a2 : Aj (DVN 2 / DT) (dVN 2 / dt) (dVN' 2 / dt') 1e-11 56)
    (g0 : Aj (GN 0) (gN 0) (gN' 0) 2e-13 11) (g1 : Aj (GN 1) (gN 1) (gN' 1) 2e-13 11) (g2 : Aj (GN 2) (gN 2) (gN' 2) 2e-13 11) :
    Aj (rk4G DVN GN DT Y 0) (rk4G dVN gN dt y 0) (rk4G dVN' gN' dt' y' 0) 1252e-18 1.254 ∧ Aj (rk4G DVN GN DT Y 1) (rk4G dVN gN dt y 1) (rk4G dVN' gN' dt' y' 1) 4004e-18 4.004 ∧ Aj (rk4G DVN GN DT Y 2) (rk4G dVN gN dt y 2) (rk4G dVN' gN' dt' y' 2) 2006e-14 20040 ∧ Aj (rk4G DVN GN DT Y 3) (rk4G dVN gN dt y 3) (rk4G dVN' gN' dt' y' 3) 5089e-16 301.6 ∧ Aj (rk4G DVN GN DT Y 4) (rk4G dVN gN dt y 4) (rk4G dVN' gN' dt' y' 4) 5092e-16 301.6 ∧ Aj (rk4G DVN GN DT Y 5) (rk4G dVN gN dt y 5) (rk4G dVN' gN' dt' y' 5) 5089e-16 301.6 := by
  have s1 : Aj _ _ _ 5e-16 2 := .lit h 2 (by norm_num [abs_of_pos]) (by norm_num)
  have s2 : Aj _ _ _ 25e-17 1 := .lit h 1 (by norm_num [abs_of_pos]) (by norm_num)
  have s3 : Aj _ _ _ 15e-16 6 := .lit h 6 (by norm_num [abs_of_pos]) (by norm_num)
  have s4 : Aj _ _ _ 75e-17 3 := .lit h 3 (by norm_num [abs_of_pos]) (by norm_num)
  obtain ⟨f10, f11, f12, f13, f14, f15⟩ := dyn_ap h (DVN := DVN) (GN := GN) (DT := DT) (Y := Y) (dVN := dVN) (gN := gN) (dt := dt) (y := y) (dVN' := dVN') (gN' := gN') (dt' := dt') (y' := y')
    (y0.mono (by norm_num) (by norm_num)) (y2.mono (by norm_num) (by norm_num)) (y3.mono (by norm_num) (by norm_num)) (y4.mono (by norm_num) (by norm_num)) (y5.mono (by norm_num) (by norm_num)) a0 a1 a2 g0 g1 g2
  have s5 : Aj _ _ _ 7424e-24 966e-9 := .mul h hdt f10 (by norm_num) (by norm_num)
  have s6 : Aj _ _ _ 4627e-23 3086e-9 := .mul h hdt f11 (by norm_num) (by norm_num)
  have s7 : Aj _ _ _ 2306e-17 6.1 := .mul h hdt f12 (by norm_num) (by norm_num)
  have s8 : Aj _ _ _ 2063e-16 1.343 := .mul h hdt f13 (by norm_num) (by norm_num)
  have s9 : Aj _ _ _ 2067e-16 1.344 := .mul h hdt f14 (by norm_num) (by norm_num)
  have s10 : Aj _ _ _ 2063e-16 1.343 := .mul h hdt f15 (by norm_num) (by norm_num)
  set L1 := vsmul DT (dynG DVN GN DT Y) with hL1
  set K1 := vsmul dt (dynG dVN gN dt y) with hK1
  set K1' := vsmul dt' (dynG dVN' gN' dt' y') with hK1'
  have s11 : Aj _ _ _ 3954e-24 483e-9 := .div h s5 s1 (m := 2) (q := 3833e-24) (by norm_num [abs_of_pos]) (by norm_num) (by norm_num) (by norm_num) (by norm_num)
  have s12 : Aj _ _ _ 3126e-19 1.251 := .add h y0 s11 (by norm_num) (by norm_num)
  have s13 : Aj _ _ _ 2392e-23 1543e-9 := .div h s6 s1 (m := 2) (q := 2353e-23) (by norm_num [abs_of_pos]) (by norm_num) (by norm_num) (by norm_num) (by norm_num)
  have s14 : Aj _ _ _ 1001e-18 4.001 := .add h y1 s13 (by norm_num) (by norm_num)
  have s15 : Aj _ _ _ 1307e-17 3.05 := .div h s7 s1 (m := 2) (q := 123e-16) (by norm_num [abs_of_pos]) (by norm_num) (by norm_num) (by norm_num) (by norm_num)
  have s16 : Aj _ _ _ 5014e-15 20010 := .add h y2 s15 (by norm_num) (by norm_num)
  have s17 : Aj _ _ _ 1036e-16 0.6715 := .div h s8 s1 (m := 2) (q := 1034e-16) (by norm_num [abs_of_pos]) (by norm_num) (by norm_num) (by norm_num) (by norm_num)
  have s18 : Aj _ _ _ 1788e-16 300.7 := .add h y3 s17 (by norm_num) (by norm_num)
  have s19 : Aj _ _ _ 1038e-16 0.672 := .div h s9 s1 (m := 2) (q := 1036e-16) (by norm_num [abs_of_pos]) (by norm_num) (by norm_num) (by norm_num) (by norm_num)
  have s20 : Aj _ _ _ 179e-15 300.7 := .add h y4 s19 (by norm_num) (by norm_num)
  have s21 : Aj _ _ _ 1036e-16 0.6715 := .div h s10 s1 (m := 2) (q := 1034e-16) (by norm_num [abs_of_pos]) (by norm_num) (by norm_num) (by norm_num) (by norm_num)
  have s22 : Aj _ _ _ 1788e-16 300.7 := .add h y5 s21 (by norm_num) (by norm_num)
  obtain ⟨f20, f21, f22, f23, f24, f25⟩ := dyn_ap h (DVN := DVN) (GN := GN) (DT := DT) (Y := (vadd Y (vdiv L1 (Flt.lit 2)))) (dVN := dVN) (gN := gN) (dt := dt) (y := (vadd y (vdiv K1 (Flt.lit 2)))) (dVN' := dVN') (gN' := gN') (dt' := dt') (y' := (vadd y' (vdiv K1' (Flt.lit 2))))
    (s12.mono (by norm_num) (by norm_num)) (s16.mono (by norm_num) (by norm_num)) (s18.mono (by norm_num) (by norm_num)) (s20.mono (by norm_num) (by norm_num)) (s22.mono (by norm_num) (by norm_num)) a0 a1 a2 g0 g1 g2
  have s23 : Aj _ _ _ 7424e-24 966e-9 := .mul h hdt f20 (by norm_num) (by norm_num)
  have s24 : Aj _ _ _ 4627e-23 3086e-9 := .mul h hdt f21 (by norm_num) (by norm_num)
  have s25 : Aj _ _ _ 2306e-17 6.1 := .mul h hdt f22 (by norm_num) (by norm_num)
  have s26 : Aj _ _ _ 2063e-16 1.343 := .mul h hdt f23 (by norm_num) (by norm_num)
  have s27 : Aj _ _ _ 2067e-16 1.344 := .mul h hdt f24 (by norm_num) (by norm_num)
  have s28 : Aj _ _ _ 2063e-16 1.343 := .mul h hdt f25 (by norm_num) (by norm_num)
  set L2 := vsmul DT (dynG DVN GN DT (vadd Y (vdiv L1 (Flt.lit 2)))) with hL2
  set K2 := vsmul dt (dynG dVN gN dt (vadd y (vdiv K1 (Flt.lit 2)))) with hK2
  set K2' := vsmul dt' (dynG dVN' gN' dt' (vadd y' (vdiv K1' (Flt.lit 2)))) with hK2'
  have s29 : Aj _ _ _ 3954e-24 483e-9 := .div h s23 s1 (m := 2) (q := 3833e-24) (by norm_num [abs_of_pos]) (by norm_num) (by norm_num) (by norm_num) (by norm_num)
  have s30 : Aj _ _ _ 3126e-19 1.251 := .add h y0 s29 (by norm_num) (by norm_num)
  have s31 : Aj _ _ _ 2392e-23 1543e-9 := .div h s24 s1 (m := 2) (q := 2353e-23) (by norm_num [abs_of_pos]) (by norm_num) (by norm_num) (by norm_num) (by norm_num)
  have s32 : Aj _ _ _ 1001e-18 4.001 := .add h y1 s31 (by norm_num) (by norm_num)
  have s33 : Aj _ _ _ 1307e-17 3.05 := .div h s25 s1 (m := 2) (q := 123e-16) (by norm_num [abs_of_pos]) (by norm_num) (by norm_num) (by norm_num) (by norm_num)
  have s34 : Aj _ _ _ 5014e-15 20010 := .add h y2 s33 (by norm_num) (by norm_num)
  have s35 : Aj _ _ _ 1036e-16 0.6715 := .div h s26 s1 (m := 2) (q := 1034e-16) (by norm_num [abs_of_pos]) (by norm_num) (by norm_num) (by norm_num) (by norm_num)
  have s36 : Aj _ _ _ 1788e-16 300.7 := .add h y3 s35 (by norm_num) (by norm_num)
  have s37 : Aj _ _ _ 1038e-16 0.672 := .div h s27 s1 (m := 2) (q := 1036e-16) (by norm_num [abs_of_pos]) (by norm_num) (by norm_num) (by norm_num) (by norm_num)
  have s38 : Aj _ _ _ 179e-15 300.7 := .add h y4 s37 (by norm_num) (by norm_num)
  have s39 : Aj _ _ _ 1036e-16 0.6715 := .div h s28 s1 (m := 2) (q := 1034e-16) (by norm_num [abs_of_pos]) (by norm_num) (by norm_num) (by norm_num) (by norm_num)
  have s40 : Aj _ _ _ 1788e-16 300.7 := .add h y5 s39 (by norm_num) (by norm_num)
  obtain ⟨f30, f31, f32, f33, f34, f35⟩ := dyn_ap h (DVN := DVN) (GN := GN) (DT := DT) (Y := (vadd Y (vdiv L2 (Flt.lit 2)))) (dVN := dVN) (gN := gN) (dt := dt) (y := (vadd y (vdiv K2 (Flt.lit 2)))) (dVN' := dVN') (gN' := gN') (dt' := dt') (y' := (vadd y' (vdiv K2' (Flt.lit 2))))
    (s30.mono (by norm_num) (by norm_num)) (s34.mono (by norm_num) (by norm_num)) (s36.mono (by norm_num) (by norm_num)) (s38.mono (by norm_num) (by norm_num)) (s40.mono (by norm_num) (by norm_num)) a0 a1 a2 g0 g1 g2
  have s41 : Aj _ _ _ 7424e-24 966e-9 := .mul h hdt f30 (by norm_num) (by norm_num)
  have s42 : Aj _ _ _ 4627e-23 3086e-9 := .mul h hdt f31 (by norm_num) (by norm_num)
  have s43 : Aj _ _ _ 2306e-17 6.1 := .mul h hdt f32 (by norm_num) (by norm_num)
  have s44 : Aj _ _ _ 2063e-16 1.343 := .mul h hdt f33 (by norm_num) (by norm_num)
  have s45 : Aj _ _ _ 2067e-16 1.344 := .mul h hdt f34 (by norm_num) (by norm_num)
  have s46 : Aj _ _ _ 2063e-16 1.343 := .mul h hdt f35 (by norm_num) (by norm_num)
  set L3 := vsmul DT (dynG DVN GN DT (vadd Y (vdiv L2 (Flt.lit 2)))) with hL3
  set K3 := vsmul dt (dynG dVN gN dt (vadd y (vdiv K2 (Flt.lit 2)))) with hK3
  set K3' := vsmul dt' (dynG dVN' gN' dt' (vadd y' (vdiv K2' (Flt.lit 2)))) with hK3'
  have s47 : Aj _ _ _ 3126e-19 1.251 := .add h y0 s41 (by norm_num) (by norm_num)
  have s48 : Aj _ _ _ 1001e-18 4.001 := .add h y1 s42 (by norm_num) (by norm_num)
  have s49 : Aj _ _ _ 5025e-15 20010 := .add h y2 s43 (by norm_num) (by norm_num)
  have s50 : Aj _ _ _ 2817e-16 301.4 := .add h y3 s44 (by norm_num) (by norm_num)
  have s51 : Aj _ _ _ 2821e-16 301.4 := .add h y4 s45 (by norm_num) (by norm_num)
  have s52 : Aj _ _ _ 2817e-16 301.4 := .add h y5 s46 (by norm_num) (by norm_num)
  obtain ⟨f40, f41, f42, f43, f44, f45⟩ := dyn_ap h (DVN := DVN) (GN := GN) (DT := DT) (Y := (vadd Y L3)) (dVN := dVN) (gN := gN) (dt := dt) (y := (vadd y K3)) (dVN' := dVN') (gN' := gN') (dt' := dt') (y' := (vadd y' K3'))
    (s47.mono (by norm_num) (by norm_num)) (s49.mono (by norm_num) (by norm_num)) (s50.mono (by norm_num) (by norm_num)) (s51.mono (by norm_num) (by norm_num)) (s52.mono (by norm_num) (by norm_num)) a0 a1 a2 g0 g1 g2
  have s53 : Aj _ _ _ 7424e-24 966e-9 := .mul h hdt f40 (by norm_num) (by norm_num)
  have s54 : Aj _ _ _ 4627e-23 3086e-9 := .mul h hdt f41 (by norm_num) (by norm_num)
  have s55 : Aj _ _ _ 2306e-17 6.1 := .mul h hdt f42 (by norm_num) (by norm_num)
  have s56 : Aj _ _ _ 2063e-16 1.343 := .mul h hdt f43 (by norm_num) (by norm_num)
  have s57 : Aj _ _ _ 2067e-16 1.344 := .mul h hdt f44 (by norm_num) (by norm_num)
  have s58 : Aj _ _ _ 2063e-16 1.343 := .mul h hdt f45 (by norm_num) (by norm_num)
  have s59 : Aj _ _ _ 1251e-19 0.1667 := .div h s2 s3 (m := 6) (q := 8334e-20) (by norm_num [abs_of_pos]) (by norm_num) (by norm_num) (by norm_num) (by norm_num)
  have s60 : Aj _ _ _ 2501e-19 0.3334 := .div h s2 s4 (m := 3) (q := 1667e-19) (by norm_num [abs_of_pos]) (by norm_num) (by norm_num) (by norm_num) (by norm_num)
  have s61 : Aj _ _ _ 1399e-24 1611e-10 := .mul h s59 s5 (by norm_num) (by norm_num)
  have s62 : Aj _ _ _ 3126e-19 1.251 := .add h y0 s61 (by norm_num) (by norm_num)
  have s63 : Aj _ _ _ 2798e-24 3221e-10 := .mul h s60 s23 (by norm_num) (by norm_num)
  have s64 : Aj _ _ _ 6254e-19 1.252 := .add h s62 s63 (by norm_num) (by norm_num)
  have s65 : Aj _ _ _ 2798e-24 3221e-10 := .mul h s60 s41 (by norm_num) (by norm_num)
  have s66 : Aj _ _ _ 9385e-19 1.253 := .add h s64 s65 (by norm_num) (by norm_num)
  have s67 : Aj _ _ _ 1399e-24 1611e-10 := .mul h s59 s53 (by norm_num) (by norm_num)
  have s68 : Aj _ _ _ 1252e-18 1.254 := .add h s66 s67 (by norm_num) (by norm_num)
  have s69 : Aj _ _ _ 8228e-24 5145e-10 := .mul h s59 s6 (by norm_num) (by norm_num)
  have s70 : Aj _ _ _ 1001e-18 4.001 := .add h y1 s69 (by norm_num) (by norm_num)
  have s71 : Aj _ _ _ 1646e-23 1029e-9 := .mul h s60 s24 (by norm_num) (by norm_num)
  have s72 : Aj _ _ _ 2002e-18 4.002 := .add h s70 s71 (by norm_num) (by norm_num)
  have s73 : Aj _ _ _ 1646e-23 1029e-9 := .mul h s60 s42 (by norm_num) (by norm_num)
  have s74 : Aj _ _ _ 3003e-18 4.003 := .add h s72 s73 (by norm_num) (by norm_num)
  have s75 : Aj _ _ _ 8228e-24 5145e-10 := .mul h s59 s54 (by norm_num) (by norm_num)
  have s76 : Aj _ _ _ 4004e-18 4.004 := .add h s74 s75 (by norm_num) (by norm_num)
  have s77 : Aj _ _ _ 4862e-18 1.017 := .mul h s59 s7 (by norm_num) (by norm_num)
  have s78 : Aj _ _ _ 5006e-15 20010 := .add h y2 s77 (by norm_num) (by norm_num)
  have s79 : Aj _ _ _ 9723e-18 2.034 := .mul h s60 s25 (by norm_num) (by norm_num)
  have s80 : Aj _ _ _ 1002e-14 20020 := .add h s78 s79 (by norm_num) (by norm_num)
  have s81 : Aj _ _ _ 9723e-18 2.034 := .mul h s60 s43 (by norm_num) (by norm_num)
  have s82 : Aj _ _ _ 1504e-14 20030 := .add h s80 s81 (by norm_num) (by norm_num)
  have s83 : Aj _ _ _ 4862e-18 1.017 := .mul h s59 s55 (by norm_num) (by norm_num)
  have s84 : Aj _ _ _ 2006e-14 20040 := .add h s82 s83 (by norm_num) (by norm_num)
  have s85 : Aj _ _ _ 3462e-17 0.2239 := .mul h s59 s8 (by norm_num) (by norm_num)
  have s86 : Aj _ _ _ 1097e-16 300.3 := .add h y3 s85 (by norm_num) (by norm_num)
  have s87 : Aj _ _ _ 6923e-17 0.4478 := .mul h s60 s26 (by norm_num) (by norm_num)
  have s88 : Aj _ _ _ 2542e-16 300.8 := .add h s86 s87 (by norm_num) (by norm_num)
  have s89 : Aj _ _ _ 6923e-17 0.4478 := .mul h s60 s44 (by norm_num) (by norm_num)
  have s90 : Aj _ _ _ 3988e-16 301.3 := .add h s88 s89 (by norm_num) (by norm_num)
  have s91 : Aj _ _ _ 3462e-17 0.2239 := .mul h s59 s56 (by norm_num) (by norm_num)
  have s92 : Aj _ _ _ 5089e-16 301.6 := .add h s90 s91 (by norm_num) (by norm_num)
  have s93 : Aj _ _ _ 3469e-17 0.2241 := .mul h s59 s9 (by norm_num) (by norm_num)
  have s94 : Aj _ _ _ 1098e-16 300.3 := .add h y4 s93 (by norm_num) (by norm_num)
  have s95 : Aj _ _ _ 6937e-17 0.4481 := .mul h s60 s27 (by norm_num) (by norm_num)
  have s96 : Aj _ _ _ 2544e-16 300.8 := .add h s94 s95 (by norm_num) (by norm_num)
  have s97 : Aj _ _ _ 6937e-17 0.4481 := .mul h s60 s45 (by norm_num) (by norm_num)
  have s98 : Aj _ _ _ 3991e-16 301.3 := .add h s96 s97 (by norm_num) (by norm_num)
  have s99 : Aj _ _ _ 3469e-17 0.2241 := .mul h s59 s57 (by norm_num) (by norm_num)
  have s100 : Aj _ _ _ 5092e-16 301.6 := .add h s98 s99 (by norm_num) (by norm_num)
  have s101 : Aj _ _ _ 3462e-17 0.2239 := .mul h s59 s10 (by norm_num) (by norm_num)
  have s102 : Aj _ _ _ 1097e-16 300.3 := .add h y5 s101 (by norm_num) (by norm_num)
  have s103 : Aj _ _ _ 6923e-17 0.4478 := .mul h s60 s28 (by norm_num) (by norm_num)
  have s104 : Aj _ _ _ 2542e-16 300.8 := .add h s102 s103 (by norm_num) (by norm_num)
  have s105 : Aj _ _ _ 6923e-17 0.4478 := .mul h s60 s46 (by norm_num) (by norm_num)
  have s106 : Aj _ _ _ 3988e-16 301.3 := .add h s104 s105 (by norm_num) (by norm_num)
  have s107 : Aj _ _ _ 3462e-17 0.2239 := .mul h s59 s58 (by norm_num) (by norm_num)
  have s108 : Aj _ _ _ 5089e-16 301.6 := .add h s106 s107 (by norm_num) (by norm_num)
  exact ⟨s68, s76, s84, s92, s100, s108⟩

omit [Machine] in
theorem den_low (φ : ℝ) : (6356752 : ℝ) ^ 2 ≤ ((6378137 : ℚ) : ℝ) ^ 2 * Real.cos φ ^ 2 + ((6356752.3141 : ℚ) : ℝ) ^ 2 * Real.sin φ ^ 2 := by
  have h1 := Real.sin_sq_add_cos_sq φ
  have h2 := sq_nonneg (Real.sin φ)
  have h3 := sq_nonneg (Real.cos φ)
  norm_num
  nlinarith

omit [Machine] in
theorem gell_le (φ : ℝ) : |(((6378137 : ℚ) : ℝ) * ((9.7803267715 : ℚ) : ℝ) * Real.cos φ ^ 2 + ((6356752.3141 : ℚ) : ℝ) * ((9.8321863685 : ℚ) : ℝ) * Real.sin φ ^ 2)
    / Real.sqrt (((6378137 : ℚ) : ℝ) ^ 2 * Real.cos φ ^ 2 + ((6356752.3141 : ℚ) : ℝ) ^ 2 * Real.sin φ ^ 2)| ≤ 9.84 := by
  have h1 := Real.sin_sq_add_cos_sq φ
  have h2 := sq_nonneg (Real.sin φ)
  have h3 := sq_nonneg (Real.cos φ)
  have hd := den_low φ
  have hc : (6378137 : ℝ) * Real.cos φ ^ 2 + 6356752.3141 * Real.sin φ ^ 2
      ≤ Real.sqrt (((6378137 : ℚ) : ℝ) ^ 2 * Real.cos φ ^ 2 + ((6356752.3141 : ℚ) : ℝ) ^ 2 * Real.sin φ ^ 2) := by
    apply Real.le_sqrt_of_sq_le
    have e : Real.cos φ ^ 2 = 1 - Real.sin φ ^ 2 := by linarith
    rw [e] at h3 ⊢
    push_cast
    norm_num
    nlinarith [mul_nonneg h2 h3]
  have hp : 0 < Real.sqrt (((6378137 : ℚ) : ℝ) ^ 2 * Real.cos φ ^ 2 + ((6356752.3141 : ℚ) : ℝ) ^ 2 * Real.sin φ ^ 2) :=
    Real.sqrt_pos.2 (by linarith [show (0 : ℝ) < 6356752 ^ 2 by norm_num])
  rw [abs_div, abs_of_pos hp, div_le_iff₀ hp, abs_of_nonneg (by positivity)]
  refine le_trans ?_ (mul_le_mul_of_nonneg_left hc (by norm_num))
  push_cast
  norm_num
  nlinarith

theorem gravity_ap (h : Rounds53 r) {LAT ALT : Dbl r} {lat alt : Rnd r} {φ z : ℝ} (hl : Aj LAT lat φ 0 1.25) (hh : Aj ALT alt z 0 20000) :
    Aj ((gravityNed LAT ALT).2 0) ((gravityNed lat alt).2 0) ((gravityNed φ z).2 0) 2e-13 11 ∧ Aj ((gravityNed LAT ALT).2 1) ((gravityNed lat alt).2 1) ((gravityNed φ z).2 1) 2e-13 11
    ∧ Aj ((gravityNed LAT ALT).2 2) ((gravityNed lat alt).2 2) ((gravityNed φ z).2 2) 2e-13 11 := by
  have we := wE_ap h
  have s1 : Aj _ _ _ 1595e-12 6378137 := .lit h 6378137 (by norm_num [abs_of_pos]) (by norm_num)
  have s2 : Aj _ _ _ 159e-11 6356752.3141 := .lit h 6356752.3141 (by norm_num [abs_of_pos]) (by norm_num)
  have s3 : Aj _ _ _ 9966e-19 3986005e-6 := .lit h 3.986005 (by norm_num [abs_of_pos]) (by norm_num)
  have s4 : Aj _ _ _ 0.025 1e14 := .lit h 1e14 (by norm_num [abs_of_pos]) (by norm_num)
  have s5 : Aj _ _ _ 0.299 3987e11 := .mul h s3 s4 (by norm_num) (by norm_num)
  have s6 : Aj _ _ _ 2446e-18 97803267715e-10 := .lit h 9.7803267715 (by norm_num [abs_of_pos]) (by norm_num)
  have s7 : Aj _ _ _ 2459e-18 98321863685e-10 := .lit h 9.8321863685 (by norm_num [abs_of_pos]) (by norm_num)
  have s8 : Aj _ _ _ 25e-17 1 := .lit h 1 (by norm_num [abs_of_pos]) (by norm_num)
  have s9 : Aj _ _ _ 5e-16 2 := .lit h 2 (by norm_num [abs_of_pos]) (by norm_num)
  have s10 : Aj _ _ _ 75e-17 3 := .lit h 3 (by norm_num [abs_of_pos]) (by norm_num)
  have s11 : Aj _ _ _ 7457e-17 298257222101e-9 := .lit h 298.257222101 (by norm_num [abs_of_pos]) (by norm_num)
  have s12 : Aj _ _ _ 2516e-21 3353e-6 := .div h s8 s11 (m := 298257222101e-9) (q := 1677e-21) (by norm_num [abs_of_pos]) (by norm_num) (by norm_num) (by norm_num) (by norm_num)
  have s13 : Aj _ _ _ 25e-17 1 := .cos h hl (by norm_num)
  have s14 : Aj _ _ _ 25e-17 1 := .sin h hl (by norm_num)
  have s15 : Aj _ _ _ 931e-26 5319e-12 := .sq h we (by norm_num) (by norm_num)
  have s16 : Aj _ _ _ 0.03052 4069e10 := .sq h s1 (by norm_num) (by norm_num)
  have s17 : Aj _ _ _ 5953e-13 216500 := .mul h s15 s16 (by norm_num) (by norm_num)
  have s18 : Aj _ _ _ 4473e-6 1377e9 := .mul h s17 s2 (by norm_num) (by norm_num)
  have s19 : Aj _ _ _ 1469e-20 3455e-6 := .div h s18 s5 (m := 3986005e8) (q := 1382e-20) (by norm_num [abs_of_pos]) (by norm_num) (by norm_num) (by norm_num) (by norm_num)
  have s20 : Aj _ _ _ 468e-10 62390000 := .mul h s1 s6 (by norm_num) (by norm_num)
  have s21 : Aj _ _ _ 7501e-19 1 := .sq h s13 (by norm_num) (by norm_num)
  have s22 : Aj _ _ _ 1092e-10 62390000 := .mul h s20 s21 (by norm_num) (by norm_num)
  have s23 : Aj _ _ _ 4689e-11 62510000 := .mul h s2 s7 (by norm_num) (by norm_num)
  have s24 : Aj _ _ _ 7501e-19 1 := .sq h s14 (by norm_num) (by norm_num)
  have s25 : Aj _ _ _ 1095e-10 62510000 := .mul h s23 s24 (by norm_num) (by norm_num)
  have s26 : Aj _ _ _ 25e-8 124900000 := .add h s22 s25 (by norm_num) (by norm_num)
  have s27 : Aj _ _ _ 0.03052 4069e10 := .sq h s1 (by norm_num) (by norm_num)
  have s28 : Aj _ _ _ 7501e-19 1 := .sq h s13 (by norm_num) (by norm_num)
  have s29 : Aj _ _ _ 0.07122 4069e10 := .mul h s27 s28 (by norm_num) (by norm_num)
  have s30 : Aj _ _ _ 0.03032 4041e10 := .sq h s2 (by norm_num) (by norm_num)
  have s31 : Aj _ _ _ 7501e-19 1 := .sq h s14 (by norm_num) (by norm_num)
  have s32 : Aj _ _ _ 0.07074 4041e10 := .mul h s30 s31 (by norm_num) (by norm_num)
  have s33 : Aj _ _ _ 0.1623 811e11 := .add h s29 s32 (by norm_num) (by norm_num)
  have s34 : Aj _ _ _ 2782e-11 9100000 := .sqrt h s33 (s := 6356752) (d' := 2554e-11) (by norm_num) (den_low _) (by norm_num) (by norm_num) (by norm_num)
  have s35 : Aj _ _ _ 1304e-16 19.65 := .div h s26 s34 (m := 6356752) (q := 1254e-16) (by rw [abs_of_nonneg (Real.sqrt_nonneg _)]; exact Real.le_sqrt_of_sq_le (den_low _)) (by norm_num) (by norm_num) (by norm_num) (by norm_num)
  have s36 : Aj _ _ _ 1304e-16 9.84 := s35.bound ((gell_le _))
  have s37 : Aj _ _ _ 2353e-25 3136e-10 := .div h s9 s1 (m := 6378137) (q := 1569e-25) (by norm_num [abs_of_pos]) (by norm_num) (by norm_num) (by norm_num) (by norm_num)
  have s38 : Aj _ _ _ 5034e-19 1.004 := .add h s8 s12 (by norm_num) (by norm_num)
  have s39 : Aj _ _ _ 77e-17 1.008 := .add h s38 s19 (by norm_num) (by norm_num)
  have s40 : Aj _ _ _ 8386e-21 6706e-6 := .mul h s9 s12 (by norm_num) (by norm_num)
  have s41 : Aj _ _ _ 7501e-19 1 := .sq h s14 (by norm_num) (by norm_num)
  have s42 : Aj _ _ _ 151e-19 6706e-6 := .mul h s40 s41 (by norm_num) (by norm_num)
  have s43 : Aj _ _ _ 1039e-18 1.015 := .sub h s39 s42 (by norm_num) (by norm_num)
  have s44 : Aj _ _ _ 6443e-25 3184e-10 := .mul h s37 s43 (by norm_num) (by norm_num)
  have s45 : Aj _ _ _ 1448e-20 6368e-6 := .mul h s44 hh (by norm_num) (by norm_num)
  have s46 : Aj _ _ _ 5161e-19 1.007 := .sub h s8 s45 (by norm_num) (by norm_num)
  have s47 : Aj _ _ _ 1e-7 4e8 := .sq h hh (by norm_num) (by norm_num)
  have s48 : Aj _ _ _ 9001e-10 12e8 := .mul h s10 s47 (by norm_num) (by norm_num)
  have s49 : Aj _ _ _ 0.03052 4069e10 := .sq h s1 (by norm_num) (by norm_num)
  have s50 : Aj _ _ _ 5178e-23 2956e-8 := .div h s48 s49 (m := 406e11) (q := 4439e-23) (by norm_num [abs_of_pos]) (by norm_num) (by norm_num) (by norm_num) (by norm_num)
  have s51 : Aj _ _ _ 768e-18 1.008 := .add h s46 s50 (by norm_num) (by norm_num)
  have s52 : Aj _ _ _ 1415e-16 9.919 := .mul h s36 s51 (by norm_num) (by norm_num)
  have s53 : Aj _ _ _ 202e-17 8.08 := .lit h 8.08 (by norm_num [abs_of_pos]) (by norm_num)
  have s54 : Aj _ _ _ 202e-17 8.08 := .neg s53
  have s55 : Aj _ _ _ 25e-23 1e-6 := .lit h 1e-6 (by norm_num [abs_of_pos]) (by norm_num)
  have s56 : Aj _ _ _ 6061e-24 808e-8 := .mul h s54 s55 (by norm_num) (by norm_num)
  have s57 : Aj _ _ _ 25e-14 1000 := .lit h 1000 (by norm_num [abs_of_pos]) (by norm_num)
  have s58 : Aj _ _ _ 1001e-17 20 := .div h hh s57 (m := 1000) (q := 5001e-18) (by norm_num [abs_of_pos]) (by norm_num) (by norm_num) (by norm_num) (by norm_num)
  have s59 : Aj _ _ _ 2426e-22 1616e-7 := .mul h s56 s58 (by norm_num) (by norm_num)
  have s60 : Aj _ _ _ 1251e-18 2.5 := .mul h s9 hl (by norm_num) (by norm_num)
  have s61 : Aj _ _ _ 1502e-18 1 := .sin h s60 (by norm_num)
  have s62 : Aj _ _ _ 5258e-22 1616e-7 := .mul h s59 s61 (by norm_num) (by norm_num)
  have z0 : Aj _ _ _ 0 0 := .lit h 0 (by norm_num) (by norm_num)
  exact ⟨s62.mono (by norm_num) (by norm_num), z0.mono (by norm_num) (by norm_num), s52.mono (by norm_num) (by norm_num)⟩

end NavFuse
