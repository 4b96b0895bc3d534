import Verif.Lemmas.NavStep

/-! # Sensitivity of one navigation step to its inputs, in exact arithmetic

The numerical bounds were produced by interval propagation; each line is checked here. -/

namespace NavFuse
open Spec NavUtils Gravity

/-- `x` and `y` differ by at most `c ε` and are at most `M` -/
structure Lp (ε x y c M : ℝ) : Prop where
  err : |x - y| ≤ c * ε
  m1 : |x| ≤ M
  m2 : |y| ≤ M

namespace Lp
variable {ε x y x' y' c c' M M' C N : ℝ}

theorem mono (hε : 0 ≤ ε) (a : Lp ε x y c M) (hc : c ≤ C) (hM : M ≤ N) : Lp ε x y C N :=
  ⟨a.err.trans (mul_le_mul_of_nonneg_right hc hε), a.m1.trans hM, a.m2.trans hM⟩
theorem M_nonneg (a : Lp ε x y c M) : 0 ≤ M := (abs_nonneg _).trans a.m1
theorem const (_ : 0 ≤ ε) (x : ℝ) (h : |x| ≤ M) : Lp ε x x 0 M := ⟨by simp, h, h⟩
theorem neg (_ : 0 ≤ ε) (a : Lp ε x y c M) : Lp ε (-x) (-y) c M :=
  ⟨by rw [neg_sub_neg, abs_sub_comm]; exact a.err, by rw [abs_neg]; exact a.m1, by rw [abs_neg]; exact a.m2⟩
theorem add (hε : 0 ≤ ε) (a : Lp ε x y c M) (b : Lp ε x' y' c' M') (hc : c + c' ≤ C) (hM : M + M' ≤ N) : Lp ε (x + x') (y + y') C N := by
  refine ⟨?_, (abs_add_le _ _).trans (by linarith [a.m1, b.m1]), (abs_add_le _ _).trans (by linarith [a.m2, b.m2])⟩
  rw [add_sub_add_comm]
  refine (abs_add_le _ _).trans ((add_le_add a.err b.err).trans ?_)
  rw [← add_mul]; exact mul_le_mul_of_nonneg_right hc hε
theorem sub (hε : 0 ≤ ε) (a : Lp ε x y c M) (b : Lp ε x' y' c' M') (hc : c + c' ≤ C) (hM : M + M' ≤ N) : Lp ε (x - x') (y - y') C N := by
  rw [sub_eq_add_neg, sub_eq_add_neg]; exact add hε a (b.neg hε) hc hM
theorem mul (hε : 0 ≤ ε) (a : Lp ε x y c M) (b : Lp ε x' y' c' M') (hc : c * M' + M * c' ≤ C) (hM : M * M' ≤ N) : Lp ε (x * x') (y * y') C N := by
  refine ⟨?_, ?_, ?_⟩
  · rw [show x * x' - y * y' = (x - y) * x' + y * (x' - y') by ring]
    refine (abs_add_le _ _).trans ?_
    rw [abs_mul, abs_mul]
    have h1 := mul_le_mul a.err b.m1 (abs_nonneg _) ((abs_nonneg _).trans a.err)
    have h2 := mul_le_mul a.m2 b.err (abs_nonneg _) a.M_nonneg
    have h3 := mul_le_mul_of_nonneg_right hc hε
    linarith
  · rw [abs_mul]; exact (mul_le_mul a.m1 b.m1 (abs_nonneg _) a.M_nonneg).trans hM
  · rw [abs_mul]; exact (mul_le_mul a.m2 b.m2 (abs_nonneg _) a.M_nonneg).trans hM
theorem div (hε : 0 ≤ ε) (a : Lp ε x y c M) (b : Lp ε x' y' c' M') {m : ℝ} (hm : 0 < m) (h1 : m ≤ |x'|) (h2 : m ≤ |y'|)
    (hc : (c + M / m * c') / m ≤ C) (hM : M / m ≤ N) : Lp ε (x / x') (y / y') C N := by
  have x0 : x' ≠ 0 := by intro e; rw [e, abs_zero] at h1; linarith
  have y0 : y' ≠ 0 := by intro e; rw [e, abs_zero] at h2; linarith
  have q1 : |x / x'| ≤ M / m := by
    rw [abs_div, div_le_div_iff₀ (abs_pos.2 x0) hm]; exact mul_le_mul a.m1 h1 hm.le a.M_nonneg
  have q2 : |y / y'| ≤ M / m := by
    rw [abs_div, div_le_div_iff₀ (abs_pos.2 y0) hm]; exact mul_le_mul a.m2 h2 hm.le a.M_nonneg
  refine ⟨?_, q1.trans hM, q2.trans hM⟩
  refine le_trans ?_ (mul_le_mul_of_nonneg_right hc hε)
  rw [show x / x' - y / y' = ((x - y) - y / y' * (x' - y')) / x' by field_simp; ring, abs_div, div_mul_eq_mul_div (c + M / m * c') m ε,
    div_le_div_iff₀ (abs_pos.2 x0) hm]
  have h3 : |(x - y) - y / y' * (x' - y')| ≤ (c + M / m * c') * ε := by
    refine (abs_sub _ _).trans ?_
    rw [abs_mul]
    have := mul_le_mul q2 b.err (abs_nonneg _) (div_nonneg a.M_nonneg hm.le)
    have := a.err
    linarith
  exact mul_le_mul h3 h1 hm.le ((abs_nonneg _).trans h3)
theorem sq (hε : 0 ≤ ε) (a : Lp ε x y c M) (hc : 2 * M * c ≤ C) (hM : M ^ 2 ≤ N) : Lp ε (x ^ 2) (y ^ 2) C N := by
  rw [_root_.sq, _root_.sq]; exact mul hε a a (by linarith) (by rw [← _root_.sq]; exact hM)
theorem sin (_ : 0 ≤ ε) (a : Lp ε x y c M) : Lp ε (Real.sin x) (Real.sin y) c 1 :=
  ⟨(Real.abs_sin_sub_sin_le _ _).trans a.err, Real.abs_sin_le_one _, Real.abs_sin_le_one _⟩
theorem cos (_ : 0 ≤ ε) (a : Lp ε x y c M) : Lp ε (Real.cos x) (Real.cos y) c 1 :=
  ⟨(Real.abs_cos_sub_cos_le _ _).trans a.err, Real.abs_cos_le_one _, Real.abs_cos_le_one _⟩
theorem sqrt (hε : 0 ≤ ε) (a : Lp ε x y c M) {s : ℝ} (hs : 0 < s) (hy : s ^ 2 ≤ y) (hc : c / s ≤ C) (hM : M ≤ N ^ 2) (hN : 0 ≤ N) :
    Lp ε (Real.sqrt x) (Real.sqrt y) C N := by
  refine ⟨(Ap.sqrt_near hs hy a.err).trans ?_, ?_, ?_⟩
  · rw [mul_div_right_comm]; exact mul_le_mul_of_nonneg_right hc hε
  · rw [abs_of_nonneg (Real.sqrt_nonneg _)]; exact Real.sqrt_le_iff.2 ⟨hN, (le_abs_self _).trans (a.m1.trans hM)⟩
  · rw [abs_of_nonneg (Real.sqrt_nonneg _)]; exact Real.sqrt_le_iff.2 ⟨hN, (le_abs_self _).trans (a.m2.trans hM)⟩
theorem pow15 (hε : 0 ≤ ε) (a : Lp ε x y c M) (hc1 : c ≤ 1e-5) (hx : 0.99 ≤ x ∧ x ≤ 1) (hy : 0.99 ≤ y ∧ y ≤ 1) (hc : 3.2 * c ≤ C) (hε1 : ε ≤ 100) :
    Lp ε (x ^ ((1.5 : ℚ) : ℝ)) (y ^ ((1.5 : ℚ) : ℝ)) C 1 := by
  have m : ∀ z : ℝ, 0.99 ≤ z ∧ z ≤ 1 → |z ^ ((1.5 : ℚ) : ℝ)| ≤ 1 := fun z hz => by
    rw [abs_of_nonneg (Real.rpow_nonneg (by linarith) _)]
    exact Real.rpow_le_one (by linarith) hz.2 (by norm_num)
  refine ⟨(Ap.pow15_near ?_ hy a.err).trans ?_, m x hx, m y hy⟩
  · have := mul_le_mul_of_nonneg_right hc1 hε
    norm_num at this ⊢; linarith
  · have := mul_le_mul_of_nonneg_right hc hε
    linarith

end Lp

/-- change of the rates when the state changes -/
theorem dyn_lip {ε : ℝ} (hε : 0 ≤ ε) (hε1 : ε ≤ 100) {dVN gN : V3 ℝ} {dt : ℝ} {y : Fin 6 → ℝ} {dVN' gN' : V3 ℝ} {y' : Fin 6 → ℝ}
    (y0 : Lp ε (y 0) (y' 0) 161e-9 1.251) (y2 : Lp ε (y 2) (y' 2) 1.01 20010)
    (y3 : Lp ε (y 3) (y' 3) 0.00202 305) (y4 : Lp ε (y 4) (y' 4) 0.00202 305) (y5 : Lp ε (y 5) (y' 5) 0.00202 305)
    (a0 : Lp ε (dVN 0 / dt) (dVN' 0 / dt) 0 56) (a1 : Lp ε (dVN 1 / dt) (dVN' 1 / dt) 0 56) (a2 : Lp ε (dVN 2 / dt) (dVN' 2 / dt) 0 56)
    (g0 : Lp ε (gN 0) (gN' 0) 33e-7 11) (g1 : Lp ε (gN 1) (gN' 1) 33e-7 11) (g2 : Lp ε (gN 2) (gN' 2) 33e-7 11) :
    Lp ε (dynG dVN gN dt y 0) (dynG dVN' gN' dt y' 0) 328e-12 483e-7 ∧ Lp ε (dynG dVN gN dt y 1) (dynG dVN' gN' dt y' 1) 1183e-12 1543e-7 ∧ Lp ε (dynG dVN gN dt y 2) (dynG dVN' gN' dt y' 2) 0.00202 305 ∧ Lp ε (dynG dVN gN dt y 3) (dynG dVN' gN' dt y' 3) 4482e-9 67.12 ∧ Lp ε (dynG dVN gN dt y 4) (dynG dVN' gN' dt y' 4) 5268e-9 67.2 ∧ Lp ε (dynG dVN gN dt y 5) (dynG dVN' gN' dt y' 5) 4482e-9 67.12 := by
  have es : Lp ε (eSqG : ℝ) eSqG 0 0.0067 := .const hε _ (by rw [eSq_R, abs_of_pos ecc2_pos, ecc2_eq]; norm_num [flattening])
  have we : Lp ε (wE : ℝ) wE 0 7.3e-5 := .const hε _ (by rw [wE_R, abs_of_pos (by norm_num [earthRate])]; norm_num [earthRate])
  have s1 : Lp ε _ _ 161e-9 1 := .sin hε y0
  have s2 : Lp ε _ _ 161e-9 1 := .cos hε y0
  have s3 : Lp ε _ _ 0 1 := .const hε ((1 : ℚ) : ℝ) (by norm_num [abs_of_pos])
  have s4 : Lp ε _ _ 0 2 := .const hε ((2 : ℚ) : ℝ) (by norm_num [abs_of_pos])
  have s5 : Lp ε _ _ 0 6378137 := .const hε ((6378137 : ℚ) : ℝ) (by norm_num [abs_of_pos])
  have s6 : Lp ε _ _ 322e-9 1 := .sq hε s1 (by norm_num) (by norm_num)
  have s7 : Lp ε _ _ 2158e-12 0.0067 := .mul hε es s6 (by norm_num) (by norm_num)
  have s8 : Lp ε _ _ 2158e-12 1.007 := .sub hε s3 s7 (by norm_num) (by norm_num)
  have s9 : Lp ε _ _ 2158e-12 1 := ⟨s8.err, abs_le.2 ⟨le_trans (by norm_num) (w_range _).1, (w_range _).2⟩, abs_le.2 ⟨le_trans (by norm_num) (w_range _).1, (w_range _).2⟩⟩
  have s10 : Lp ε _ _ 218e-11 1 := .sqrt hε s9 (s := 0.99) (by norm_num) (le_trans (by norm_num) (w_range _).1) (by norm_num) (by norm_num) (by norm_num)
  have s11 : Lp ε _ _ 0.01419 6443000 := .div hε s5 s10 (m := 0.99) (by norm_num) (by rw [abs_of_nonneg (Real.sqrt_nonneg _)]; exact Real.le_sqrt_of_sq_le (le_trans (by norm_num) (w_range _).1)) (by rw [abs_of_nonneg (Real.sqrt_nonneg _)]; exact Real.le_sqrt_of_sq_le (le_trans (by norm_num) (w_range _).1)) (by norm_num) (by norm_num)
  have s12 : Lp ε _ _ 6906e-12 1 := .pow15 hε s9 (by norm_num) (w_range _) (w_range _) (by norm_num) hε1
  have s13 : Lp ε _ _ 0 1.007 := .sub hε s3 es (by norm_num) (by norm_num)
  have s14 : Lp ε _ _ 0 6423000 := .mul hε s5 s13 (by norm_num) (by norm_num)
  have s15 : Lp ε _ _ 0.04619 6555000 := .div hε s14 s12 (m := 0.98) (by norm_num) (pow15_low _) (pow15_low _) (by norm_num) (by norm_num)
  have s16 : Lp ε _ _ 1.057 6576000 := .add hε s15 y2 (by norm_num) (by norm_num)
  have s17 : Lp ε _ _ 328e-12 483e-7 := .div hε y3 s16 (m := 6315000) (by norm_num) (merid_low _ _ y2.m1) (merid_low _ _ y2.m2) (by norm_num) (by norm_num)
  have s18 : Lp ε _ _ 1.025 6464000 := .add hε s11 y2 (by norm_num) (by norm_num)
  have s19 : Lp ε _ _ 2.066 6464000 := .mul hε s18 s2 (by norm_num) (by norm_num)
  have s20 : Lp ε _ _ 1183e-12 1543e-7 := .div hε y4 s19 (m := 1977000) (by norm_num) (prime_low _ _ y0.m1 y2.m1) (prime_low _ _ y0.m2 y2.m2) (by norm_num) (by norm_num)
  have s21 : Lp ε _ _ 0.00202 305 := .neg hε y5
  have s22 : Lp ε _ _ 0 146e-6 := .mul hε s4 we (by norm_num) (by norm_num)
  have s23 : Lp ε _ _ 33e-7 67 := .add hε a0 g0 (by norm_num) (by norm_num)
  have s24 : Lp ε _ _ 2351e-14 146e-6 := .mul hε s22 s1 (by norm_num) (by norm_num)
  have s25 : Lp ε _ _ 3021e-10 0.04453 := .mul hε s24 y4 (by norm_num) (by norm_num)
  have s26 : Lp ε _ _ 3603e-9 67.05 := .sub hε s23 s25 (by norm_num) (by norm_num)
  have s27 : Lp ε _ _ 1977e-10 0.01474 := .mul hε s17 y5 (by norm_num) (by norm_num)
  have s28 : Lp ε _ _ 3801e-9 67.07 := .add hε s26 s27 (by norm_num) (by norm_num)
  have s29 : Lp ε _ _ 1208e-12 1543e-7 := .mul hε s20 s1 (by norm_num) (by norm_num)
  have s30 : Lp ε _ _ 6802e-10 0.04707 := .mul hε s29 y4 (by norm_num) (by norm_num)
  have s31 : Lp ε _ _ 4482e-9 67.12 := .sub hε s28 s30 (by norm_num) (by norm_num)
  have s32 : Lp ε _ _ 33e-7 67 := .add hε a1 g1 (by norm_num) (by norm_num)
  have s33 : Lp ε _ _ 2351e-14 146e-6 := .mul hε s22 s1 (by norm_num) (by norm_num)
  have s34 : Lp ε _ _ 3021e-10 0.04453 := .mul hε s33 y3 (by norm_num) (by norm_num)
  have s35 : Lp ε _ _ 3603e-9 67.05 := .add hε s32 s34 (by norm_num) (by norm_num)
  have s36 : Lp ε _ _ 2351e-14 146e-6 := .mul hε s22 s2 (by norm_num) (by norm_num)
  have s37 : Lp ε _ _ 3021e-10 0.04453 := .mul hε s36 y5 (by norm_num) (by norm_num)
  have s38 : Lp ε _ _ 3906e-9 67.1 := .add hε s35 s37 (by norm_num) (by norm_num)
  have s39 : Lp ε _ _ 1208e-12 1543e-7 := .mul hε s20 s1 (by norm_num) (by norm_num)
  have s40 : Lp ε _ _ 6802e-10 0.04707 := .mul hε s39 y3 (by norm_num) (by norm_num)
  have s41 : Lp ε _ _ 4587e-9 67.15 := .add hε s38 s40 (by norm_num) (by norm_num)
  have s42 : Lp ε _ _ 1208e-12 1543e-7 := .mul hε s20 s2 (by norm_num) (by norm_num)
  have s43 : Lp ε _ _ 6802e-10 0.04707 := .mul hε s42 y5 (by norm_num) (by norm_num)
  have s44 : Lp ε _ _ 5268e-9 67.2 := .add hε s41 s43 (by norm_num) (by norm_num)
  have s45 : Lp ε _ _ 33e-7 67 := .add hε a2 g2 (by norm_num) (by norm_num)
  have s46 : Lp ε _ _ 2351e-14 146e-6 := .mul hε s22 s2 (by norm_num) (by norm_num)
  have s47 : Lp ε _ _ 3021e-10 0.04453 := .mul hε s46 y4 (by norm_num) (by norm_num)
  have s48 : Lp ε _ _ 3603e-9 67.05 := .sub hε s45 s47 (by norm_num) (by norm_num)
  have s49 : Lp ε _ _ 1208e-12 1543e-7 := .mul hε s20 s2 (by norm_num) (by norm_num)
  have s50 : Lp ε _ _ 6802e-10 0.04707 := .mul hε s49 y4 (by norm_num) (by norm_num)
  have s51 : Lp ε _ _ 4284e-9 67.1 := .sub hε s48 s50 (by norm_num) (by norm_num)
  have s52 : Lp ε _ _ 1977e-10 0.01474 := .mul hε s17 y3 (by norm_num) (by norm_num)
  have s53 : Lp ε _ _ 4482e-9 67.12 := .sub hε s51 s52 (by norm_num) (by norm_num)
  exact ⟨s17, s20, s21, s31, s44, s53⟩

/-- change of the rates when the specific force changes -/
theorem dyn_lip_force {ε : ℝ} (hε : 0 ≤ ε) (hε1 : ε ≤ 100) {dVN gN : V3 ℝ} {dt : ℝ} {y : Fin 6 → ℝ} {dVN' gN' : V3 ℝ} {y' : Fin 6 → ℝ}
    (y0 : Lp ε (y 0) (y' 0) 1e-10 1.251) (y2 : Lp ε (y 2) (y' 2) 0.0005 20010)
    (y3 : Lp ε (y 3) (y' 3) 0.0206 305) (y4 : Lp ε (y 4) (y' 4) 0.0206 305) (y5 : Lp ε (y 5) (y' 5) 0.0206 305)
    (a0 : Lp ε (dVN 0 / dt) (dVN' 0 / dt) 1 56) (a1 : Lp ε (dVN 1 / dt) (dVN' 1 / dt) 1 56) (a2 : Lp ε (dVN 2 / dt) (dVN' 2 / dt) 1 56)
    (g0 : Lp ε (gN 0) (gN' 0) 0 11) (g1 : Lp ε (gN 1) (gN' 1) 0 11) (g2 : Lp ε (gN 2) (gN' 2) 0 11) :
    Lp ε (dynG dVN gN dt y 0) (dynG dVN' gN' dt y' 0) 3263e-12 483e-7 ∧ Lp ε (dynG dVN gN dt y 1) (dynG dVN' gN' dt y' 1) 1042e-11 1543e-7 ∧ Lp ε (dynG dVN gN dt y 2) (dynG dVN' gN' dt y' 2) 0.0206 305 ∧ Lp ε (dynG dVN gN dt y 3) (dynG dVN' gN' dt y' 3) 1.003 67.12 ∧ Lp ε (dynG dVN gN dt y 4) (dynG dVN' gN' dt y' 4) 1.004 67.2 ∧ Lp ε (dynG dVN gN dt y 5) (dynG dVN' gN' dt y' 5) 1.003 67.12 := by
  have es : Lp ε (eSqG : ℝ) eSqG 0 0.0067 := .const hε _ (by rw [eSq_R, abs_of_pos ecc2_pos, ecc2_eq]; norm_num [flattening])
  have we : Lp ε (wE : ℝ) wE 0 7.3e-5 := .const hε _ (by rw [wE_R, abs_of_pos (by norm_num [earthRate])]; norm_num [earthRate])
  have s1 : Lp ε _ _ 1e-10 1 := .sin hε y0
  have s2 : Lp ε _ _ 1e-10 1 := .cos hε y0
  have s3 : Lp ε _ _ 0 1 := .const hε ((1 : ℚ) : ℝ) (by norm_num [abs_of_pos])
  have s4 : Lp ε _ _ 0 2 := .const hε ((2 : ℚ) : ℝ) (by norm_num [abs_of_pos])
  have s5 : Lp ε _ _ 0 6378137 := .const hε ((6378137 : ℚ) : ℝ) (by norm_num [abs_of_pos])
  have s6 : Lp ε _ _ 2e-10 1 := .sq hε s1 (by norm_num) (by norm_num)
  have s7 : Lp ε _ _ 134e-14 0.0067 := .mul hε es s6 (by norm_num) (by norm_num)
  have s8 : Lp ε _ _ 134e-14 1.007 := .sub hε s3 s7 (by norm_num) (by norm_num)
  have s9 : Lp ε _ _ 134e-14 1 := ⟨s8.err, abs_le.2 ⟨le_trans (by norm_num) (w_range _).1, (w_range _).2⟩, abs_le.2 ⟨le_trans (by norm_num) (w_range _).1, (w_range _).2⟩⟩
  have s10 : Lp ε _ _ 1354e-15 1 := .sqrt hε s9 (s := 0.99) (by norm_num) (le_trans (by norm_num) (w_range _).1) (by norm_num) (by norm_num) (by norm_num)
  have s11 : Lp ε _ _ 8812e-9 6443000 := .div hε s5 s10 (m := 0.99) (by norm_num) (by rw [abs_of_nonneg (Real.sqrt_nonneg _)]; exact Real.le_sqrt_of_sq_le (le_trans (by norm_num) (w_range _).1)) (by rw [abs_of_nonneg (Real.sqrt_nonneg _)]; exact Real.le_sqrt_of_sq_le (le_trans (by norm_num) (w_range _).1)) (by norm_num) (by norm_num)
  have s12 : Lp ε _ _ 4288e-15 1 := .pow15 hε s9 (by norm_num) (w_range _) (w_range _) (by norm_num) hε1
  have s13 : Lp ε _ _ 0 1.007 := .sub hε s3 es (by norm_num) (by norm_num)
  have s14 : Lp ε _ _ 0 6423000 := .mul hε s5 s13 (by norm_num) (by norm_num)
  have s15 : Lp ε _ _ 2868e-8 6555000 := .div hε s14 s12 (m := 0.98) (by norm_num) (pow15_low _) (pow15_low _) (by norm_num) (by norm_num)
  have s16 : Lp ε _ _ 5287e-7 6576000 := .add hε s15 y2 (by norm_num) (by norm_num)
  have s17 : Lp ε _ _ 3263e-12 483e-7 := .div hε y3 s16 (m := 6315000) (by norm_num) (merid_low _ _ y2.m1) (merid_low _ _ y2.m2) (by norm_num) (by norm_num)
  have s18 : Lp ε _ _ 5089e-7 6464000 := .add hε s11 y2 (by norm_num) (by norm_num)
  have s19 : Lp ε _ _ 1156e-6 6464000 := .mul hε s18 s2 (by norm_num) (by norm_num)
  have s20 : Lp ε _ _ 1042e-11 1543e-7 := .div hε y4 s19 (m := 1977000) (by norm_num) (prime_low _ _ y0.m1 y2.m1) (prime_low _ _ y0.m2 y2.m2) (by norm_num) (by norm_num)
  have s21 : Lp ε _ _ 0.0206 305 := .neg hε y5
  have s22 : Lp ε _ _ 0 146e-6 := .mul hε s4 we (by norm_num) (by norm_num)
  have s23 : Lp ε _ _ 1 67 := .add hε a0 g0 (by norm_num) (by norm_num)
  have s24 : Lp ε _ _ 146e-16 146e-6 := .mul hε s22 s1 (by norm_num) (by norm_num)
  have s25 : Lp ε _ _ 3008e-9 0.04453 := .mul hε s24 y4 (by norm_num) (by norm_num)
  have s26 : Lp ε _ _ 1.001 67.05 := .sub hε s23 s25 (by norm_num) (by norm_num)
  have s27 : Lp ε _ _ 1991e-9 0.01474 := .mul hε s17 y5 (by norm_num) (by norm_num)
  have s28 : Lp ε _ _ 1.002 67.07 := .add hε s26 s27 (by norm_num) (by norm_num)
  have s29 : Lp ε _ _ 1043e-11 1543e-7 := .mul hε s20 s1 (by norm_num) (by norm_num)
  have s30 : Lp ε _ _ 636e-8 0.04707 := .mul hε s29 y4 (by norm_num) (by norm_num)
  have s31 : Lp ε _ _ 1.003 67.12 := .sub hε s28 s30 (by norm_num) (by norm_num)
  have s32 : Lp ε _ _ 1 67 := .add hε a1 g1 (by norm_num) (by norm_num)
  have s33 : Lp ε _ _ 146e-16 146e-6 := .mul hε s22 s1 (by norm_num) (by norm_num)
  have s34 : Lp ε _ _ 3008e-9 0.04453 := .mul hε s33 y3 (by norm_num) (by norm_num)
  have s35 : Lp ε _ _ 1.001 67.05 := .add hε s32 s34 (by norm_num) (by norm_num)
  have s36 : Lp ε _ _ 146e-16 146e-6 := .mul hε s22 s2 (by norm_num) (by norm_num)
  have s37 : Lp ε _ _ 3008e-9 0.04453 := .mul hε s36 y5 (by norm_num) (by norm_num)
  have s38 : Lp ε _ _ 1.002 67.1 := .add hε s35 s37 (by norm_num) (by norm_num)
  have s39 : Lp ε _ _ 1043e-11 1543e-7 := .mul hε s20 s1 (by norm_num) (by norm_num)
  have s40 : Lp ε _ _ 636e-8 0.04707 := .mul hε s39 y3 (by norm_num) (by norm_num)
  have s41 : Lp ε _ _ 1.003 67.15 := .add hε s38 s40 (by norm_num) (by norm_num)
  have s42 : Lp ε _ _ 1043e-11 1543e-7 := .mul hε s20 s2 (by norm_num) (by norm_num)
  have s43 : Lp ε _ _ 636e-8 0.04707 := .mul hε s42 y5 (by norm_num) (by norm_num)
  have s44 : Lp ε _ _ 1.004 67.2 := .add hε s41 s43 (by norm_num) (by norm_num)
  have s45 : Lp ε _ _ 1 67 := .add hε a2 g2 (by norm_num) (by norm_num)
  have s46 : Lp ε _ _ 146e-16 146e-6 := .mul hε s22 s2 (by norm_num) (by norm_num)
  have s47 : Lp ε _ _ 3008e-9 0.04453 := .mul hε s46 y4 (by norm_num) (by norm_num)
  have s48 : Lp ε _ _ 1.001 67.05 := .sub hε s45 s47 (by norm_num) (by norm_num)
  have s49 : Lp ε _ _ 1043e-11 1543e-7 := .mul hε s20 s2 (by norm_num) (by norm_num)
  have s50 : Lp ε _ _ 636e-8 0.04707 := .mul hε s49 y4 (by norm_num) (by norm_num)
  have s51 : Lp ε _ _ 1.002 67.1 := .sub hε s48 s50 (by norm_num) (by norm_num)
  have s52 : Lp ε _ _ 1991e-9 0.01474 := .mul hε s17 y3 (by norm_num) (by norm_num)
  have s53 : Lp ε _ _ 1.003 67.12 := .sub hε s51 s52 (by norm_num) (by norm_num)
  exact ⟨s17, s20, s21, s31, s44, s53⟩

theorem den_low' (φ : ℝ) : (6356752 : ℝ) ^ 2 ≤ 6378137 ^ 2 - (6378137 ^ 2 - 6356752.3141 ^ 2) * Real.sin φ ^ 2 := by
  have h2 := Real.sin_sq_le_one φ
  norm_num
  nlinarith

theorem gell_alt (φ : ℝ) : (((6378137 : ℚ) : ℝ) * ((9.7803267715 : ℚ) : ℝ) * Real.cos φ ^ 2 + ((6356752.3141 : ℚ) : ℝ) * ((9.8321863685 : ℚ) : ℝ) * Real.sin φ ^ 2)
    / Real.sqrt (((6378137 : ℚ) : ℝ) ^ 2 * Real.cos φ ^ 2 + ((6356752.3141 : ℚ) : ℝ) ^ 2 * Real.sin φ ^ 2)
    = (6378137 * 9.7803267715 + (6356752.3141 * 9.8321863685 - 6378137 * 9.7803267715) * Real.sin φ ^ 2)
      / Real.sqrt (6378137 ^ 2 - (6378137 ^ 2 - 6356752.3141 ^ 2) * Real.sin φ ^ 2) := by
  have e : Real.cos φ ^ 2 = 1 - Real.sin φ ^ 2 := by linarith [Real.sin_sq_add_cos_sq φ]
  rw [e]
  congr 1
  · push_cast; ring
  · congr 1; push_cast; ring

theorem gell_lip {ε φ φ' : ℝ} (hε : 0 ≤ ε) (hl : Lp ε φ φ' 1.6e-7 1.25) :
    Lp ε ((((6378137 : ℚ) : ℝ) * ((9.7803267715 : ℚ) : ℝ) * Real.cos φ ^ 2 + ((6356752.3141 : ℚ) : ℝ) * ((9.8321863685 : ℚ) : ℝ) * Real.sin φ ^ 2)
      / Real.sqrt (((6378137 : ℚ) : ℝ) ^ 2 * Real.cos φ ^ 2 + ((6356752.3141 : ℚ) : ℝ) ^ 2 * Real.sin φ ^ 2))
      ((((6378137 : ℚ) : ℝ) * ((9.7803267715 : ℚ) : ℝ) * Real.cos φ' ^ 2 + ((6356752.3141 : ℚ) : ℝ) * ((9.8321863685 : ℚ) : ℝ) * Real.sin φ' ^ 2)
      / Real.sqrt (((6378137 : ℚ) : ℝ) ^ 2 * Real.cos φ' ^ 2 + ((6356752.3141 : ℚ) : ℝ) ^ 2 * Real.sin φ' ^ 2)) 273e-10 9.84 := by
  have hs : Lp ε (Real.sin φ ^ 2) (Real.sin φ' ^ 2) 3.2e-7 1 := .sq hε (.sin hε hl) (by norm_num) (by norm_num)
  have s1 : Lp ε _ _ 0 62390000 := .const hε (6378137 * 9.7803267715 : ℝ) (by norm_num [abs_of_pos])
  have s2 : Lp ε _ _ 0 120600 := .const hε (6356752.3141 * 9.8321863685 - 6378137 * 9.7803267715 : ℝ) (by norm_num [abs_of_pos])
  have s3 : Lp ε _ _ 0.0386 120600 := .mul hε s2 hs (by norm_num) (by norm_num)
  have s4 : Lp ε _ _ 0.0386 62520000 := .add hε s1 s3 (by norm_num) (by norm_num)
  have s5 : Lp ε _ _ 0 4069e10 := .const hε (6378137 ^ 2 : ℝ) (by norm_num [abs_of_pos])
  have s6 : Lp ε _ _ 0 2724e8 := .const hε (6378137 ^ 2 - 6356752.3141 ^ 2 : ℝ) (by norm_num [abs_of_pos])
  have s7 : Lp ε _ _ 87170 2724e8 := .mul hε s6 hs (by norm_num) (by norm_num)
  have s8 : Lp ε _ _ 87170 4097e10 := .sub hε s5 s7 (by norm_num) (by norm_num)
  have s9 : Lp ε _ _ 0.01372 6410000 := .sqrt hε s8 (s := 6356752) (by norm_num) (den_low' _) (by norm_num) (by norm_num) (by norm_num)
  have s10 : Lp ε _ _ 273e-10 9.836 := .div hε s4 s9 (m := 6356752) (by norm_num) (by rw [abs_of_nonneg (Real.sqrt_nonneg _)]; exact Real.le_sqrt_of_sq_le (den_low' _)) (by rw [abs_of_nonneg (Real.sqrt_nonneg _)]; exact Real.le_sqrt_of_sq_le (den_low' _)) (by norm_num) (by norm_num)
  refine ⟨?_, gell_le _, gell_le _⟩
  rw [gell_alt, gell_alt]
  exact s10.err

theorem gravity_lip {ε φ φ' z z' : ℝ} (hε : 0 ≤ ε) (hl : Lp ε φ φ' 1.6e-7 1.25) (hh : Lp ε z z' 1 20000) :
    Lp ε ((gravityNed φ z).2 0) ((gravityNed φ' z').2 0) 3.3e-6 11 ∧ Lp ε ((gravityNed φ z).2 1) ((gravityNed φ' z').2 1) 3.3e-6 11 ∧ Lp ε ((gravityNed φ z).2 2) ((gravityNed φ' z').2 2) 3.3e-6 11 := by
  have we : Lp ε (wE : ℝ) wE 0 7.3e-5 := .const hε _ (by rw [wE_R, abs_of_pos (by norm_num [earthRate])]; norm_num [earthRate])
  have ge := gell_lip hε hl
  have s1 : Lp ε _ _ 0 6378137 := .const hε ((6378137 : ℚ) : ℝ) (by norm_num [abs_of_pos])
  have s2 : Lp ε _ _ 0 6356752.3141 := .const hε ((6356752.3141 : ℚ) : ℝ) (by norm_num [abs_of_pos])
  have s3 : Lp ε _ _ 0 3986005e-6 := .const hε ((3.986005 : ℚ) : ℝ) (by norm_num [abs_of_pos])
  have s4 : Lp ε _ _ 0 1e14 := .const hε ((1e14 : ℚ) : ℝ) (by norm_num [abs_of_pos])
  have s5 : Lp ε _ _ 0 3987e11 := .mul hε s3 s4 (by norm_num) (by norm_num)
  have s6 : Lp ε _ _ 0 1 := .const hε ((1 : ℚ) : ℝ) (by norm_num [abs_of_pos])
  have s7 : Lp ε _ _ 0 2 := .const hε ((2 : ℚ) : ℝ) (by norm_num [abs_of_pos])
  have s8 : Lp ε _ _ 0 3 := .const hε ((3 : ℚ) : ℝ) (by norm_num [abs_of_pos])
  have s9 : Lp ε _ _ 0 298257222101e-9 := .const hε ((298.257222101 : ℚ) : ℝ) (by norm_num [abs_of_pos])
  have s10 : Lp ε _ _ 0 3353e-6 := .div hε s6 s9 (m := 298257222101e-9) (by norm_num) (by norm_num [abs_of_pos]) (by norm_num [abs_of_pos]) (by norm_num) (by norm_num)
  have s11 : Lp ε _ _ 16e-8 1 := .sin hε hl
  have s12 : Lp ε _ _ 0 5329e-12 := .sq hε we (by norm_num) (by norm_num)
  have s13 : Lp ε _ _ 0 4069e10 := .sq hε s1 (by norm_num) (by norm_num)
  have s14 : Lp ε _ _ 0 216900 := .mul hε s12 s13 (by norm_num) (by norm_num)
  have s15 : Lp ε _ _ 0 1379e9 := .mul hε s14 s2 (by norm_num) (by norm_num)
  have s16 : Lp ε _ _ 0 0.00346 := .div hε s15 s5 (m := 3986005e8) (by norm_num) (by norm_num [abs_of_pos]) (by norm_num [abs_of_pos]) (by norm_num) (by norm_num)
  have s17 : Lp ε _ _ 0 3136e-10 := .div hε s7 s1 (m := 6378137) (by norm_num) (by norm_num [abs_of_pos]) (by norm_num [abs_of_pos]) (by norm_num) (by norm_num)
  have s18 : Lp ε _ _ 0 1.004 := .add hε s6 s10 (by norm_num) (by norm_num)
  have s19 : Lp ε _ _ 0 1.008 := .add hε s18 s16 (by norm_num) (by norm_num)
  have s20 : Lp ε _ _ 0 6706e-6 := .mul hε s7 s10 (by norm_num) (by norm_num)
  have s21 : Lp ε _ _ 32e-8 1 := .sq hε s11 (by norm_num) (by norm_num)
  have s22 : Lp ε _ _ 2146e-12 6706e-6 := .mul hε s20 s21 (by norm_num) (by norm_num)
  have s23 : Lp ε _ _ 2146e-12 1.015 := .sub hε s19 s22 (by norm_num) (by norm_num)
  have s24 : Lp ε _ _ 673e-18 3184e-10 := .mul hε s17 s23 (by norm_num) (by norm_num)
  have s25 : Lp ε _ _ 3185e-10 6368e-6 := .mul hε s24 hh (by norm_num) (by norm_num)
  have s26 : Lp ε _ _ 3185e-10 1.007 := .sub hε s6 s25 (by norm_num) (by norm_num)
  have s27 : Lp ε _ _ 40000 4e8 := .sq hε hh (by norm_num) (by norm_num)
  have s28 : Lp ε _ _ 120000 12e8 := .mul hε s8 s27 (by norm_num) (by norm_num)
  have s29 : Lp ε _ _ 0 4069e10 := .sq hε s1 (by norm_num) (by norm_num)
  have s30 : Lp ε _ _ 2956e-12 2956e-8 := .div hε s28 s29 (m := 406e11) (by norm_num) (by norm_num [abs_of_pos]) (by norm_num [abs_of_pos]) (by norm_num) (by norm_num)
  have s31 : Lp ε _ _ 3215e-10 1.008 := .add hε s26 s30 (by norm_num) (by norm_num)
  have s32 : Lp ε _ _ 3192e-9 9.919 := .mul hε ge s31 (by norm_num) (by norm_num)
  have s33 : Lp ε _ _ 0 8.08 := .const hε ((8.08 : ℚ) : ℝ) (by norm_num [abs_of_pos])
  have s34 : Lp ε _ _ 0 8.08 := .neg hε s33
  have s35 : Lp ε _ _ 0 1e-6 := .const hε ((1e-6 : ℚ) : ℝ) (by norm_num [abs_of_pos])
  have s36 : Lp ε _ _ 0 808e-8 := .mul hε s34 s35 (by norm_num) (by norm_num)
  have s37 : Lp ε _ _ 0 1000 := .const hε ((1000 : ℚ) : ℝ) (by norm_num [abs_of_pos])
  have s38 : Lp ε _ _ 0.001 20 := .div hε hh s37 (m := 1000) (by norm_num) (by norm_num [abs_of_pos]) (by norm_num [abs_of_pos]) (by norm_num) (by norm_num)
  have s39 : Lp ε _ _ 808e-11 1616e-7 := .mul hε s36 s38 (by norm_num) (by norm_num)
  have s40 : Lp ε _ _ 32e-8 2.5 := .mul hε s7 hl (by norm_num) (by norm_num)
  have s41 : Lp ε _ _ 32e-8 1 := .sin hε s40
  have s42 : Lp ε _ _ 8132e-12 1616e-7 := .mul hε s39 s41 (by norm_num) (by norm_num)
  have z0 : Lp ε (((0 : ℚ) : ℝ)) (((0 : ℚ) : ℝ)) 0 0 := .const hε _ (by norm_num)
  exact ⟨s42.mono hε (by norm_num) (by norm_num), z0.mono hε (by norm_num) (by norm_num), s32.mono hε (by norm_num) (by norm_num)⟩

end NavFuse
