import Verif.Lemmas.RoundNav
import Verif.Lemmas.BowringErr

/-! # Rounding errors of the conversions between geodetic and ECEF coordinates -/

set_option linter.unusedSimpArgs false

namespace NavFuse
open Spec NavUtils Gravity Rotations
variable [Machine] {r : ℝ → ℝ}

omit [Machine] in
/-- two nearby points, not separated by the branch cut, have nearby arguments -/
theorem arg_near {u v : ℂ} {δ m : ℝ} (hm : m ≤ ‖v‖) (hδ : ‖u - v‖ ≤ δ) (hδm : δ < m)
    (hc : 0 < u.re ∧ 0 < v.re ∨ 0 < u.im ∧ 0 < v.im ∨ u.im < 0 ∧ v.im < 0) : |u.arg - v.arg| ≤ δ / (m - δ) := by
  have hp := Real.pi_pos
  have d0 : 0 ≤ δ := (norm_nonneg _).trans hδ
  have hv : 0 < ‖v‖ := by linarith
  have hu : 0 < ‖u‖ := by
    have := norm_sub_norm_le v u
    rw [norm_sub_rev] at this; linarith
  have hu0 : u ≠ 0 := norm_pos_iff.1 hu
  have hv0 : v ≠ 0 := norm_pos_iff.1 hv
  have hlt : |u.arg - v.arg| < Real.pi := by
    rw [abs_lt]
    rcases hc with ⟨a, b⟩ | ⟨a, b⟩ | ⟨a, b⟩
    · have h1 := abs_lt.1 (Complex.abs_arg_lt_pi_div_two_iff.2 (.inl a))
      have h2 := abs_lt.1 (Complex.abs_arg_lt_pi_div_two_iff.2 (.inl b))
      constructor <;> linarith [h1.1, h1.2, h2.1, h2.2]
    · have h1 : ∀ w : ℂ, 0 < w.im → 0 < w.arg ∧ w.arg < Real.pi := fun w hw => by
        have c1 := Complex.arg_nonneg_iff.2 hw.le
        refine ⟨lt_of_le_of_ne c1 fun h => ?_, Complex.arg_lt_pi_iff.2 (.inr hw.ne')⟩
        rw [eq_comm, Complex.arg_eq_zero_iff] at h; linarith [h.2]
      have c1 := h1 u a
      have c2 := h1 v b
      constructor <;> linarith [c1.1, c1.2, c2.1, c2.2]
    · have c1 := Complex.arg_neg_iff.2 a
      have c2 := Complex.arg_neg_iff.2 b
      have c3 := (Complex.arg_mem_Ioc u).1
      have c4 := (Complex.arg_mem_Ioc v).1
      constructor <;> linarith
  have hsu := Complex.sin_arg u
  have hcu := Complex.cos_arg hu0
  have hsv := Complex.sin_arg v
  have hcv := Complex.cos_arg hv0
  have nv : ‖v‖ ^ 2 = v.re ^ 2 + v.im ^ 2 := by rw [Complex.sq_norm, Complex.normSq_apply]; ring
  have nd : ‖u - v‖ ^ 2 = (u.re - v.re) ^ 2 + (u.im - v.im) ^ 2 := by rw [Complex.sq_norm, Complex.normSq_apply]; simp; ring
  have hcos : Real.cos (u.arg - v.arg) * (‖u‖ * ‖v‖) = u.re * v.re + u.im * v.im := by
    rw [Real.cos_sub, hsu, hcu, hsv, hcv]; field_simp
  have hsin : Real.sin (u.arg - v.arg) * (‖u‖ * ‖v‖) = u.im * v.re - u.re * v.im := by
    rw [Real.sin_sub, hsu, hcu, hsv, hcv]; field_simp
  have cs1 : |u.im * v.re - u.re * v.im| ≤ δ * ‖v‖ := by
    refine le_trans ?_ (mul_le_mul_of_nonneg_right hδ hv.le)
    apply abs_le_of_sq_le_sq _ (by positivity)
    rw [mul_pow, nd, nv]
    nlinarith [sq_nonneg ((u.re - v.re) * v.re + (u.im - v.im) * v.im)]
  have cs2 : |(u.re - v.re) * v.re + (u.im - v.im) * v.im| ≤ δ * ‖v‖ := by
    refine le_trans ?_ (mul_le_mul_of_nonneg_right hδ hv.le)
    apply abs_le_of_sq_le_sq _ (by positivity)
    rw [mul_pow, nd, nv]
    nlinarith [sq_nonneg (u.im * v.re - u.re * v.im)]
  have dot : ‖v‖ * (m - δ) ≤ u.re * v.re + u.im * v.im := by
    have := (abs_le.1 cs2).1
    nlinarith [mul_le_mul_of_nonneg_left hm hv.le]
  have dp : 0 < u.re * v.re + u.im * v.im := lt_of_lt_of_le (mul_pos hv (by linarith)) dot
  have cp : 0 < Real.cos (u.arg - v.arg) := by
    by_contra hn
    have := mul_nonneg (neg_nonneg.2 (not_lt.1 hn)) (mul_pos hu hv).le
    linarith
  have half : |u.arg - v.arg| < Real.pi / 2 := by
    by_contra hn
    have h1 : Real.cos |u.arg - v.arg| ≤ 0 := Real.cos_nonpos_of_pi_div_two_le_of_le (not_lt.1 hn) (by linarith)
    rw [Real.cos_abs] at h1; linarith
  refine (abs_le_of_tan half dp (E := u.im * v.re - u.re * v.im) ?_).trans ?_
  · rw [← hsin, ← hcos]; ring
  · rw [div_le_div_iff₀ dp (by linarith)]
    calc _ ≤ δ * ‖v‖ * (m - δ) := mul_le_mul_of_nonneg_right cs1 (by linarith)
      _ = δ * (‖v‖ * (m - δ)) := by ring
      _ ≤ _ := mul_le_mul_of_nonneg_left dot d0

omit [Machine] in
theorem norm_le_add (x y : ℝ) : ‖(⟨x, y⟩ : ℂ)‖ ≤ |x| + |y| := Complex.norm_le_abs_re_add_abs_im _

namespace Ap
variable {x x' : Rnd r} {y y' d d' M M' D N : ℝ}

theorem cube (_h : Rounds53 r) (a : Ap x y d M) (hD : d * 3 * (M + d) ^ 2 + (M ^ 3 + d * 3 * (M + d) ^ 2) / 4e15 ≤ D) (hN : M ^ 3 ≤ N)
    (hp : 1e-50 ≤ M ^ 3 := by norm_num) : Ap (Flt.powi x 3) (y ^ 3) D N := by
  have hM := a.M_nonneg
  have hd := a.d_nonneg
  have e : |x.val ^ 3 - y ^ 3| ≤ d * 3 * (M + d) ^ 2 := by
    rw [show x.val ^ 3 - y ^ 3 = (x.val - y) * (x.val ^ 2 + x.val * y + y ^ 2) by ring, abs_mul, mul_assoc]
    refine mul_le_mul a.err ?_ (abs_nonneg _) hd
    have h1 := a.val_le
    have h2 := a.mag
    have h3 : |x.val ^ 2 + x.val * y + y ^ 2| ≤ |x.val| ^ 2 + |x.val| * |y| + |y| ^ 2 := by
      refine (abs_add_three _ _ _).trans ?_
      rw [abs_mul, abs_pow, abs_pow]
    refine h3.trans ?_
    have p1 := abs_nonneg x.val
    have p2 := abs_nonneg y
    nlinarith [mul_le_mul h1 h1 p1 (by linarith), mul_le_mul h1 h2 p2 (by linarith), mul_le_mul h2 h2 p2 hM]
  have m : |y ^ 3| ≤ M ^ 3 := by rw [abs_pow]; exact pow_le_pow_left₀ (abs_nonneg _) a.mag 3
  exact ⟨round (Machine.faithful .pow _ _) e m hD (.inl hp), m.trans hN⟩

omit [Machine] in
/-- division by something at least `m`, when the exact quotient has a better bound than `M / m` -/
theorem div_mag (h : Rounds53 r) (a : Ap x y d M) (b : Ap x' y' d' M') {m q : ℝ} (hm : m ≤ |y'|) (hN : |y / y'| ≤ N) (hm0 : 0 < m - d')
    (hq : (d + N * d') / (m - d') ≤ q) (hD : q + (N + q) / 4e15 ≤ D) (hp : 1e-50 ≤ N ∨ N + q = 0 := by norm_num) : Ap (x / x') (y / y') D N := by
  have d0 := b.d_nonneg
  have m0 : 0 < m := by linarith
  have y0 : y' ≠ 0 := by intro hy; rw [hy, abs_zero] at hm; linarith
  have hx' : m - d' ≤ |x'.val| := by
    have := abs_add_le (y' - x'.val) x'.val
    rw [sub_add_cancel, abs_sub_comm] at this
    linarith [b.err]
  have x0 : x'.val ≠ 0 := by intro hy; rw [hy, abs_zero] at hx'; linarith
  have e : |x.val / x'.val - y / y'| ≤ q := by
    refine le_trans ?_ hq
    rw [show x.val / x'.val - y / y' = ((x.val - y) - y / y' * (x'.val - y')) / x'.val by field_simp; ring, abs_div,
      div_le_div_iff₀ (abs_pos.2 x0) hm0]
    refine mul_le_mul ?_ hx' hm0.le (add_nonneg a.d_nonneg (mul_nonneg ((abs_nonneg _).trans hN) d0))
    refine (abs_sub _ _).trans (add_le_add a.err ?_)
    rw [abs_mul]
    exact mul_le_mul hN b.err (abs_nonneg _) ((abs_nonneg _).trans hN)
  exact ⟨round h e hN hD hp, hN⟩

theorem atan2 (_h : Rounds53 r) (b : Ap x' y' d' M') (a : Ap x y d M) {m q : ℝ} (hm : m ≤ ‖(⟨y, y'⟩ : ℂ)‖) (hdm : d + d' < m)
    (hc : 0 < x.val ∧ 0 < y ∨ 0 < x'.val ∧ 0 < y' ∨ x'.val < 0 ∧ y' < 0) (hq : (d + d') / (m - (d + d')) ≤ q)
    (hD : q + (3.15 + q) / 4e15 ≤ D) : Ap (Flt.atan2 x' x) (Complex.arg ⟨y, y'⟩) D 3.15 := by
  have e := arg_near (u := ⟨x.val, x'.val⟩) (v := ⟨y, y'⟩) hm (δ := d + d')
    ((norm_le_add (x.val - y) (x'.val - y')).trans (add_le_add a.err b.err)) hdm hc
  have mg : |Complex.arg ⟨y, y'⟩| ≤ 3.15 := (Complex.abs_arg_le_pi _).trans (by linarith [Real.pi_lt_d2])
  exact ⟨round (Machine.faithful .atan2 _ _) (e.trans hq) mg hD, mg⟩

end Ap

namespace Aj
variable {X X' : Dbl r} {x x' : Rnd r} {y y' d d' M M' D N : ℝ}

theorem cube (h : Rounds53 r) (a : Aj X x y d M) (hD : d * 3 * (M + d) ^ 2 + (M ^ 3 + d * 3 * (M + d) ^ 2) / 4e15 ≤ D) (hN : M ^ 3 ≤ N)
    (hp : 1e-50 ≤ M ^ 3 := by norm_num) (hv : N + D ≤ 1e200 := by norm_num) : Aj (Flt.powi X 3) (Flt.powi x 3) (y ^ 3) D N :=
  have c := Ap.cube h a.ap hD hN hp
  ⟨a.sim.powi 3 (small c hv), c⟩

omit [Machine] in
theorem div_mag (h : Rounds53 r) (a : Aj X x y d M) (b : Aj X' x' y' d' M') {m q : ℝ} (hm : m ≤ |y'|) (hN : |y / y'| ≤ N) (hm0 : 0 < m - d')
    (hq : (d + N * d') / (m - d') ≤ q) (hD : q + (N + q) / 4e15 ≤ D) (hp : 1e-50 ≤ N ∨ N + q = 0 := by norm_num)
    (hv : N + D ≤ 1e200 := by norm_num) : Aj (X / X') (x / x') (y / y') D N :=
  have c := Ap.div_mag h a.ap b.ap hm hN hm0 hq hD hp
  have hx' : x'.val ≠ 0 := by
    intro hz
    have := b.err
    rw [hz, zero_sub, abs_neg] at this
    linarith
  ⟨a.sim.div b.sim hx' (small c hv), c⟩

theorem atan2 (h : Rounds53 r) (b : Aj X' x' y' d' M') (a : Aj X x y d M) {m q : ℝ} (hm : m ≤ ‖(⟨y, y'⟩ : ℂ)‖) (hdm : d + d' < m)
    (hc : 0 < x.val ∧ 0 < y ∨ 0 < x'.val ∧ 0 < y' ∨ x'.val < 0 ∧ y' < 0) (hq : (d + d') / (m - (d + d')) ≤ q)
    (hD : q + (3.15 + q) / 4e15 ≤ D) (hv : 3.15 + D ≤ 1e200 := by norm_num) :
    Aj (Flt.atan2 X' X) (Flt.atan2 x' x) (Complex.arg ⟨y, y'⟩) D 3.15 := by
  have c := Ap.atan2 h b.ap a.ap hm hdm hc hq hD
  refine ⟨?_, c⟩
  rw [b.sim, a.sim]
  exact Dbl.lb_fin ((small c hv).trans_lt Dbl.big)

end Aj

/-- the squared eccentricity -/
theorem e2_ap (h : Rounds53 r) : Aj (Flt.powi (Flt.sqrt (Flt.lit 1 - Flt.powi (Flt.lit 1 - (f : Dbl r)) 2)) 2)
    (Flt.powi (Flt.sqrt (Flt.lit 1 - Flt.powi (Flt.lit 1 - (f : Rnd r)) 2)) 2) ecc2 3096e-18 0.006695 := by
  have s1 : Aj _ _ _ 25e-17 1 := .lit h 1 (by norm_num [abs_of_pos]) (by norm_num)
  have s2 : Aj _ _ _ 7457e-17 298257222101e-9 := .lit h 298.257222101 (by norm_num [abs_of_pos]) (by norm_num)
  have s3 : Aj _ _ _ 2516e-21 3353e-6 := .div h s1 s2 (m := 298257222101e-9) (q := 1677e-21) (by norm_num [abs_of_pos]) (by norm_num) (by norm_num) (by norm_num) (by norm_num)
  have s4 : Aj _ _ _ 5034e-19 1004e-3 := .sub h s1 s3 (by norm_num) (by norm_num)
  have s5 : Aj _ _ _ 5034e-19 1 := s4.bound (by norm_num [abs_of_pos])
  have s6 : Aj _ _ _ 1257e-18 1 := .sq h s5 (by norm_num) (by norm_num)
  have s7 : Aj _ _ _ 1509e-18 67e-4 := .sub_mag h s1 s6 (by norm_num [abs_of_pos]) (by norm_num)
  have s8 : Aj _ _ _ 189e-16 8186e-5 := .sqrt h s7 (s := 8e-2) (d' := 1887e-17) (by norm_num) (by norm_num) (by norm_num) (by norm_num) (by norm_num)
  have s9 : Aj _ _ _ 3096e-18 6702e-6 := .sq h s8 (by norm_num) (by norm_num)
  have e : Real.sqrt ((1 : ℚ) - (((1 : ℚ) : ℝ) - (1 : ℚ) / (298.257222101 : ℚ)) ^ 2) ^ 2 = ecc2 := by
    have := e_sq
    simp only [rsimp, Gravity.f] at this
    push_cast at this ⊢
    exact this
  rw [e] at s9
  exact s9.bound (by rw [abs_of_pos ecc2_pos]; exact ecc2_bounds.2.le)

/-- the second eccentricity squared times the polar radius -/
theorem k_ap (h : Rounds53 r) : Aj (Flt.powi (Flt.sqrt ((Flt.powi (a : Dbl r) 2 - Flt.powi b 2) / Flt.powi b 2)) 2 * b)
    (Flt.powi (Flt.sqrt ((Flt.powi (a : Rnd r) 2 - Flt.powi b 2) / Flt.powi b 2)) 2 * b) kC 1939e-11 42970 := by
  have s10 : Aj _ _ _ 1595e-12 6378137 := .lit h 6378137 (by norm_num [abs_of_pos]) (by norm_num)
  have s11 : Aj _ _ _ 159e-11 63567523141e-4 := .lit h 6356752.3141 (by norm_num [abs_of_pos]) (by norm_num)
  have s12 : Aj _ _ _ 3052e-5 4069000e7 := .sq h s10 (by norm_num) (by norm_num)
  have s13 : Aj _ _ _ 3032e-5 4041000e7 := .sq h s11 (by norm_num) (by norm_num)
  have s14 : Aj _ _ _ 6091e-5 2730000e5 := .sub_mag h s12 s13 (by norm_num [abs_of_pos]) (by norm_num)
  have s15 : Aj _ _ _ 1515e-18 6758e-6 := .div h s14 s13 (m := 4040000e7) (q := 1513e-18) (by norm_num [abs_of_pos]) (by norm_num) (by norm_num) (by norm_num) (by norm_num)
  have s16 : Aj _ _ _ 1851e-17 8221e-5 := .sqrt h s15 (s := 82e-3) (d' := 1848e-17) (by norm_num) (by norm_num) (by norm_num) (by norm_num) (by norm_num)
  have s17 : Aj _ _ _ 3046e-18 6759e-6 := .sq h s16 (by norm_num) (by norm_num)
  have s18 : Aj _ _ _ 1939e-11 42970 := .mul h s17 s11 (by norm_num) (by norm_num)
  have := ep_sq
  simp only [rsimp, Gravity.a, Gravity.b] at this
  rw [← this]
  exact s18

omit [Machine] in
theorem w_range' (φ : ℝ) : 0.9933 ≤ 1 - ecc2 * Real.sin φ ^ 2 ∧ 1 - ecc2 * Real.sin φ ^ 2 ≤ 1 := by
  have h1 := Real.sin_sq_le_one φ
  have h2 := sq_nonneg (Real.sin φ)
  have h3 := ecc2_pos
  have h4 := ecc2_bounds.2
  constructor <;> nlinarith

omit [Machine] in
theorem w_low (φ : ℝ) : 0.996 ≤ |Real.sqrt (1 - ecc2 * Real.sin φ ^ 2)| := by
  rw [abs_of_nonneg (Real.sqrt_nonneg _)]
  exact Real.le_sqrt_of_sq_le (le_trans (by norm_num) (w_range' φ).1)

/-- the radius of curvature, from the latitude -/
theorem prime_ap (h : Rounds53 r) {X : Dbl r} {x : Rnd r} {y d M : ℝ} (hx' : Aj X x y d M) (hd : d ≤ 1e-13) :
    Aj (a / Flt.sqrt (Flt.lit 1 - (Flt.powi (Flt.sqrt (Flt.lit 1 - Flt.powi (Flt.lit 1 - (f : Dbl r)) 2)) 2 * Flt.powi (Flt.sin X) 2)))
      (a / Flt.sqrt (Flt.lit 1 - (Flt.powi (Flt.sqrt (Flt.lit 1 - Flt.powi (Flt.lit 1 - (f : Rnd r)) 2)) 2 * Flt.powi (Flt.sin x) 2)))
      (primeVertical y) 4e-8 6404000 := by
  have hx := hx'.mono hd le_rfl
  have e2 := e2_ap h
  have s2 : Aj _ _ _ 25e-17 1 := .lit h 1 (by norm_num [abs_of_pos]) (by norm_num)
  have s4 : Aj _ _ _ 1003e-16 1 := .sin h hx (by norm_num)
  have s5 : Aj _ _ _ 2009e-16 1 := .sq h s4 (by norm_num) (by norm_num)
  have s6 : Aj _ _ _ 4443e-18 6695e-6 := .mul h e2 s5 (by norm_num) (by norm_num)
  have hw := w_range' y
  have s7 : Aj _ _ _ 4944e-18 1 := .sub_mag h s2 s6 (by rw [Rat.cast_one]; exact abs_le.2 ⟨by linarith [hw.1], hw.2⟩) (by norm_num)
  rw [Rat.cast_one] at s7
  have s8 : Aj _ _ _ 5245e-18 1001e-3 := .sqrt h s7 (s := 99e-2) (d' := 4994e-18) (by norm_num) (le_trans (by norm_num) hw.1) (by norm_num) (by norm_num) (by norm_num)
  have s9 : Aj _ _ _ 1595e-12 6378137 := .lit h 6378137 (by norm_num [abs_of_pos]) (by norm_num)
  have s10 : Aj _ _ _ 3694e-11 6404000 := .div h s9 s8 (m := 996e-3) (q := 3533e-11) (by have := w_low y; norm_num at this ⊢; exact this) (by norm_num) (by norm_num) (by norm_num) (by norm_num)
  have e : primeVertical y = ((6378137 : ℚ) : ℝ) / Real.sqrt (1 - ecc2 * Real.sin y ^ 2) := by
    rw [primeVertical, semiMajor]; norm_num
  rw [e]
  exact s10.mono (by norm_num) le_rfl

/-- the three coordinates written by `lla2Ecef` -/
theorem ecef_ap (h : Rounds53 r) {A B C : Dbl r} {x1 x2 x3 : Rnd r} {lat lon alt M1 M2 : ℝ} (hlat : Aj A x1 lat 0 M1) (hlon : Aj B x2 lon 0 M2)
    (halt : Aj C x3 alt 0 1e7) (rE : V3 (Dbl r)) (rE' : V3 (Rnd r)) (hb : latLonBad A B = false) (hb' : latLonBad x1 x2 = false) (i : Fin 3) :
    Aj ((lla2Ecef A B C rE).2 i) ((lla2Ecef x1 x2 x3 rE').2 i) (ellPoint lat lon alt i) 7696e-11 16410000 := by
  have e2 := e2_ap h
  have hN := prime_ap h hlat (by norm_num)
  simp only [lla2Ecef, hb, hb', Bool.false_eq_true, if_false]
  have s1 : Aj _ _ _ 25e-17 1 := .lit h 1 (by norm_num [abs_of_pos]) (by norm_num)
  have s4 : Aj _ _ _ 25e-17 1 := .sin h hlat (by norm_num)
  have s5 : Aj _ _ _ 25e-17 1 := .cos h hlat (by norm_num)
  have s7 : Aj _ _ _ 25e-17 1 := .sin h hlon (by norm_num)
  have s8 : Aj _ _ _ 25e-17 1 := .cos h hlon (by norm_num)
  have s10 : Aj _ _ _ 4411e-11 1641000e1 := .add h hN halt (by norm_num) (by norm_num)
  have s11 : Aj _ _ _ 5232e-11 1641000e1 := .mul h s10 s5 (by norm_num) (by norm_num)
  have s12 : Aj _ _ _ 6053e-11 1641000e1 := .mul h s11 s8 (by norm_num) (by norm_num)
  have s13 : Aj _ _ _ 6053e-11 1641000e1 := .mul h s11 s7 (by norm_num) (by norm_num)
  have he := ecc2_bounds
  have s14 : Aj _ _ _ 3597e-18 1 := .sub_mag h s1 e2 (by rw [Rat.cast_one]; exact abs_le.2 ⟨by linarith [he.2], by linarith [he.1]⟩) (by norm_num)
  rw [Rat.cast_one] at s14
  have s15 : Aj _ _ _ 6464e-11 6404000 := .mul h s14 hN (by norm_num) (by norm_num)
  have s16 : Aj _ _ _ 6875e-11 1641000e1 := .add h s15 halt (by norm_num) (by norm_num)
  have s17 : Aj _ _ _ 7696e-11 1641000e1 := .mul h s16 s4 (by norm_num) (by norm_num)
  fin_cases i
  · exact s12.mono (by norm_num) (by norm_num)
  · exact s13.mono (by norm_num) (by norm_num)
  · exact s17.mono (by norm_num) (by norm_num)

/-- the distance from the axis -/
theorem axis_ap (h : Rounds53 r) {X Y : Dbl r} {x y : Rnd r} {u v : ℝ} (hx : Aj X x u 1e-7 2e7) (hy : Aj Y y v 1e-7 2e7)
    (h1 : 60 ≤ Real.sqrt (u ^ 2 + v ^ 2)) (h2 : Real.sqrt (u ^ 2 + v ^ 2) ≤ 2e7) :
    Aj (Flt.sqrt (Flt.powi X 2 + Flt.powi Y 2)) (Flt.sqrt (Flt.powi x 2 + Flt.powi y 2)) (Real.sqrt (u ^ 2 + v ^ 2)) 2.5e-7 2e7 := by
  obtain ⟨x⟩ := x
  obtain ⟨y⟩ := y
  have xe := hx.err
  have ye := hy.err
  simp only at xe ye
  set p := Real.sqrt (u ^ 2 + v ^ 2) with hp
  have near : |Real.sqrt (x ^ 2 + y ^ 2) - p| ≤ 2e-7 := by
    have e1 : Real.sqrt (x ^ 2 + y ^ 2) = ‖(⟨x, y⟩ : ℂ)‖ := (norm_mk x y).symm
    have e2 : p = ‖(⟨u, v⟩ : ℂ)‖ := (norm_mk u v).symm
    rw [e1, e2]
    refine (abs_norm_sub_norm_le _ _).trans ((norm_le_add (x - u) (y - v)).trans ?_)
    linarith
  have nb := abs_le.1 near
  set q := Real.sqrt (x ^ 2 + y ^ 2) with hq
  have q1 : 59 ≤ q := by linarith [nb.1]
  have q2 : q ≤ 2.1e7 := by norm_num at *; linarith [nb.2]
  have qq : q ^ 2 = x ^ 2 + y ^ 2 := Real.sq_sqrt (by positivity)
  have x0 := sq_nonneg x
  have y0 := sq_nonneg y
  obtain ⟨sx, hsx⟩ : ∃ s, s = Machine.lib .pow x (2 : ℕ) (x ^ 2) := ⟨_, rfl⟩
  obtain ⟨sy, hsy⟩ : ∃ s, s = Machine.lib .pow y (2 : ℕ) (y ^ 2) := ⟨_, rfl⟩
  have px : (Flt.powi (⟨x⟩ : Rnd r) 2) = ⟨sx⟩ := by rw [hsx]; rfl
  have py : (Flt.powi (⟨y⟩ : Rnd r) 2) = ⟨sy⟩ := by rw [hsy]; rfl
  have a1 : |sx - x ^ 2| ≤ (x ^ 2 + 1e-40) / 4e15 := hsx ▸
    Ap.round (Machine.faithful .pow _ _) (v := x ^ 2) (y := x ^ 2) (d := 0) (M := x ^ 2 + 1e-40) (by simp) (by rw [abs_of_nonneg x0]; norm_num) (by simp) (.inl (by norm_num; nlinarith))
  have a2 : |sy - y ^ 2| ≤ (y ^ 2 + 1e-40) / 4e15 := hsy ▸
    Ap.round (Machine.faithful .pow _ _) (v := y ^ 2) (y := y ^ 2) (d := 0) (M := y ^ 2 + 1e-40) (by simp) (by rw [abs_of_nonneg y0]; norm_num) (by simp) (.inl (by norm_num; nlinarith))
  have a3 : |sx + sy - q ^ 2| ≤ q ^ 2 * 2.6e-16 := by
    rw [qq, show sx + sy - (x ^ 2 + y ^ 2) = (sx - x ^ 2) + (sy - y ^ 2) by ring]
    refine (abs_add_le _ _).trans ((add_le_add a1 a2).trans ?_)
    rw [← qq, ← add_div, show x ^ 2 + 1e-40 + (y ^ 2 + 1e-40) = q ^ 2 + 2e-40 by rw [qq]; ring]
    nlinarith
  have a4 : |r (sx + sy) - q ^ 2| ≤ q ^ 2 * 6e-16 :=
    Ap.round h (v := sx + sy) (y := q ^ 2) (d := q ^ 2 * 2.6e-16) (M := q ^ 2) a3 (by rw [abs_of_nonneg (sq_nonneg _)])
      (by nlinarith) (.inl (by norm_num; nlinarith))
  have a5 : |Real.sqrt (r (sx + sy)) - q| ≤ q * 6e-16 := by
    have := Ap.sqrt_near (x := r (sx + sy)) (y := q ^ 2) (s := q) (by linarith) le_rfl a4
    rw [Real.sqrt_sq (by linarith)] at this
    refine this.trans (le_of_eq ?_)
    field_simp
  have a6 : |r (Real.sqrt (r (sx + sy))) - q| ≤ q * 1e-15 :=
    Ap.round h (v := Real.sqrt (r (sx + sy))) (y := q) (d := q * 6e-16) (M := q) a5 (by rw [abs_of_nonneg (by linarith)])
      (by nlinarith) (.inl (by norm_num; nlinarith))
  have c : Ap (Flt.sqrt (Flt.powi (⟨x⟩ : Rnd r) 2 + Flt.powi ⟨y⟩ 2)) p 2.5e-7 2e7 := by
    refine ⟨?_, by rw [abs_of_nonneg (Real.sqrt_nonneg _)]; exact h2⟩
    rw [px, py]
    show |r (Real.sqrt (r (sx + sy))) - p| ≤ 2.5e-7
    have := abs_add_le (r (Real.sqrt (r (sx + sy))) - q) (q - p)
    rw [sub_add_sub_cancel] at this
    norm_num at *
    linarith
  have q3 : q ^ 2 ≤ 5e14 := by nlinarith
  have x1 : x ^ 2 ≤ 5e14 := by linarith
  have y1 : y ^ 2 ≤ 5e14 := by linarith
  refine ⟨?_, c⟩
  have t1 := hx.sim.powi 2 (by
    rw [px]
    show |sx| ≤ 1e200
    have := abs_add_le (sx - x ^ 2) (x ^ 2)
    rw [sub_add_cancel, abs_of_nonneg x0] at this
    norm_num at *; linarith)
  have t2 := hy.sim.powi 2 (by
    rw [py]
    show |sy| ≤ 1e200
    have := abs_add_le (sy - y ^ 2) (y ^ 2)
    rw [sub_add_cancel, abs_of_nonneg y0] at this
    norm_num at *; linarith)
  have t3 := t1.add t2 (by
    rw [px, py]
    show |r (sx + sy)| ≤ 1e200
    have := abs_add_le (r (sx + sy) - q ^ 2) (q ^ 2)
    rw [sub_add_cancel, abs_of_nonneg (sq_nonneg q)] at this
    norm_num at *; linarith)
  refine t3.sqrt ?_ (Aj.small c (by norm_num))
  rw [px, py]
  show 0 ≤ r (sx + sy)
  have := (abs_le.1 a4).1
  nlinarith

/-- exact geometry of the latitude formula, away from the earth's centre and the axis -/
structure Outside (p z : ℝ) : Prop where
  p1 : 60 ≤ p
  p2 : p ≤ 2e7
  z2 : |z| ≤ 2e7
  far : 6.3e6 ^ 2 ≤ p ^ 2 + z ^ 2

namespace Outside
variable {p z : ℝ} (o : Outside p z)
include o

omit [Machine] in
theorem th_norm : 4e13 ≤ ‖(⟨polarC * p, semiMajor * z⟩ : ℂ)‖ := by
  rw [norm_mk]
  refine Real.le_sqrt_of_sq_le ?_
  have := o.far
  have h1 : polarC ^ 2 * (p ^ 2 + z ^ 2) ≤ (polarC * p) ^ 2 + (semiMajor * z) ^ 2 := by
    have : polarC ^ 2 ≤ semiMajor ^ 2 := by norm_num [polarC, semiMajor]
    nlinarith [mul_le_mul_of_nonneg_right this (sq_nonneg z)]
  have h2 : (4e13 : ℝ) ^ 2 ≤ polarC ^ 2 * (6.3e6 ^ 2) := by norm_num [polarC]
  nlinarith [mul_le_mul_of_nonneg_left o.far (sq_nonneg polarC)]

omit [Machine] in
theorem cos_th : 0 ≤ Real.cos (thR p z) ∧ Real.cos (thR p z) ≤ p / 6.29e6 := by
  have hp : 0 < p := by linarith [o.p1]
  have hn := o.th_norm
  have h0 : (⟨polarC * p, semiMajor * z⟩ : ℂ) ≠ 0 := by
    intro he; rw [he, norm_zero] at hn; norm_num at hn
  rw [thR, Complex.cos_arg h0]
  have hpos : 0 < ‖(⟨polarC * p, semiMajor * z⟩ : ℂ)‖ := lt_of_lt_of_le (by norm_num) hn
  constructor
  · exact div_nonneg (mul_nonneg polarC_pos.le hp.le) hpos.le
  · rw [div_le_div_iff₀ hpos (by norm_num)]
    have : polarC * 6.29e6 ≤ 4e13 := by norm_num [polarC]
    show polarC * p * 6.29e6 ≤ p * _
    nlinarith

omit [Machine] in
theorem latX_low : 0.99 * p ≤ latXR p z := by
  obtain ⟨c0, c1⟩ := o.cos_th
  have hp : 0 < p := by linarith [o.p1]
  have hc3 : Real.cos (thR p z) ^ 3 ≤ Real.cos (thR p z) := by
    nlinarith [Real.cos_le_one (thR p z), mul_nonneg c0 c0, mul_nonneg (mul_nonneg c0 (sub_nonneg.2 (Real.cos_le_one (thR p z)))) (by linarith : 0 ≤ 1 + Real.cos (thR p z))]
  have he : ecc2 * semiMajor ≤ 0.01 * 6.29e6 := by have := ecc2_bounds.2; norm_num [semiMajor] at *; linarith
  have he0 : 0 ≤ ecc2 * semiMajor := mul_nonneg ecc2_pos.le semiMajor_pos.le
  rw [latXR]
  have : ecc2 * semiMajor * Real.cos (thR p z) ^ 3 ≤ 0.01 * 6.29e6 * (p / 6.29e6) :=
    mul_le_mul he (hc3.trans c1) (by positivity) (by norm_num)
  have e : (0.01 : ℝ) * 6.29e6 * (p / 6.29e6) = 0.01 * p := by ring
  linarith

omit o in
omit [Machine] in
theorem dev (p z : ℝ) : ‖(⟨latXR p z, latYR p z⟩ : ℂ) - ⟨p, z⟩‖ ≤ 8.6e4 := by
  refine (norm_le_add (latXR p z - p) (latYR p z - z)).trans ?_
  have h1 : latXR p z - p = -(ecc2 * semiMajor * Real.cos (thR p z) ^ 3) := by rw [latXR]; ring
  have h2 : latYR p z - z = kC * Real.sin (thR p z) ^ 3 := by rw [latYR]; ring
  rw [h1, h2, abs_neg, abs_mul, abs_mul kC, abs_pow, abs_pow, abs_of_pos kC_pos, abs_of_nonneg (mul_nonneg ecc2_pos.le semiMajor_pos.le)]
  have c1 : |Real.cos (thR p z)| ^ 3 ≤ 1 := pow_le_one₀ (abs_nonneg _) (Real.abs_cos_le_one _)
  have c2 : |Real.sin (thR p z)| ^ 3 ≤ 1 := pow_le_one₀ (abs_nonneg _) (Real.abs_sin_le_one _)
  have k1 : kC ≤ 42970 := by norm_num [kC, semiMajor, polarC]
  have k2 : ecc2 * semiMajor ≤ 42710 := by have := ecc2_bounds.2; norm_num [semiMajor] at *; linarith
  have k3 : 0 ≤ ecc2 * semiMajor := mul_nonneg ecc2_pos.le semiMajor_pos.le
  nlinarith [mul_le_mul k1 c2 (by positivity) (by norm_num), mul_le_mul k2 c1 (by positivity) (by norm_num)]

omit [Machine] in
theorem lat_norm : 6.21e6 ≤ ‖(⟨latXR p z, latYR p z⟩ : ℂ)‖ ∧ ‖(⟨latXR p z, latYR p z⟩ : ℂ)‖ ≤ 2.85e7 := by
  have hd := dev p z
  have h1 : 6.3e6 ≤ ‖(⟨p, z⟩ : ℂ)‖ := by rw [norm_mk]; exact Real.le_sqrt_of_sq_le o.far
  have h2 : ‖(⟨p, z⟩ : ℂ)‖ ≤ 2.83e7 := by
    rw [norm_mk, Real.sqrt_le_iff]
    refine ⟨by norm_num, ?_⟩
    have a1 : p ^ 2 ≤ 2e7 ^ 2 := pow_le_pow_left₀ (by linarith [o.p1]) o.p2 2
    have a2 : z ^ 2 ≤ 2e7 ^ 2 := by rw [← sq_abs]; exact pow_le_pow_left₀ (abs_nonneg _) o.z2 2
    norm_num at *; linarith
  have h3 := abs_le.1 (abs_norm_sub_norm_le (⟨latXR p z, latYR p z⟩ : ℂ) ⟨p, z⟩)
  norm_num at *
  constructor <;> linarith [h3.1, h3.2]

omit [Machine] in
theorem cos_lat : 0.99 * p ≤ 2.85e7 * Real.cos (latR p z) ∧ |p / Real.cos (latR p z)| ≤ 2.9e7 ∧ 2e-6 ≤ Real.cos (latR p z) := by
  obtain ⟨n1, n2⟩ := o.lat_norm
  have hp := o.p1
  have hx := o.latX_low
  have hpos : 0 < ‖(⟨latXR p z, latYR p z⟩ : ℂ)‖ := lt_of_lt_of_le (by norm_num) n1
  have h0 : (⟨latXR p z, latYR p z⟩ : ℂ) ≠ 0 := norm_pos_iff.1 hpos
  have hc : Real.cos (latR p z) * ‖(⟨latXR p z, latYR p z⟩ : ℂ)‖ = latXR p z := by
    rw [latR, Complex.cos_arg h0]; field_simp
  have c0 : 0 < Real.cos (latR p z) := by
    by_contra hn
    have := mul_nonneg (neg_nonneg.2 (not_lt.1 hn)) hpos.le
    nlinarith
  have h1 : 0.99 * p ≤ 2.85e7 * Real.cos (latR p z) := by nlinarith
  refine ⟨h1, ?_, by norm_num at *; linarith⟩
  rw [abs_of_nonneg (div_nonneg (by linarith) c0.le), div_le_iff₀ c0]
  norm_num at *; linarith

end Outside

/-- the auxiliary angle and the latitude -/
theorem lat_ap (h : Rounds53 r) {P Z : Dbl r} {xp xz : Rnd r} {p z : ℝ} (o : Outside p z) (hp : Aj P xp p 2.5e-7 2e7) (hz : Aj Z xz z 1e-7 2e7) :
    Aj (Flt.atan2 (Z + Flt.powi (Flt.sqrt ((Flt.powi a 2 - Flt.powi b 2) / Flt.powi b 2)) 2 * b * Flt.powi (Flt.sin (Flt.atan2 (a * Z) (b * P))) 3)
        (P - Flt.powi (Flt.sqrt (Flt.lit 1 - Flt.powi (Flt.lit 1 - f) 2)) 2 * a * Flt.powi (Flt.cos (Flt.atan2 (a * Z) (b * P))) 3))
      (Flt.atan2 (xz + Flt.powi (Flt.sqrt ((Flt.powi a 2 - Flt.powi b 2) / Flt.powi b 2)) 2 * b * Flt.powi (Flt.sin (Flt.atan2 (a * xz) (b * xp))) 3)
        (xp - Flt.powi (Flt.sqrt (Flt.lit 1 - Flt.powi (Flt.lit 1 - f) 2)) 2 * a * Flt.powi (Flt.cos (Flt.atan2 (a * xz) (b * xp))) 3))
      (latR p z) 7.5e-14 3.15 := by
  have e2 := e2_ap h
  have hk := k_ap h
  have hp1 := o.p1
  have s6 : Aj (a : Dbl r) a semiMajor 1595e-12 6378137 := by
    have : Aj (Flt.lit 6378137 : Dbl r) (Flt.lit 6378137) _ 1595e-12 6378137 := .lit h 6378137 (by norm_num [abs_of_pos]) (by norm_num)
    rw [show semiMajor = ((6378137 : ℚ) : ℝ) by norm_num [semiMajor]]; exact this
  have s7 : Aj (b : Dbl r) b polarC 159e-11 63567523141e-4 := by
    have : Aj (Flt.lit 6356752.3141 : Dbl r) (Flt.lit 6356752.3141) _ 159e-11 63567523141e-4 := .lit h 6356752.3141 (by norm_num [abs_of_pos]) (by norm_num)
    rw [show polarC = ((6356752.3141 : ℚ) : ℝ) by norm_num [polarC]]; exact this
  have s8 : Aj _ _ _ 7017e-4 1276000e8 := .mul h s6 hz (by norm_num) (by norm_num)
  have s9 : Aj _ _ _ 1653e-3 1272000e8 := .mul h s7 hp (by norm_num) (by norm_num)
  have bp : 3e8 ≤ polarC * p := by
    have : (6e6 : ℝ) ≤ polarC := by norm_num [polarC]
    nlinarith
  have hth : Aj _ _ _ 6.2e-14 3.15 := .atan2 h s8 s9 (q := 5.9e-14) o.th_norm (by norm_num)
    (.inl ⟨by have := (abs_le.1 s9.err).1; norm_num at *; linarith, by linarith⟩) (by norm_num) (by norm_num)
  have s11 : Aj _ _ _ 6226e-17 1 := .sin h hth (by norm_num)
  have s12 : Aj _ _ _ 1871e-16 1 := .cube h s11 (by norm_num) (by norm_num)
  have s13 : Aj _ _ _ 6226e-17 1 := .cos h hth (by norm_num)
  have s14 : Aj _ _ _ 1871e-16 1 := .cube h s13 (by norm_num) (by norm_num)
  have s15 : Aj _ _ _ 2745e-11 42970 := .mul h hk s12 (by norm_num) (by norm_num)
  have s16 : Aj _ _ _ 1325e-10 2005000e1 := .add h hz s15 (by norm_num) (by norm_num)
  have s17 : Aj _ _ _ 1977e-11 42710 := .mul h e2 s6 (by norm_num) (by norm_num)
  have s18 : Aj _ _ _ 2778e-11 42710 := .mul h s17 s14 (by norm_num) (by norm_num)
  have s19 : Aj _ _ _ 2828e-10 2005000e1 := .sub h hp s18 (by norm_num) (by norm_num)
  have hx := o.latX_low
  have s19' : Aj _ _ (latXR p z) 2828e-10 2005000e1 := s19
  exact .atan2 h s16 s19' (m := 6.21e6) (q := 6.7e-14) o.lat_norm.1 (by norm_num)
    (.inl ⟨by have := (abs_le.1 s19'.err).1; norm_num at *; linarith, by linarith⟩) (by norm_num) (by norm_num)

/-- the altitude -/
theorem alt_ap (h : Rounds53 r) {P L : Dbl r} {xp xl : Rnd r} {p z : ℝ} (o : Outside p z) (hp : Aj P xp p 2.5e-7 2e7) (hl : Aj L xl (latR p z) 7.5e-14 3.15) :
    Aj (P / Flt.cos L - a / Flt.sqrt (Flt.lit 1 - (Flt.powi (Flt.sqrt (Flt.lit 1 - Flt.powi (Flt.lit 1 - (f : Dbl r)) 2)) 2 * Flt.powi (Flt.sin L) 2)))
      (xp / Flt.cos xl - a / Flt.sqrt (Flt.lit 1 - (Flt.powi (Flt.sqrt (Flt.lit 1 - Flt.powi (Flt.lit 1 - (f : Rnd r)) 2)) 2 * Flt.powi (Flt.sin xl) 2)))
      (p / Real.cos (latR p z) - primeVertical (latR p z)) (2.6e-6 / Real.cos (latR p z)) 3.6e7 := by
  have hN := prime_ap h hl (by norm_num)
  obtain ⟨-, c2, c3⟩ := o.cos_lat
  have s21 : Aj _ _ _ 7526e-17 1 := .cos h hl (by norm_num)
  set c := Real.cos (latR p z)
  have c0 : 0 < c := lt_of_lt_of_le (by norm_num) c3
  have c1 : c ≤ 1 := Real.cos_le_one _
  have i1 : 1 ≤ 1 / c := by rw [le_div_iff₀ c0]; linarith
  have i2 : 1 / c ≤ 5e5 := by rw [div_le_iff₀ c0]; norm_num at *; linarith
  have i3 : 2.45e-6 / c = 2.45e-6 * (1 / c) := by ring
  have i4 : 2.5e-6 / c = 2.5e-6 * (1 / c) := by ring
  have i5 : 2.6e-6 / c = 2.6e-6 * (1 / c) := by ring
  have s22 : Aj _ _ _ (2.5e-6 / c) 2.9e7 := .div_mag h hp s21 (m := c) (q := 2.45e-6 / c) (le_abs_self _) c2 (by norm_num at *; linarith)
    (by rw [div_le_div_iff₀ (by norm_num at *; linarith) c0]; norm_num at *; nlinarith)
    (by rw [i3, i4]; norm_num at *; linarith) (.inl (by norm_num)) (by rw [i4]; norm_num at *; linarith)
  exact .sub h s22 hN (by rw [i4, i5]; norm_num at *; linarith) (by norm_num) (.inl (by norm_num)) (by rw [i5]; norm_num at *; linarith)

/-- the longitude, before and after the reduction modulo `2π` -/
theorem lon_ap (h : Rounds53 r) {X Y : Dbl r} {x y : Rnd r} {u v : ℝ} (hx : Aj X x u 1e-7 2e7) (hy : Aj Y y v 1e-7 2e7)
    (h1 : 60 ≤ Real.sqrt (u ^ 2 + v ^ 2)) (h2 : Real.sqrt (u ^ 2 + v ^ 2) ≤ 2e7) (hc : 1e-7 < u ∨ 1e-7 < |v|) :
    Aj (Flt.atan2 Y X) (Flt.atan2 y x) (Complex.arg ⟨u, v⟩) (3e-7 / Real.sqrt (u ^ 2 + v ^ 2)) 3.15 := by
  set p := Real.sqrt (u ^ 2 + v ^ 2) with hp
  have p0 : 0 < p := by linarith
  have k1 : 1 / p ≤ 1 := by rw [div_le_iff₀ p0]; linarith
  have k2 : 5e-8 ≤ 1 / p := by rw [le_div_iff₀ p0]; norm_num at *; linarith
  have i1 : 2.1e-7 / p = 2.1e-7 * (1 / p) := by ring
  have i2 : 3e-7 / p = 3e-7 * (1 / p) := by ring
  have hx1 := abs_le.1 hx.err
  have hy1 := abs_le.1 hy.err
  refine .atan2 h hy hx (m := p) (q := 2.1e-7 / p) (norm_mk u v).ge (by norm_num at *; linarith) ?_ ?_ ?_ ?_
  · rcases hc with hc | hc
    · exact .inl ⟨by norm_num at *; linarith [hx1.1], by norm_num at *; linarith⟩
    · rcases lt_abs.1 hc with hc | hc
      · exact .inr (.inl ⟨by linarith [hy1.1], by norm_num at *; linarith⟩)
      · exact .inr (.inr ⟨by linarith [hy1.2], by norm_num at *; linarith⟩)
  · rw [div_le_div_iff₀ (by norm_num at *; linarith) p0]; norm_num at *; linarith
  · rw [i1, i2]; norm_num at *; linarith
  · rw [i2]; norm_num at *; linarith

theorem wrap_Dbl (h : Rounds53 r) {l : ℝ} {L : Dbl r} (hL : L = .fin l) (hl : |l| ≤ 3.141591) :
    (if Flt.lt Flt.pi (Flt.fmod L (Flt.lit 2 * Flt.pi)) = true then Flt.fmod L (Flt.lit 2 * Flt.pi) - (Flt.lit 2 * Flt.pi)
      else Flt.fmod L (Flt.lit 2 * Flt.pi)) = L := by
  have hp : Aj (Flt.pi : Dbl r) Flt.pi Real.pi 1e-15 3.1416 := .pi h
  have h2 : Aj (Flt.lit 2 : Dbl r) _ _ 5e-16 2 := .lit h 2 (by norm_num) (by norm_num)
  have h2p : Aj _ _ _ 1e-14 6.2832 := .mul h h2 hp (by norm_num) (by norm_num)
  have e1 := hp.sim
  have e2 := h2p.sim
  rw [Dbl.Sim] at e1 e2
  have lo := (abs_le.1 h2p.err).1
  have hp3 := Real.pi_gt_d2
  have q5 : 6 ≤ (Flt.lit 2 * Flt.pi : Rnd r).val := by norm_num at lo hp3 ⊢; linarith
  have hw := abs_le.1 hl
  have b1 : l ≤ (Flt.pi : Rnd r).val := by
    have := (abs_le.1 hp.err).1
    have := Real.pi_gt_d6
    norm_num at *; linarith
  have ht : truncR (l / (Flt.lit 2 * Flt.pi : Rnd r).val) = 0 := by
    generalize (Flt.lit 2 * Flt.pi : Rnd r).val = q at *
    have h1 : l / q < 1 := by rw [div_lt_iff₀ (by linarith)]; norm_num at hw; linarith
    have h2 : -1 < l / q := by rw [lt_div_iff₀ (by linarith)]; norm_num at hw; linarith
    rw [truncR]
    split_ifs with h0
    · exact Int.floor_eq_zero_iff.2 ⟨h0, h1⟩
    · exact Int.ceil_eq_zero_iff.2 ⟨by linarith, by linarith⟩
  have hf : Flt.fmod L (Flt.lit 2 * Flt.pi) = L := by
    rw [e2, hL]
    show (⟨Flt.fmod (XR.fin _) (XR.fin _)⟩ : Dbl r) = _
    rw [XR.X_fmod _ _ (by linarith), fmodR, ht]
    simp [Dbl.fin]
  rw [hf]
  have hlt : Flt.lt Flt.pi L = false := by
    rw [e1, hL]
    show decide _ = false
    exact decide_eq_false (not_lt.2 b1)
  rw [hlt]; simp

end NavFuse
