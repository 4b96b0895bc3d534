import Verif.Lemmas.RoundQuat
import Verif.Props.Euler
import Mathlib.Analysis.SpecialFunctions.Trigonometric.ArctanDeriv

/-! Rounding errors of the conversions between Euler angles and rotation matrices. -/

namespace NavFuse
open Matrix Spec Props Attitude
variable [Machine] {r : ℝ → ℝ}

omit [Machine] in
theorem abs_arctan_le (t : ℝ) : |Real.arctan t| ≤ |t| := by
  have key : ∀ t : ℝ, 0 ≤ t → Real.arctan t ≤ t := by
    intro t ht
    have h0 : 0 ≤ Real.arctan t := Real.arctan_nonneg.2 ht
    have := Real.le_tan h0 (Real.arctan_lt_pi_div_two t)
    rwa [Real.tan_arctan] at this
  rcases le_total 0 t with h | h
  · rw [abs_of_nonneg h, abs_of_nonneg (Real.arctan_nonneg.2 h)]; exact key t h
  · have := key (-t) (by linarith)
    rw [Real.arctan_neg] at this
    rwa [abs_of_nonpos h, abs_of_nonpos (by have := Real.arctan_nonneg.2 (show 0 ≤ -t by linarith); rw [Real.arctan_neg] at this; linarith)]

omit [Machine] in
theorem arctan_sub_le {a b : ℝ} (h : 0 < 1 + a * b) : |Real.arctan a - Real.arctan b| ≤ |a - b| / (1 + a * b) := by
  have e := Real.arctan_add (x := a) (y := -b) (by linarith)
  rw [Real.arctan_neg, ← sub_eq_add_neg, ← sub_eq_add_neg, show 1 - a * -b = 1 + a * b by ring] at e
  rw [e]
  refine (abs_arctan_le _).trans (le_of_eq ?_)
  rw [abs_div, abs_of_pos h]

omit [Machine] in
/-- the arctangent of a quotient, when numerator and denominator are off by `δ` -/
theorem arctan_quot {x y x' y' δ ρ : ℝ} (hs : 0 < x * x') (hx : |x' - x| ≤ δ) (hy : |y' - y| ≤ δ) (hρ : 0 < ρ) (hxy : x ^ 2 + y ^ 2 = ρ ^ 2) (hδ : 3 / 2 * δ < ρ) :
    |Real.arctan (y' / x') - Real.arctan (y / x)| ≤ 3 / 2 * δ / (ρ - 3 / 2 * δ) := by
  have x0 : x ≠ 0 := left_ne_zero_of_mul hs.ne'
  have x0' : x' ≠ 0 := right_ne_zero_of_mul hs.ne'
  have hδ0 : 0 ≤ δ := (abs_nonneg _).trans hx
  have hsum : |x| + |y| ≤ 3 / 2 * ρ := by
    refine abs_le_of_sq_le_sq' ?_ (by positivity) |>.2
    have := sq_nonneg (|x| - |y|)
    nlinarith [sq_abs x, sq_abs y]
  have c1 : |(y' - y) * x| ≤ δ * |x| := by rw [abs_mul]; exact mul_le_mul_of_nonneg_right hy (abs_nonneg _)
  have c2 : |y * (x' - x)| ≤ δ * |y| := by rw [abs_mul, mul_comm]; exact mul_le_mul_of_nonneg_right hx (abs_nonneg _)
  have c3 : |x * (x' - x)| ≤ δ * |x| := by rw [abs_mul, mul_comm]; exact mul_le_mul_of_nonneg_right hx (abs_nonneg _)
  have c4 : |y * (y' - y)| ≤ δ * |y| := by rw [abs_mul, mul_comm]; exact mul_le_mul_of_nonneg_right hy (abs_nonneg _)
  have hb : δ * |x| + δ * |y| ≤ 3 / 2 * δ * ρ := by nlinarith
  have num : |y' * x - y * x'| ≤ 3 / 2 * δ * ρ := by
    rw [show y' * x - y * x' = (y' - y) * x - y * (x' - x) by ring]
    exact (abs_sub _ _).trans (by linarith)
  have den : ρ * (ρ - 3 / 2 * δ) ≤ x * x' + y * y' := by
    have e : x * x' + y * y' = ρ ^ 2 + x * (x' - x) + y * (y' - y) := by rw [← hxy]; ring
    have := abs_le.1 c3; have := abs_le.1 c4
    nlinarith
  have dp : 0 < ρ * (ρ - 3 / 2 * δ) := mul_pos hρ (by linarith)
  have e1 : 1 + y' / x' * (y / x) = (x * x' + y * y') / (x * x') := by field_simp
  have pos : 0 < 1 + y' / x' * (y / x) := by rw [e1]; exact div_pos (dp.trans_le den) hs
  refine (arctan_sub_le pos).trans ?_
  have e2 : |y' / x' - y / x| / (1 + y' / x' * (y / x)) = |y' * x - y * x'| / (x * x' + y * y') := by
    rw [e1, show y' / x' - y / x = (y' * x - y * x') / (x * x') by field_simp, abs_div, abs_of_pos hs, div_div_div_cancel_right₀ hs.ne']
  rw [e2]
  calc _ ≤ (3 / 2 * δ * ρ) / (ρ * (ρ - 3 / 2 * δ)) := div_le_div₀ (by positivity) num dp den
    _ = _ := by rw [mul_comm (3 / 2 * δ) ρ, mul_div_mul_left _ _ hρ.ne']

omit [Machine] in
/-- the arctangent of a rounded number -/
theorem arctan_rd (h : Rounds53 r) (t : ℝ) : |Real.arctan (r t) - Real.arctan t| ≤ 2.3e-16 := by
  rcases le_total |t| 1 with ht | ht
  · have e := h.rel_le ht (by norm_num)
    have hu : (1 : ℝ) / 2 ^ 52 ≤ 2.3e-16 := by norm_num
    have hp : 0 ≤ r t * t := by
      rcases le_total 0 t with h0 | h0
      · exact mul_nonneg (h.nonneg h0) h0
      · have : r t ≤ 0 := by rw [← h.zero]; exact h.mono h0
        exact mul_nonneg_of_nonpos_of_nonpos this h0
    refine (arctan_sub_le (by linarith)).trans ?_
    rw [div_le_iff₀ (by linarith)]
    nlinarith
  · have e := h.rel_le (le_refl |t|) (by linarith)
    have hu : |t| / 2 ^ 52 ≤ 2.23e-16 * |t| := by rw [div_le_iff₀ (by norm_num)]; nlinarith
    have hp : 0.999 * |t| ^ 2 ≤ r t * t := by
      have : r t * t = t ^ 2 + (r t - t) * t := by ring
      have c : |(r t - t) * t| ≤ 2.23e-16 * |t| * |t| := by
        rw [abs_mul]; exact mul_le_mul_of_nonneg_right (e.trans hu) (abs_nonneg _)
      have := (abs_le.1 c).1
      nlinarith [sq_abs t]
    have hpos : 0 < 1 + r t * t := by nlinarith [sq_nonneg |t|]
    refine (arctan_sub_le hpos).trans ?_
    rw [div_le_iff₀ hpos]
    nlinarith

omit [Machine] in
/-- the arcsine near the sine of an angle with cosine at least `c` -/
theorem arcsin_near {p c v d : ℝ} (hp : p ∈ Set.Ioo (-(Real.pi / 2)) (Real.pi / 2)) (e : |v - Real.sin p| ≤ d) (hc : c ≤ Real.cos p)
    (hd : 300 * d ≤ c ^ 2) (c0 : 0 < c) (d0 : 0 ≤ d) : v ∈ Set.Ioo (-1 : ℝ) 1 ∧ |Real.arcsin v - p| ≤ 2.1 * d / c := by
  have hcos := Real.sin_sq_add_cos_sq p
  have s1 := Real.abs_sin_le_one p
  have c1 := Real.cos_le_one p
  have t2 : Real.arctan (Real.sin p / Real.cos p) = p := by rw [← Real.tan_eq_sin_div_cos, Real.arctan_tan hp.1 hp.2]
  generalize Real.sin p = s at *
  generalize Real.cos p = k at *
  have hcc : c ≤ 1 := hc.trans c1
  have cp : 0 < k := c0.trans_le hc
  have c2 : c ^ 2 ≤ k ^ 2 := pow_le_pow_left₀ c0.le hc 2
  have k2 : 0 < k ^ 2 := by positivity
  have dsm : d ≤ 1 / 300 := by nlinarith
  have dif : |(1 - v ^ 2) - k ^ 2| ≤ 201 / 100 * d := by
    rw [show (1 - v ^ 2) - k ^ 2 = -((v - s) * (v - s + 2 * s)) by linear_combination -hcos, abs_neg, abs_mul]
    have : |v - s + 2 * s| ≤ 201 / 100 := by
      refine (abs_add_le _ _).trans ?_
      rw [abs_mul, abs_of_pos (by norm_num : (0 : ℝ) < 2)]
      linarith
    calc _ ≤ d * (201 / 100) := mul_le_mul e this (abs_nonneg _) d0
      _ = _ := by ring
  have dif' := abs_le.1 dif
  have vlo : 49 / 50 * k ^ 2 ≤ 1 - v ^ 2 := by linarith
  have v1 : v ^ 2 < 1 := by linarith
  have hvI : v ∈ Set.Ioo (-1 : ℝ) 1 := abs_lt.1 ((sq_lt_one_iff_abs_lt_one v).1 v1)
  refine ⟨hvI, ?_⟩
  have t1 : Real.arcsin v = Real.arctan (v / Real.sqrt (1 - v ^ 2)) := by rw [Real.arcsin_eq_arctan hvI]
  have w2 : Real.sqrt (1 - v ^ 2) ^ 2 = 1 - v ^ 2 := Real.sq_sqrt (by linarith)
  have w0 : 0 < Real.sqrt (1 - v ^ 2) := Real.sqrt_pos.2 (by linarith)
  rw [t1]
  generalize Real.sqrt (1 - v ^ 2) = w at *
  have wlo : 49 / 50 * k ≤ w := by
    refine abs_le_of_sq_le_sq' ?_ w0.le |>.2
    rw [w2]; linarith
  have wd : |w - k| ≤ 51 / 50 * (d / k) := by
    rw [← mul_div_assoc, le_div_iff₀ cp]
    have e1 : |w - k| * (w + k) ≤ 201 / 100 * d := by
      rw [← abs_of_pos (show 0 < w + k by linarith), ← abs_mul, show (w - k) * (w + k) = w ^ 2 - k ^ 2 by ring, w2]
      exact dif
    have h3 : |w - k| * (99 / 50 * k) ≤ |w - k| * (w + k) := mul_le_mul_of_nonneg_left (by linarith) (abs_nonneg _)
    linarith
  have sm : d / k ≤ 1 / 300 := by
    rw [div_le_iff₀ cp]
    nlinarith
  have num : |v * k - s * w| ≤ 41 / 20 * (d / k) := by
    rw [show v * k - s * w = (v - s) * k - s * (w - k) by ring]
    refine (abs_sub _ _).trans ?_
    rw [abs_mul, abs_mul, abs_of_pos cp]
    have i1 : |v - s| * k ≤ d / k := by
      rw [le_div_iff₀ cp, mul_assoc]
      have : |v - s| * (k * k) ≤ d * 1 := mul_le_mul e (by nlinarith) (by positivity) d0
      linarith
    have i2 : |s| * |w - k| ≤ 1 * (51 / 50 * (d / k)) := mul_le_mul s1 wd (abs_nonneg _) (by norm_num)
    have : 0 ≤ d / k := by positivity
    linarith
  have den : 49 / 50 ≤ w * k + v * s := by
    have e0 : w * k + v * s = 1 + (w - k) * k + (v - s) * s := by linear_combination hcos
    have j1 : |(w - k) * k| ≤ 1 / 100 * 1 := by
      rw [abs_mul, abs_of_pos cp]
      exact mul_le_mul (by linarith) c1 cp.le (by norm_num)
    have j2 : |(v - s) * s| ≤ 1 / 300 * 1 := by
      rw [abs_mul]
      exact mul_le_mul (e.trans dsm) s1 (abs_nonneg _) (by norm_num)
    have := abs_le.1 j1; have := abs_le.1 j2
    linarith
  have hs : 0 < w * k := mul_pos w0 cp
  have e1 : 1 + v / w * (s / k) = (w * k + v * s) / (w * k) := by field_simp
  have pos : 0 < 1 + v / w * (s / k) := by rw [e1]; exact div_pos (by linarith) hs
  rw [← t2]
  refine (arctan_sub_le pos).trans ?_
  have e2 : |v / w - s / k| / (1 + v / w * (s / k)) = |v * k - s * w| / (w * k + v * s) := by
    rw [e1, show v / w - s / k = (v * k - s * w) / (w * k) by field_simp, abs_div, abs_of_pos hs, div_div_div_cancel_right₀ hs.ne']
  rw [e2]
  calc _ ≤ (41 / 20 * (d / k)) / (49 / 50) := div_le_div₀ (by positivity) num (by norm_num) den
    _ ≤ (41 / 20 * (d / c)) / (49 / 50) := by gcongr
    _ = (41 / 20 / (49 / 50)) * (d / c) := by ring
    _ ≤ 2.1 * (d / c) := mul_le_mul_of_nonneg_right (by norm_num) (by positivity)
    _ = _ := by ring

namespace Aj
variable {X X' : Dbl r} {x x' : Rnd r} {y y' d d' M M' D N : ℝ}

/-- the arctangent of a quotient -/
theorem atan_quot (h : Rounds53 r) (a : Aj X x y d 1) (b : Aj X' x' y' d 1) {ρ : ℝ} (h9 : 1e-9 < |y'| - d) (hρ : 0 < ρ)
    (hxy : y' ^ 2 + y ^ 2 = ρ ^ 2) (hδ : 3 / 2 * d < ρ) (hD : 3 / 2 * d / (ρ - 3 / 2 * d) + 7e-16 ≤ D) (hD2 : D ≤ 1) :
    Aj (Flt.atan (X / X')) (Flt.atan (x / x')) (Real.arctan (y / y')) D 1.6 ∧ 0 < y' * x'.val := by
  have hs : 0 < y' * x'.val := by
    have e := abs_le.1 b.err
    rcases le_total 0 y' with h0 | h0
    · rw [abs_of_nonneg h0] at h9; exact mul_pos (by linarith) (by linarith)
    · rw [abs_of_nonpos h0] at h9; exact mul_pos_of_neg_of_neg (by linarith) (by linarith)
  have x0 : x'.val ≠ 0 := right_ne_zero_of_mul hs.ne'
  have lo : 1e-9 ≤ |x'.val| := by
    have e := b.err
    have := abs_sub_abs_le_abs_sub y' x'.val
    rw [abs_sub_comm] at this
    linarith
  have d0 : 0 ≤ d := b.ap.d_nonneg
  have hq0 : 0 ≤ 3 / 2 * d / (ρ - 3 / 2 * d) := div_nonneg (by linarith) (by linarith)
  have d1 : d ≤ 1 := by
    have := b.mag
    linarith
  have q1 : |x.val / x'.val| ≤ 2e9 := by
    rw [abs_div, div_le_iff₀ (by linarith)]
    have := a.ap.val_le
    nlinarith
  have q2 := h.rel_le q1 (by norm_num)
  have sq : Dbl.Sim (X / X') (x / x') := a.sim.div b.sim x0 (by
    show |r (x.val / x'.val)| ≤ _
    have := abs_add_le (r (x.val / x'.val) - x.val / x'.val) (x.val / x'.val)
    rw [sub_add_cancel] at this
    refine this.trans ((add_le_add q2 q1).trans (by norm_num)))
  have pi2 : ∀ t, |Real.arctan t| ≤ 1.6 := fun t => by
    have h1 := Real.arctan_lt_pi_div_two t
    have h2 := Real.neg_pi_div_two_lt_arctan t
    have := Real.pi_lt_d2
    rw [abs_le]; constructor <;> norm_num at * <;> linarith
  have e1 := arctan_quot hs b.err a.err hρ hxy hδ
  have e2 := arctan_rd h (x.val / x'.val)
  have e3 := (Machine.faithful .atan (r (x.val / x'.val)) 0).rel_le (pi2 (r (x.val / x'.val))) (by norm_num)
  have e3' : (1.6 : ℝ) / 2 ^ 52 ≤ 3.6e-16 := by norm_num
  have err : |Machine.lib .atan (r (x.val / x'.val)) 0 (Real.arctan (r (x.val / x'.val))) - Real.arctan (y / y')| ≤ D := by
    have t1 := abs_add_le (Machine.lib .atan (r (x.val / x'.val)) 0 (Real.arctan (r (x.val / x'.val))) - Real.arctan (r (x.val / x'.val))) (Real.arctan (r (x.val / x'.val)) - Real.arctan (x.val / x'.val))
    have t2 := abs_add_le (Machine.lib .atan (r (x.val / x'.val)) 0 (Real.arctan (r (x.val / x'.val))) - Real.arctan (r (x.val / x'.val)) + (Real.arctan (r (x.val / x'.val)) - Real.arctan (x.val / x'.val)))
      (Real.arctan (x.val / x'.val) - Real.arctan (y / y'))
    rw [sub_add_sub_cancel, sub_add_sub_cancel] at t2
    rw [sub_add_sub_cancel] at t1
    norm_num at *
    linarith
  have ap : Ap (Flt.atan (x / x')) (Real.arctan (y / y')) D 1.6 := ⟨err, pi2 _⟩
  refine ⟨⟨?_, ap⟩, hs⟩
  rw [sq]
  exact Dbl.lb_fin ((small ap (by norm_num at *; linarith)).trans_lt Dbl.big)

/-- the arcsine, at an angle with cosine `c` -/
theorem asin (_h : Rounds53 r) {p c : ℝ} (hp : p ∈ Set.Ioo (-(Real.pi / 2)) (Real.pi / 2)) (a : Aj X x (Real.sin p) d 1) (hc : c ≤ Real.cos p)
    (hd : 300 * d ≤ c ^ 2) (c0 : 0 < c) (hD : 3.1 * d / c + 4e-16 ≤ D) (hD2 : D ≤ 1) : Aj (Flt.asin X) (Flt.asin x) p D 1.6 := by
  have d0 : 0 ≤ d := a.ap.d_nonneg
  obtain ⟨hvI, main⟩ := arcsin_near hp a.err hc hd c0 d0
  have pb : |p| ≤ 1.6 := by
    have := Real.pi_lt_d2
    have := hp.1; have := hp.2
    rw [abs_le]; constructor <;> norm_num at * <;> linarith
  have dc : 0 ≤ d / c := by positivity
  have rr := (Machine.faithful .asin x.val 0).step main pb
  have hu : ulp ≤ 2.23e-16 := by unfold ulp; norm_num
  have hcc : c ≤ 1 := hc.trans (Real.cos_le_one p)
  have dcs : d / c ≤ 1 := by rw [div_le_iff₀ c0]; nlinarith
  have hdc : 2.1 * d / c = 2.1 * (d / c) := by ring
  have hdc' : 3.1 * d / c = 3.1 * (d / c) := by ring
  have ap : Ap (Flt.asin x) p D 1.6 := ⟨by
    show |Machine.lib .asin x.val 0 (Real.arcsin x.val) - p| ≤ D
    refine rr.trans (le_trans ?_ hD)
    rw [hdc, hdc']
    generalize d / c = z at *
    have hu0 := ulp_pos
    have h1 : 2.1 * z * ulp ≤ 2.1 * z * 2.23e-16 := mul_le_mul_of_nonneg_left hu (by positivity)
    have h2 : (1.6 + 2.1 * z) * ulp = 1.6 * ulp + 2.1 * z * ulp := by ring
    rw [h2]
    clear rr main hdc hdc' hD
    norm_num at *
    linarith, pb⟩
  refine ⟨?_, ap⟩
  rw [a.sim]
  show Dbl.lb (Machine.lib .asin x.val 0) (Flt.asin (XR.fin x.val)) = _
  rw [XR.X_asin x.val ⟨hvI.1.le, hvI.2.le⟩]
  exact Dbl.lb_fin ((small ap (by norm_num at *; linarith)).trans_lt Dbl.big)

theorem mmul3 (h : Rounds53 r) {A B : M3 (Dbl r)} {a b : M3 (Rnd r)} {F G : Matrix (Fin 3) (Fin 3) ℝ} {d e P D : ℝ}
    (hA : ∀ i j, Aj (A i j) (a i j) (F i j) d 1) (hB : ∀ i j, Aj (B i j) (b i j) (G i j) e 1)
    (hP : d * (1 + e) + 1 * e + (1 * 1 + (d * (1 + e) + 1 * e)) / 4e15 ≤ P) (hP2 : P ≤ 1e-10) (hD : 3.001 * P + 1.6e-15 ≤ D) (hD2 : D ≤ 1)
    (hFG : ∀ i j, |(F * G) i j| ≤ 1) (i j : Fin 3) : Aj (mmul A B i j) (mmul a b i j) ((F * G) i j) D 1 := by
  have m : ∀ l, Aj (A i l * B l j) (a i l * b l j) (F i l * G l j) P 1 := fun l => (hA i l).mul h (hB l j) hP (by norm_num) (by norm_num) (by norm_num at *; linarith)
  have P0 : 0 ≤ P := (m 0).ap.d_nonneg
  have s1 := (m (ord3 0)).add h (m (ord3 1)) (D := 2.0003 * P + 7.6e-16) (N := 2) (by norm_num at *; linarith) (by norm_num) (by norm_num) (by norm_num at *; linarith)
  have s2 := s1.add h (m (ord3 2)) (D := D) (N := 3) (by norm_num at *; linarith) (by norm_num) (by norm_num) (by norm_num at *; linarith)
  have s3 := (s2.congr (y' := (F * G) i j) (by rw [mul_apply, Fin.sum_univ_three]; exact sum_ord3 fun l => F i l * G l j)).bound (hFG i j)
  rw [show mmul A B i j = _ from Dbl.fsum3 fun l => A i l * B l j, show mmul a b i j = _ from Rnd.fsum3' fun l => a i l * b l j]
  exact s3

end Aj

/-- the matrix made from Euler angles -/
theorem euler_ap (h : Rounds53 r) (e : V3 ℝ) (i j : Fin 3) :
    Aj ((euler2Dcm (fun i => (Dbl.fin (e i) : Dbl r))).2 i j) ((euler2Dcm (fun i => (⟨e i⟩ : Rnd r))).2 i j) ((bodyToNed (e 0) (e 1) (e 2))ᵀ i j) 1.5e-14 1 := by
  have x : ∀ i, Aj (Dbl.fin (e i) : Dbl r) ⟨e i⟩ (e i) 0 |e i| := fun i => Aj.exact ⟨e i⟩ (le_refl _)
  have s : ∀ i, Aj (Flt.sin (Dbl.fin (e i) : Dbl r)) (Flt.sin (⟨e i⟩ : Rnd r)) (Real.sin (e i)) 2.51e-16 1 := fun i => (x i).sin h (by norm_num)
  have c : ∀ i, Aj (Flt.cos (Dbl.fin (e i) : Dbl r)) (Flt.cos (⟨e i⟩ : Rnd r)) (Real.cos (e i)) 2.51e-16 1 := fun i => (x i).cos h (by norm_num)
  have n : ∀ i, Aj (-Flt.sin (Dbl.fin (e i) : Dbl r)) (-Flt.sin (⟨e i⟩ : Rnd r)) (-Real.sin (e i)) 2.51e-16 1 := fun i => (s i).neg
  have z : Aj (Flt.lit 0 : Dbl r) (Flt.lit 0 : Rnd r) 0 2.51e-16 1 := by simpa using Aj.lit h 0 (N := 1) (D := 2.51e-16) (by norm_num) (by norm_num)
  have o : Aj (Flt.lit 1 : Dbl r) (Flt.lit 1 : Rnd r) 1 2.51e-16 1 := by simpa using Aj.lit h 1 (N := 1) (D := 2.51e-16) (by norm_num) (by norm_num)
  have h1 : ∀ i j, Aj ((!![Flt.lit 1, Flt.lit 0, Flt.lit 0; Flt.lit 0, Flt.cos (.fin (e 0)), Flt.sin (.fin (e 0)); Flt.lit 0, -Flt.sin (.fin (e 0)), Flt.cos (.fin (e 0))] : M3 (Dbl r)) i j)
      ((!![Flt.lit 1, Flt.lit 0, Flt.lit 0; Flt.lit 0, Flt.cos ⟨e 0⟩, Flt.sin ⟨e 0⟩; Flt.lit 0, -Flt.sin ⟨e 0⟩, Flt.cos ⟨e 0⟩] : M3 (Rnd r)) i j) ((rotX (e 0))ᵀ i j) 2.51e-16 1 := by
    intro i j
    have := s 0; have := c 0; have := n 0
    fin_cases i <;> fin_cases j <;> simp only [rotX, transpose_apply] <;> first | exact z | exact o | assumption
  have h2 : ∀ i j, Aj ((!![Flt.cos (.fin (e 1)), Flt.lit 0, -Flt.sin (.fin (e 1)); Flt.lit 0, Flt.lit 1, Flt.lit 0; Flt.sin (.fin (e 1)), Flt.lit 0, Flt.cos (.fin (e 1))] : M3 (Dbl r)) i j)
      ((!![Flt.cos ⟨e 1⟩, Flt.lit 0, -Flt.sin ⟨e 1⟩; Flt.lit 0, Flt.lit 1, Flt.lit 0; Flt.sin ⟨e 1⟩, Flt.lit 0, Flt.cos ⟨e 1⟩] : M3 (Rnd r)) i j) ((rotY (e 1))ᵀ i j) 2.51e-16 1 := by
    intro i j
    have := s 1; have := c 1; have := n 1
    fin_cases i <;> fin_cases j <;> simp only [rotY, transpose_apply] <;> first | exact z | exact o | assumption
  have h3 : ∀ i j, Aj ((!![Flt.cos (.fin (e 2)), Flt.sin (.fin (e 2)), Flt.lit 0; -Flt.sin (.fin (e 2)), Flt.cos (.fin (e 2)), Flt.lit 0; Flt.lit 0, Flt.lit 0, Flt.lit 1] : M3 (Dbl r)) i j)
      ((!![Flt.cos ⟨e 2⟩, Flt.sin ⟨e 2⟩, Flt.lit 0; -Flt.sin ⟨e 2⟩, Flt.cos ⟨e 2⟩, Flt.lit 0; Flt.lit 0, Flt.lit 0, Flt.lit 1] : M3 (Rnd r)) i j) ((rotZ (e 2))ᵀ i j) 2.51e-16 1 := by
    intro i j
    have := s 2; have := c 2; have := n 2
    fin_cases i <;> fin_cases j <;> simp only [rotZ, transpose_apply] <;> first | exact z | exact o | assumption
  have rx := (isRot_rotX (e 0)).transpose
  have ry := (isRot_rotY (e 1)).transpose
  have rz := (isRot_rotZ (e 2)).transpose
  have p1 := Aj.mmul3 h h1 h2 (P := 7.6e-16) (D := 3.9e-15) (by norm_num) (by norm_num) (by norm_num) (by norm_num) (rx.mul ry).entry_le
  have p2 := Aj.mmul3 h p1 h3 (P := 4.42e-15) (D := 1.5e-14) (by norm_num) (by norm_num) (by norm_num) (by norm_num) ((rx.mul ry).mul rz).entry_le
  have hb : (bodyToNed (e 0) (e 1) (e 2))ᵀ = (rotX (e 0))ᵀ * (rotY (e 1))ᵀ * (rotZ (e 2))ᵀ := by
    simp only [bodyToNed, transpose_mul, Matrix.mul_assoc]
  rw [hb]
  exact p2 i j

end NavFuse
