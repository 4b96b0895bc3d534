import Verif.Lemmas.Rounding
import Verif.Lemmas.SumOrder
import Verif.Lemmas.StrapdownEval
import Mathlib.Analysis.SpecialFunctions.Trigonometric.Bounds

/-! # Rounding errors of the attitude update -/

namespace NavFuse
open Matrix Spec Strapdown
variable [Machine] {r : ℝ → ℝ}

/-- the relative error of one rounding, in any mode -/
noncomputable def ulp : ℝ := 1 / 2 ^ 52

omit [Machine] in
theorem ulp_pos : 0 < ulp := by unfold ulp; positivity
omit [Machine] in
theorem ulp_le : ulp ≤ 1 / 10 ^ 15 := by unfold ulp; norm_num

omit [Machine] in
/-- rounding a number that is within `d` of `y` -/
theorem Rounds53.step (h : Rounds53 r) {x y d M : ℝ} (hd : |x - y| ≤ d) (hy : |y| ≤ M) (hM : 1e-50 ≤ M := by norm_num) : |r x - y| ≤ d + (M + d) * ulp := by
  have h2 : |x| ≤ M + d := by
    have := abs_add_le (x - y) y
    rw [sub_add_cancel] at this
    linarith
  have h3 := abs_add_le (r x - x) (x - y)
  rw [sub_add_sub_cancel] at h3
  have h4 := h.rel_le h2 (by linarith [(abs_nonneg _).trans hd])
  rw [div_eq_mul_one_div, ← ulp] at h4
  linarith

omit [Machine] in
theorem Rounds53.one (h : Rounds53 r) : r 1 = 1 := by have := h.int 1 (by norm_num); simpa using this

theorem Rnd.lit_zero (h : Rounds53 r) : (Flt.lit 0 : Rnd r).val = 0 := by
  show r ((0 : ℚ) : ℝ) = 0
  rw [Rat.cast_zero, h.zero]
theorem Rnd.lit_one (h : Rounds53 r) : (Flt.lit 1 : Rnd r).val = 1 := by
  show r ((1 : ℚ) : ℝ) = 1
  rw [Rat.cast_one, h.one]

/-- a scalar product of three terms, each at most `T` -/
theorem Rnd.dot3 (h : Rounds53 r) (x y : Fin 3 → Rnd r) (T : ℝ) (hT : ∀ l, |(x l).val * (y l).val| ≤ T) (hT1 : 1e-50 ≤ T := by norm_num) :
    |(fsum fun l => x l * y l).val - ∑ l, (x l).val * (y l).val| ≤ 10 * T * ulp := by
  have hu := ulp_pos
  have hu2 := ulp_le
  have hT0 : 0 ≤ T := (abs_nonneg _).trans (hT 0)
  rw [Rnd.fsum3, Fin.sum_univ_three, ← sum_ord3 fun l => (x l).val * (y l).val]
  show |r (r (r ((x (ord3 0)).val * (y (ord3 0)).val) + r ((x (ord3 1)).val * (y (ord3 1)).val)) + r ((x (ord3 2)).val * (y (ord3 2)).val)) - _| ≤ _
  have t0 := hT (ord3 0); have t1 := hT (ord3 1); have t2 := hT (ord3 2)
  generalize (x (ord3 0)).val * (y (ord3 0)).val = p at *
  generalize (x (ord3 1)).val * (y (ord3 1)).val = q at *
  generalize (x (ord3 2)).val * (y (ord3 2)).val = s at *
  have hp := h.step (x := p) (y := p) (d := 0) (by simp) t0 hT1
  have hq := h.step (x := q) (y := q) (d := 0) (by simp) t1 hT1
  have hs := h.step (x := s) (y := s) (d := 0) (by simp) t2 hT1
  simp only [zero_add, add_zero] at hp hq hs
  generalize r p = p' at *
  generalize r q = q' at *
  generalize r s = s' at *
  have a2 : |p' + q' - (p + q)| ≤ T * ulp + T * ulp := by
    rw [show p' + q' - (p + q) = (p' - p) + (q' - q) by ring]
    exact (abs_add_le _ _).trans (add_le_add hp hq)
  have k2 := h.step a2 (show |p + q| ≤ 2 * T from (abs_add_le _ _).trans (by linarith)) (by linarith)
  generalize r (p' + q') = w at *
  have a3 := (abs_add_le _ _).trans (add_le_add k2 hs)
  rw [show w - (p + q) + (s' - s) = w + s' - (p + q + s) by ring] at a3
  have k3 := h.step a3 (show |p + q + s| ≤ 3 * T from (abs_add_le _ _).trans (by linarith [abs_add_le p q])) (by linarith)
  refine k3.trans ?_
  have c1 : T * ulp * ulp ≤ T * ulp * (1 / 10 ^ 15) := mul_le_mul_of_nonneg_left hu2 (by positivity)
  have c0 : 0 ≤ T * ulp := by positivity
  have c2 : T * ulp * ulp * ulp ≤ T * ulp * (1 / 10 ^ 15) := by
    have : T * ulp * ulp * ulp ≤ T * ulp * ulp * 1 := mul_le_mul_of_nonneg_left (by linarith) (by positivity)
    linarith
  have c3 : T * ulp * ulp * ulp * ulp ≤ T * ulp * (1 / 10 ^ 15) := by
    have : T * ulp * ulp * ulp * ulp ≤ T * ulp * ulp * ulp * 1 := mul_le_mul_of_nonneg_left (by linarith) (by positivity)
    linarith
  norm_num at c1 c2 c3
  ring_nf at *
  linarith

/-- the values of a vector -/
noncomputable def valV {n : ℕ} (v : Fin n → Rnd r) : Fin n → ℝ := fun i => (v i).val
/-- the values of a matrix -/
noncomputable def valM {n m : ℕ} (A : Matrix (Fin n) (Fin m) (Rnd r)) : Matrix (Fin n) (Fin m) ℝ := of fun i j => (A i j).val

omit [Machine] in
theorem len3_nonneg' (v : Fin 3 → ℝ) : 0 ≤ len3 v := Real.sqrt_nonneg _

omit [Machine] in
theorem le_len3 (v : Fin 3 → ℝ) (i : Fin 3) : |v i| ≤ len3 v := by
  rw [← Real.sqrt_sq_eq_abs, len3]
  apply Real.sqrt_le_sqrt
  have h0 := sq_nonneg (v 0); have h1 := sq_nonneg (v 1); have h2 := sq_nonneg (v 2)
  fin_cases i <;> simp <;> linarith

/-- the computed length of a vector -/
theorem vnorm_rnd (h : Rounds53 r) (φ : V3 (Rnd r)) (hp : 1e-20 ≤ len3 (valV φ)) : |(vnorm φ).val - len3 (valV φ)| ≤ 12 * len3 (valV φ) * ulp := by
  have hu := ulp_pos
  have hu2 := ulp_le
  set θ := len3 (valV φ) with hθ
  have hθ0 : 0 ≤ θ := len3_nonneg' _
  have hd := Rnd.dot3 h φ φ (θ ^ 2) (fun l => by
    rw [← pow_two, abs_of_nonneg (sq_nonneg _)]
    exact sq_le_sq' (by have := (abs_le.1 (le_len3 (valV φ) l)).1; exact this) (le_of_abs_le (le_len3 (valV φ) l))) (by nlinarith)
  have hs : ∑ l, (φ l).val * (φ l).val = θ ^ 2 := by
    rw [hθ, Props.len3_sq, Fin.sum_univ_three]; simp only [valV]; ring
  rw [hs] at hd
  show |r (Real.sqrt (fsum fun l => φ l * φ l).val) - θ| ≤ _
  generalize (fsum fun l => φ l * φ l).val = q at *
  have hq : |Real.sqrt q - θ| ≤ 10 * θ * ulp := by
    rcases eq_or_lt_of_le hθ0 with h0 | h0
    · rw [← h0] at hd ⊢
      have : q = 0 := by
        have : |q - 0 ^ 2| ≤ 0 := hd.trans (by norm_num)
        have := abs_nonpos_iff.1 this
        linarith
      simp [this]
    · have hq0 : 0 ≤ q := by
        have := (abs_le.1 hd).1
        have : θ ^ 2 * ulp ≤ θ ^ 2 * (1 / 10 ^ 15) := mul_le_mul_of_nonneg_left hu2 (by positivity)
        have := sq_nonneg θ
        nlinarith
      have hq2 := Real.sq_sqrt hq0
      have hqs := Real.sqrt_nonneg q
      generalize Real.sqrt q = w at *
      rw [← hq2] at hd
      have e : |w - θ| * (w + θ) = |w ^ 2 - θ ^ 2| := by
        rw [show w ^ 2 - θ ^ 2 = (w - θ) * (w + θ) by ring, abs_mul, abs_of_nonneg (by linarith : 0 ≤ w + θ)]
      have : |w - θ| * θ ≤ 10 * θ ^ 2 * ulp := by
        refine le_trans ?_ (e.le.trans hd)
        exact mul_le_mul_of_nonneg_left (by linarith) (abs_nonneg _)
      have : |w - θ| * θ ≤ (10 * θ * ulp) * θ := by linarith
      exact le_of_mul_le_mul_right this h0
  have k := h.step hq (show |θ| ≤ θ from (abs_of_nonneg hθ0).le) (le_trans (by norm_num) hp)
  refine k.trans ?_
  have : θ * ulp * ulp ≤ θ * ulp * (1 / 10 ^ 15) := mul_le_mul_of_nonneg_left hu2 (by positivity)
  have : 0 ≤ θ * ulp := by positivity
  norm_num at *
  linarith

omit [Machine] in
/-- quotient by a computed length: `q / m` times the true length -/
theorem quot_err {q m y t d k : ℝ} (hk : 0 ≤ k ∧ k ≤ 100) (ht : 0 < t) (hm : |m - t| ≤ k * t * ulp) (hq : |q - y| ≤ d) {M : ℝ} (hy : |y| ≤ M) :
    |q / m * t - y| ≤ d + (M + d) * ((k + 1) * ulp) := by
  have hu := ulp_pos
  have hu2 := ulp_le
  have hku : k * ulp ≤ 1 / 10 ^ 13 := by
    calc k * ulp ≤ 100 * (1 / 10 ^ 15) := mul_le_mul hk.2 hu2 hu.le (by norm_num)
      _ = _ := by norm_num
  have hm1 := (abs_le.1 hm).1
  have hm0 : t * (1 - k * ulp) ≤ m := by nlinarith
  have hmp : 0 < m := lt_of_lt_of_le (mul_pos ht (by linarith)) hm0
  have hr1 : |t / m - 1| ≤ (k + 1) * ulp := by
    rw [show t / m - 1 = (t - m) / m by field_simp, abs_div, abs_of_pos hmp, div_le_iff₀ hmp, abs_sub_comm]
    refine hm.trans ?_
    have h1 : (k + 1) * ulp * (t * (1 - k * ulp)) ≤ (k + 1) * ulp * m := mul_le_mul_of_nonneg_left hm0 (by nlinarith [hk.1])
    refine le_trans ?_ h1
    have h2 : k * (k * ulp) ≤ 1 / 10 ^ 11 := by
      calc k * (k * ulp) ≤ 100 * (1 / 10 ^ 13) := mul_le_mul hk.2 hku (mul_nonneg hk.1 hu.le) (by norm_num)
        _ = _ := by norm_num
    have h3 : k ≤ (k + 1) * (1 - k * ulp) := by
      have : (k + 1) * (1 - k * ulp) = k + 1 - k * (k * ulp) - k * ulp := by ring
      rw [this]; norm_num at h2 hku; linarith
    have := mul_le_mul_of_nonneg_right h3 (mul_pos ht hu).le
    nlinarith
  have hqM : |q| ≤ M + d := by
    have := abs_add_le (q - y) y
    rw [sub_add_cancel] at this
    linarith
  have e : q / m * t - y = q * (t / m - 1) + (q - y) := by ring
  rw [e]
  refine (abs_add_le _ _).trans ?_
  rw [abs_mul]
  have := mul_le_mul hqM hr1 (abs_nonneg _) ((abs_nonneg q).trans hqM)
  linarith

/-- the computed coefficients of the attitude increment -/
theorem coef_err (h : Rounds53 r) (φ : V3 (Rnd r)) (hp1 : 1e-20 ≤ len3 (valV φ)) (h4 : len3 (valV φ) ≤ 4) :
    |(Flt.sin (vnorm φ) / vnorm φ).val * len3 (valV φ) - Real.sin (len3 (valV φ))| ≤ 65 * ulp ∧
    |((Flt.lit 1 - Flt.cos (vnorm φ)) / (vnorm φ * vnorm φ)).val * len3 (valV φ) ^ 2 - (1 - Real.cos (len3 (valV φ)))| ≤ 112 * ulp := by
  have hu := ulp_pos
  have hu2 := ulp_le
  have huu : ulp * ulp ≤ ulp * (1 / 10 ^ 15) := mul_le_mul_of_nonneg_left hu2 hu.le
  have huuu : ulp * ulp * ulp ≤ ulp * (1 / 10 ^ 15) := by
    have : ulp * ulp * ulp ≤ ulp * ulp * 1 := mul_le_mul_of_nonneg_left (by linarith) (by positivity)
    linarith
  norm_num at huu huuu
  have hp : 0 < len3 (valV φ) := lt_of_lt_of_le (by norm_num) hp1
  have hv := vnorm_rnd h φ hp1
  set θ := len3 (valV φ)
  have d1 : |(vnorm φ).val - θ| ≤ 48 * ulp := hv.trans (by nlinarith)
  have hone := Rnd.lit_one h
  show |r (Machine.lib .sin (vnorm φ).val 0 (Real.sin (vnorm φ).val) / (vnorm φ).val) * θ - _| ≤ _ ∧
    |r (r ((Flt.lit 1 : Rnd r).val - Machine.lib .cos (vnorm φ).val 0 (Real.cos (vnorm φ).val)) / r ((vnorm φ).val * (vnorm φ).val)) * θ ^ 2 - _| ≤ _
  rw [hone]
  generalize (vnorm φ).val = m at *
  have s1 : |Real.sin m - Real.sin θ| ≤ 48 * ulp := (Real.abs_sin_sub_sin_le m θ).trans d1
  have c1 : |Real.cos m - Real.cos θ| ≤ 48 * ulp := (Real.abs_cos_sub_cos_le m θ).trans d1
  have s2 := (Machine.faithful .sin m 0).step s1 (Real.abs_sin_le_one θ)
  have c2 := (Machine.faithful .cos m 0).step c1 (Real.abs_cos_le_one θ)
  generalize Machine.lib .sin m 0 (Real.sin m) = sm at *
  generalize Machine.lib .cos m 0 (Real.cos m) = cm at *
  have rnd1 : ∀ {q t y d M : ℝ}, 0 ≤ t → t ≤ 16 → |q * t - y| ≤ d → |y| ≤ M →
      |r q * t - y| ≤ d + (M + d) * ulp + ulp / 10 ^ 15 := by
    intro q t y d M ht ht16 hd hy
    have h1 := h.rel_add q
    have e : r q * t - y = (r q - q) * t + (q * t - y) := by ring
    have h2 : |q * t| ≤ M + d := by
      have := abs_add_le (q * t - y) y
      rw [sub_add_cancel] at this
      linarith
    have h3 : |r q - q| * t ≤ (M + d) * ulp + ulp / 10 ^ 15 := by
      calc |r q - q| * t ≤ (|q| / 2 ^ 52 + 1e-75) * t := mul_le_mul_of_nonneg_right h1 ht
        _ = |q * t| * ulp + 1e-75 * t := by rw [abs_mul, abs_of_nonneg ht, ulp]; ring
        _ ≤ _ := add_le_add (mul_le_mul_of_nonneg_right h2 hu.le) (by rw [ulp]; norm_num; linarith)
    rw [e]
    refine (abs_add_le _ _).trans ?_
    rw [abs_mul, abs_of_nonneg ht]; linarith
  constructor
  · have q1 := quot_err (k := 12) (by norm_num) hp hv s2 (Real.abs_sin_le_one θ)
    have q2 := rnd1 hp.le (by linarith) q1 (Real.abs_sin_le_one θ)
    refine q2.trans ?_
    nlinarith
  · have a1 : |1 - cm - (1 - Real.cos θ)| ≤ 48 * ulp + (1 + 48 * ulp) * ulp := by
      rw [show 1 - cm - (1 - Real.cos θ) = -(cm - Real.cos θ) by ring, abs_neg]; exact c2
    have hb : |1 - Real.cos θ| ≤ 2 := by
      rw [abs_le]; constructor <;> linarith [Real.cos_le_one θ, Real.neg_one_le_cos θ]
    have a2 := h.step a1 hb
    have m1 : |m * m - θ ^ 2| ≤ 25 * θ ^ 2 * ulp := by
      have e : m * m - θ ^ 2 = (m - θ) * (m - θ) + 2 * θ * (m - θ) := by ring
      rw [e]
      refine (abs_add_le _ _).trans ?_
      rw [abs_mul, abs_mul, abs_of_nonneg (by linarith : 0 ≤ 2 * θ)]
      have t1 := mul_le_mul hv hv (abs_nonneg _) (by positivity)
      have t2 := mul_le_mul_of_nonneg_left hv (by linarith : 0 ≤ 2 * θ)
      have t3 : θ ^ 2 * (ulp * ulp) ≤ θ ^ 2 * (ulp * (1 / 1000000000000000)) := mul_le_mul_of_nonneg_left (by linarith) (sq_nonneg θ)
      have t4 : 0 ≤ θ ^ 2 * ulp := by positivity
      nlinarith
    have m2 := h.step m1 (abs_of_nonneg (sq_nonneg θ)).le (le_trans (by norm_num) (pow_le_pow_left₀ (by norm_num) hp1 2))
    have m3 : |r (m * m) - θ ^ 2| ≤ 27 * θ ^ 2 * ulp := by
      refine m2.trans ?_
      have t3 : θ ^ 2 * (ulp * ulp) ≤ θ ^ 2 * (ulp * (1 / 1000000000000000)) := mul_le_mul_of_nonneg_left (by linarith) (sq_nonneg θ)
      have t4 : 0 ≤ θ ^ 2 * ulp := by positivity
      nlinarith
    have q1 := quot_err (k := 27) (by norm_num) (by positivity : 0 < θ ^ 2) m3 a2 hb
    have q2 := rnd1 (sq_nonneg θ) (by nlinarith) q1 hb
    refine q2.trans ?_
    nlinarith [mul_nonneg hu.le (mul_nonneg hu.le hu.le)]

end NavFuse
