import Verif.Lemmas.RoundAttitude
import Verif.Props.Strapdown

/-! # Rounding errors of the attitude increment and of matrix products -/

namespace NavFuse
open Matrix Spec Strapdown NavUtils
variable [Machine] {r : ℝ → ℝ}

theorem sk_val (h : Rounds53 r) (φ : V3 (Rnd r)) (i j : Fin 3) : ((skewSymmetric φ).2 i j).val = (skewSymmetric (valV φ)).2 i j := by
  have h0 := Rnd.lit_zero h
  have z : (Flt.lit 0 : ℝ) = 0 := by simp [rsimp]
  have hn : ∀ x : Rnd r, (-x).val = -x.val := fun _ => rfl
  fin_cases i <;> fin_cases j <;> simp [skewSymmetric, h0, z, valV, hn]

omit [Machine] in
theorem sk_sq_le (x : V3 ℝ) (i j : Fin 3) :
    |∑ l, (skewSymmetric x).2 i l * (skewSymmetric x).2 l j| ≤ x 0 ^ 2 + x 1 ^ 2 + x 2 ^ 2 := by
  rw [sk_R, Fin.sum_univ_three, abs_le]
  generalize x 0 = a, x 1 = b, x 2 = c
  have e0 := sq_nonneg a; have e1 := sq_nonneg b; have e2 := sq_nonneg c
  have f0 := sq_nonneg (a - b); have f1 := sq_nonneg (b - c); have f2 := sq_nonneg (c - a)
  have g0 := sq_nonneg (a + b); have g1 := sq_nonneg (b + c); have g2 := sq_nonneg (c + a)
  fin_cases i <;> fin_cases j <;> simp <;> constructor <;> linarith

set_option maxHeartbeats 1600000 in
/-- the computed attitude increment, from 10⁻²⁰ rad on -/
theorem attInc_rnd_normal (h : Rounds53 r) (φ : V3 (Rnd r)) (hp1 : 1e-20 ≤ len3 (valV φ)) (h4 : len3 (valV φ) ≤ 4) (i j : Fin 3) :
    |(attInc φ i j).val - attInc (valV φ) i j| ≤ 216 * ulp := by
  have hu := ulp_pos
  have hu2 := ulp_le
  have huu : ulp * ulp ≤ ulp * (1 / 10 ^ 15) := mul_le_mul_of_nonneg_left hu2 hu.le
  have huuu : ulp * ulp * ulp ≤ ulp * (1 / 10 ^ 15) := by
    have : ulp * ulp * ulp ≤ ulp * ulp * 1 := mul_le_mul_of_nonneg_left (by linarith) (by positivity)
    linarith
  norm_num at huu huuu
  have hu3 : ulp ≤ 1 / 1000000000000000 := by norm_num at hu2 ⊢; exact hu2
  have hp : 0 < len3 (valV φ) := lt_of_lt_of_le (by norm_num) hp1
  obtain ⟨ha, hb⟩ := coef_err h φ hp1 h4
  have hrel : ∀ q s : ℝ, |s| ≤ 4 → |r q - q| * |s| ≤ |q * s| * ulp + ulp / 10 ^ 15 := fun q s hs => by
    refine (mul_le_mul_of_nonneg_right (h.rel_add q) (abs_nonneg s)).trans ?_
    rw [show (|q| / 2 ^ 52 + 1e-75) * |s| = |q * s| * ulp + 1e-75 * |s| by rw [abs_mul, ulp]; ring]
    refine add_le_add le_rfl ?_
    rw [ulp]; norm_num; linarith
  have hs := Props.len3_sq (valV φ)
  have hle := le_len3 (valV φ)
  have hvn : vnorm (valV φ) = len3 (valV φ) := Props.vnorm_len3 _
  have hskv := sk_val h φ
  -- the exact increment
  have hex : attInc (valV φ) i j = (if i = j then 1 else 0) + Real.sin (len3 (valV φ)) / len3 (valV φ) * (skewSymmetric (valV φ)).2 i j
      + ∑ l, ((1 - Real.cos (len3 (valV φ))) / (len3 (valV φ) * len3 (valV φ)) * (skewSymmetric (valV φ)).2 i l) * (skewSymmetric (valV φ)).2 l j := by
    simp only [attInc, hvn, rsimp, Matrix.add_apply, Matrix.smul_apply, Matrix.mul_apply, smul_eq_mul, Matrix.one_apply]
  rw [hex]
  have hX : ∀ i j, |(skewSymmetric (valV φ)).2 i j| ≤ len3 (valV φ) := by
    intro i j
    rw [sk_R]
    have p0 := hle 0; have p1 := hle 1; have p2 := hle 2
    fin_cases i <;> fin_cases j <;> simp <;> first | exact hp.le | assumption
  have hXX : |∑ l, (skewSymmetric (valV φ)).2 i l * (skewSymmetric (valV φ)).2 l j| ≤ len3 (valV φ) ^ 2 := by
    rw [hs]; exact sk_sq_le (valV φ) i j
  set θ := len3 (valV φ) with hθ
  have hsn := Real.abs_sin_le_one θ
  have hcs : |1 - Real.cos θ| ≤ 2 := by
    rw [abs_le]; constructor <;> linarith [Real.cos_le_one θ, Real.neg_one_le_cos θ]
  have hT : (attInc φ i j).val = r (r ((mid (α := Rnd r) i j : Rnd r).val + r ((Flt.sin (vnorm φ) / vnorm φ).val * (skewSymmetric (valV φ)).2 i j))
      + (fsum fun l => (msmul ((Flt.lit 1 - Flt.cos (vnorm φ)) / (vnorm φ * vnorm φ)) (skewSymmetric φ).2) i l * (skewSymmetric φ).2 l j).val) := by
    rw [← hskv i j]; rfl
  have hmid : (mid (α := Rnd r) i j : Rnd r).val = if i = j then 1 else 0 := by
    simp only [mid, of_apply]
    split_ifs
    · exact Rnd.lit_one h
    · exact Rnd.lit_zero h
  have hsm : ∀ i l, (msmul ((Flt.lit 1 - Flt.cos (vnorm φ)) / (vnorm φ * vnorm φ)) (skewSymmetric φ).2 i l).val
      = r (((Flt.lit 1 - Flt.cos (vnorm φ)) / (vnorm φ * vnorm φ)).val * (skewSymmetric (valV φ)).2 i l) := by
    intro i l; rw [← hskv i l]; rfl
  rw [hT, hmid]
  generalize (Flt.sin (vnorm φ) / vnorm φ).val = a at *
  generalize Real.sin θ = σ at *
  generalize hbg : ((Flt.lit 1 - Flt.cos (vnorm φ)) / (vnorm φ * vnorm φ)) = bb at *
  generalize hbv : bb.val = b at *
  generalize 1 - Real.cos θ = κ at *
  have hc : ∀ i l j, |b * (skewSymmetric (valV φ)).2 i l * (skewSymmetric (valV φ)).2 l j| ≤ 2 + 112 * ulp := by
    intro i l j
    have e1 : |b * θ ^ 2| ≤ 2 + 112 * ulp := by
      have := abs_add_le (b * θ ^ 2 - κ) κ
      rw [sub_add_cancel] at this
      linarith
    refine le_trans ?_ e1
    rw [abs_mul, abs_mul, abs_mul, abs_of_nonneg (sq_nonneg θ), mul_assoc, pow_two]
    exact mul_le_mul_of_nonneg_left (mul_le_mul (hX i l) (hX l j) (abs_nonneg _) hp.le) (abs_nonneg _)
  -- the linear term
  have b1 : |a * (skewSymmetric (valV φ)).2 i j - σ / θ * (skewSymmetric (valV φ)).2 i j| ≤ 65 * ulp := by
    have e : a * (skewSymmetric (valV φ)).2 i j - σ / θ * (skewSymmetric (valV φ)).2 i j = (a * θ - σ) * ((skewSymmetric (valV φ)).2 i j / θ) := by
      field_simp
    rw [e, abs_mul, abs_div, abs_of_pos hp]
    have : |(skewSymmetric (valV φ)).2 i j| / θ ≤ 1 := (div_le_one hp).2 (hX i j)
    calc _ ≤ 65 * ulp * 1 := mul_le_mul ha this (by positivity) (by positivity)
      _ = _ := mul_one _
  have b1' : |σ / θ * (skewSymmetric (valV φ)).2 i j| ≤ 1 := by
    rw [abs_mul, abs_div, abs_of_pos hp, div_mul_eq_mul_div, div_le_one hp]
    calc _ ≤ 1 * θ := mul_le_mul hsn (hX i j) (abs_nonneg _) (by norm_num)
      _ = _ := one_mul _
  have b2 := h.step b1 b1'
  have hd1 : |(if i = j then 1 else 0 : ℝ)| ≤ 1 := by split_ifs <;> norm_num
  have b3 : |(if i = j then 1 else 0 : ℝ) + r (a * (skewSymmetric (valV φ)).2 i j) - ((if i = j then 1 else 0) + σ / θ * (skewSymmetric (valV φ)).2 i j)|
      ≤ 65 * ulp + (1 + 65 * ulp) * ulp := by
    rw [add_sub_add_left_eq_sub]; exact b2
  have b4 := h.step b3 (show _ ≤ (2 : ℝ) from (abs_add_le _ _).trans (by linarith))
  -- the quadratic term
  have d1 := Rnd.dot3 h (fun l => msmul bb (skewSymmetric φ).2 i l) (fun l => (skewSymmetric φ).2 l j) (21 / 10) (fun l => by
    simp only [hsm, hskv]
    have h2 := hc i l j
    have e : r (b * (skewSymmetric (valV φ)).2 i l) * (skewSymmetric (valV φ)).2 l j
        = (r (b * (skewSymmetric (valV φ)).2 i l) - b * (skewSymmetric (valV φ)).2 i l) * (skewSymmetric (valV φ)).2 l j
          + b * (skewSymmetric (valV φ)).2 i l * (skewSymmetric (valV φ)).2 l j := by ring
    rw [e]
    refine (abs_add_le _ _).trans ?_
    rw [abs_mul]
    have h3 : |r (b * (skewSymmetric (valV φ)).2 i l) - b * (skewSymmetric (valV φ)).2 i l| * |(skewSymmetric (valV φ)).2 l j| ≤ (2 + 112 * ulp) * ulp + ulp / 10 ^ 15 :=
      (hrel _ _ ((hX l j).trans h4)).trans (add_le_add (mul_le_mul_of_nonneg_right h2 hu.le) le_rfl)
    nlinarith)
  simp only [hsm, hskv] at d1
  have d2 : |∑ l, r (b * (skewSymmetric (valV φ)).2 i l) * (skewSymmetric (valV φ)).2 l j
      - b * ∑ l, (skewSymmetric (valV φ)).2 i l * (skewSymmetric (valV φ)).2 l j| ≤ 7 * ulp := by
    rw [Finset.mul_sum, ← Finset.sum_sub_distrib]
    have h3 : ∀ l, |r (b * (skewSymmetric (valV φ)).2 i l) * (skewSymmetric (valV φ)).2 l j
        - b * ((skewSymmetric (valV φ)).2 i l * (skewSymmetric (valV φ)).2 l j)| ≤ (2 + 112 * ulp) * ulp + ulp / 10 ^ 15 := by
      intro l
      rw [← mul_assoc, ← sub_mul, abs_mul]
      exact (hrel _ _ ((hX l j).trans h4)).trans (add_le_add (mul_le_mul_of_nonneg_right (hc i l j) hu.le) le_rfl)
    have h4 := Finset.abs_sum_le_sum_abs (fun l => r (b * (skewSymmetric (valV φ)).2 i l) * (skewSymmetric (valV φ)).2 l j
        - b * ((skewSymmetric (valV φ)).2 i l * (skewSymmetric (valV φ)).2 l j)) Finset.univ
    refine h4.trans ?_
    rw [Fin.sum_univ_three]
    have := h3 0; have := h3 1; have := h3 2
    nlinarith
  have d3 : |b * ∑ l, (skewSymmetric (valV φ)).2 i l * (skewSymmetric (valV φ)).2 l j
      - ∑ l, (κ / (θ * θ) * (skewSymmetric (valV φ)).2 i l) * (skewSymmetric (valV φ)).2 l j| ≤ 112 * ulp := by
    have e : ∑ l, (κ / (θ * θ) * (skewSymmetric (valV φ)).2 i l) * (skewSymmetric (valV φ)).2 l j
        = κ / (θ * θ) * ∑ l, (skewSymmetric (valV φ)).2 i l * (skewSymmetric (valV φ)).2 l j := by
      rw [Finset.mul_sum]; exact Finset.sum_congr rfl fun l _ => by ring
    rw [e, ← sub_mul]
    generalize ∑ l, (skewSymmetric (valV φ)).2 i l * (skewSymmetric (valV φ)).2 l j = w at *
    have e2 : (b - κ / (θ * θ)) * w = (b * θ ^ 2 - κ) * (w / θ ^ 2) := by field_simp
    rw [e2, abs_mul, abs_div, abs_of_nonneg (sq_nonneg θ)]
    have : |w| / θ ^ 2 ≤ 1 := (div_le_one (by positivity)).2 hXX
    calc _ ≤ 112 * ulp * 1 := mul_le_mul hb this (by positivity) (by positivity)
      _ = _ := mul_one _
  have d4 : |∑ l, (κ / (θ * θ) * (skewSymmetric (valV φ)).2 i l) * (skewSymmetric (valV φ)).2 l j| ≤ 2 := by
    have e : ∑ l, (κ / (θ * θ) * (skewSymmetric (valV φ)).2 i l) * (skewSymmetric (valV φ)).2 l j
        = κ / (θ * θ) * ∑ l, (skewSymmetric (valV φ)).2 i l * (skewSymmetric (valV φ)).2 l j := by
      rw [Finset.mul_sum]; exact Finset.sum_congr rfl fun l _ => by ring
    rw [e, abs_mul, abs_div, abs_of_pos (mul_pos hp hp), div_mul_eq_mul_div, div_le_iff₀ (mul_pos hp hp), ← pow_two]
    exact mul_le_mul hcs hXX (abs_nonneg _) (by norm_num)
  generalize ∑ l, r (b * (skewSymmetric (valV φ)).2 i l) * (skewSymmetric (valV φ)).2 l j = s1 at *
  generalize b * ∑ l, (skewSymmetric (valV φ)).2 i l * (skewSymmetric (valV φ)).2 l j = s2 at *
  generalize ∑ l, (κ / (θ * θ) * (skewSymmetric (valV φ)).2 i l) * (skewSymmetric (valV φ)).2 l j = s3 at *
  generalize (fsum fun l => msmul bb (skewSymmetric φ).2 i l * (skewSymmetric φ).2 l j).val = s0 at *
  generalize r ((if i = j then 1 else 0 : ℝ) + r (a * (skewSymmetric (valV φ)).2 i j)) = y1 at *
  have hy2 : |(if i = j then 1 else 0 : ℝ) + σ / θ * (skewSymmetric (valV φ)).2 i j| ≤ 2 := (abs_add_le _ _).trans (by linarith)
  generalize (if i = j then 1 else 0 : ℝ) + σ / θ * (skewSymmetric (valV φ)).2 i j = y2 at *
  have d5 : |s0 - s3| ≤ 140 * ulp := by
    have e : s0 - s3 = (s0 - s1) + (s1 - s2) + (s2 - s3) := by ring
    rw [e]
    refine (abs_add_le _ _).trans ?_
    have := abs_add_le (s0 - s1) (s1 - s2)
    linarith
  have d6 : |y1 - y2| ≤ 70 * ulp := b4.trans (by nlinarith)
  have d7 : |y1 + s0 - (y2 + s3)| ≤ 210 * ulp := by
    rw [show y1 + s0 - (y2 + s3) = (y1 - y2) + (s0 - s3) by ring]
    exact (abs_add_le _ _).trans (by linarith)
  have d8 := h.step d7 (show |y2 + s3| ≤ 4 from (abs_add_le _ _).trans (by linarith))
  refine d8.trans ?_
  nlinarith

end NavFuse
