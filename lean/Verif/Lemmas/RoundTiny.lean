import Verif.Lemmas.RoundIncrement

/-! # The attitude increment for very small angles

Below 10⁻²⁰ rad the computed coefficient `(1 - cos m) / m²` bears no relation to 1/2, but multiplied by the square of the angle it stays below a few
units in the last place, as long as the computed squared length is not zero. -/

namespace NavFuse
open Matrix Spec Strapdown NavUtils
variable [Machine] {r : ℝ → ℝ}

omit [Machine] in
theorem Rounds53.pow_le (h : Rounds53 r) {x : ℝ} {k : ℤ} (hk : -1074 ≤ k) (hx : |x| ≤ (2 : ℝ) ^ k) : |r x| ≤ (2 : ℝ) ^ k := by
  have e1 : r ((2 : ℝ) ^ k) = (2 : ℝ) ^ k := by have := h.keeps 1 k (by norm_num) hk; simpa using this
  have e2 : r (-(2 : ℝ) ^ k) = -(2 : ℝ) ^ k := by have := h.keeps (-1) k (by norm_num) hk; simpa using this
  obtain ⟨h1, h2⟩ := abs_le.1 hx
  have h3 := h.mono h1
  have h4 := h.mono h2
  rw [e1] at h4
  rw [e2] at h3
  exact abs_le.2 ⟨h3, h4⟩

omit [Machine] in
theorem Rounds53.le_pow (h : Rounds53 r) {x : ℝ} {k : ℤ} (hk : -1074 ≤ k) (hx : (2 : ℝ) ^ k ≤ x) : (2 : ℝ) ^ k ≤ r x := by
  have e1 : r ((2 : ℝ) ^ k) = (2 : ℝ) ^ k := by have := h.keeps 1 k (by norm_num) hk; simpa using this
  rw [← e1]; exact h.mono hx

/-- the smallest positive double -/
noncomputable def tau : ℝ := (2 : ℝ) ^ (-1074 : ℤ)

omit [Machine] in
theorem tau_pos : 0 < tau := by unfold tau; positivity

omit [Machine] in
theorem Rounds53.rel_tau (h : Rounds53 r) (x : ℝ) : |r x - x| ≤ |x| * ulp + tau := by
  rcases le_total ((2 : ℝ) ^ (-1022 : ℤ)) |x| with hx | hx
  · have := h.rel x hx
    have := tau_pos
    rw [ulp, mul_one_div]; linarith
  · have h1 := h.err (-1021) x (hx.trans (zpow_le_zpow_right₀ (by norm_num) (by norm_num)))
    rw [show (-1021 : ℤ) - 53 = -1074 by norm_num] at h1
    have : 0 ≤ |x| * ulp := mul_nonneg (abs_nonneg _) ulp_pos.le
    unfold tau; linarith

/-- unless the computed squared length of a vector is zero, the square of each component is at most about five times as large -/
theorem sq_le_vsqNorm (h : Rounds53 r) (φ : V3 (Rnd r)) (hm : tau ≤ (vsqNorm φ).val) (i : Fin 3) : (φ i).val ^ 2 ≤ 51 / 10 * (vsqNorm φ).val := by
  have hu := ulp_pos
  have hu2 : ulp ≤ 1 / 1000000000000000 := by have := ulp_le; norm_num at this ⊢; exact this
  have hr : ∀ x, 0 ≤ x → x * (1 - ulp) - tau ≤ r x := fun x hx => by
    have := (abs_le.1 (h.rel_tau x)).1
    rw [abs_of_nonneg hx] at this; linarith
  have hs : ∀ i, 0 ≤ (φ i * φ i).val := fun i => h.nonneg (mul_self_nonneg _)
  obtain ⟨i, rfl⟩ := ord3.surjective i
  have hv : (vsqNorm φ).val = r (r ((φ (ord3 0) * φ (ord3 0)).val + (φ (ord3 1) * φ (ord3 1)).val) + (φ (ord3 2) * φ (ord3 2)).val) := Rnd.fsum3 _
  have hp : ∀ i, (φ i).val ^ 2 * (1 - ulp) - tau ≤ (φ i * φ i).val := fun i => by
    rw [pow_two]; exact hr _ (mul_self_nonneg _)
  have hs0 := hs (ord3 0); have hs1 := hs (ord3 1); have hs2 := hs (ord3 2)
  have g1 := h.nonneg (add_nonneg hs0 hs1)
  have q2 := hr _ (add_nonneg hs0 hs1)
  have q3 := hr _ (add_nonneg g1 hs2)
  rw [← hv] at q3
  have ht := tau_pos
  have hpi := hp (ord3 i)
  have hsq := sq_nonneg (φ (ord3 i)).val
  generalize (vsqNorm φ).val = n at *
  -- every rounding loses at most a part in 10¹⁵ and tau
  have key : ∀ a b : ℝ, 0 ≤ a → a * (1 - ulp) - tau ≤ b → (9999 / 10000 : ℝ) * a - tau ≤ b := fun a b ha hb => by nlinarith
  have p := key _ _ hsq hpi
  have q2' := key _ _ (add_nonneg hs0 hs1) q2
  have q3' := key _ _ (add_nonneg g1 hs2) q3
  fin_cases i <;> simp only [Fin.zero_eta, Fin.mk_one, Fin.reduceFinMk] at p hsq ⊢ <;> linarith

/-- what the attitude increment computes for angles below 10⁻²⁰ rad whose computed squared length is not zero -/
structure TinyAngle (φ : V3 (Rnd r)) : Prop where
  m_pos : (2 : ℝ) ^ (-537 : ℤ) ≤ (vnorm φ).val
  mm_pos : tau ≤ (vnorm φ * vnorm φ).val
  comp : ∀ i, |(φ i).val| ≤ 1e-20
  a0 : 0 ≤ (Flt.sin (vnorm φ) / vnorm φ).val
  a2 : (Flt.sin (vnorm φ) / vnorm φ).val ≤ 2
  d0 : 0 ≤ (Flt.lit 1 - Flt.cos (vnorm φ)).val
  d1 : (Flt.lit 1 - Flt.cos (vnorm φ)).val ≤ (2 : ℝ) ^ (-53 : ℤ)
  b0 : 0 ≤ ((Flt.lit 1 - Flt.cos (vnorm φ)) / (vnorm φ * vnorm φ)).val
  b1 : ((Flt.lit 1 - Flt.cos (vnorm φ)) / (vnorm φ * vnorm φ)).val ≤ (2 : ℝ) ^ (1021 : ℤ)
  b2 : ∀ i j, ((Flt.lit 1 - Flt.cos (vnorm φ)) / (vnorm φ * vnorm φ)).val * (|(φ i).val| * |(φ j).val|) ≤ 52 / 10 * ulp

set_option maxHeartbeats 1600000 in
theorem tinyAngle (h : Rounds53 r) (φ : V3 (Rnd r)) (hm : tau ≤ (vsqNorm φ).val) (hs : len3 (valV φ) ≤ 1e-20) : TinyAngle φ := by
  have hu := ulp_pos
  have hu2 : ulp ≤ 1 / 1000000000000000 := by have := ulp_le; norm_num at this ⊢; exact this
  have ht := tau_pos
  have hc : ∀ i, |(φ i).val| ≤ 1e-20 := fun i => (le_len3 (valV φ) i).trans hs
  have hsq := sq_le_vsqNorm h φ hm
  -- the computed squared length is small
  have hup : (vsqNorm φ).val ≤ (2 : ℝ) ^ (-130 : ℤ) := by
    have e : (vsqNorm φ).val = r (r ((φ (ord3 0) * φ (ord3 0)).val + (φ (ord3 1) * φ (ord3 1)).val) + (φ (ord3 2) * φ (ord3 2)).val) := Rnd.fsum3 _
    have hp : ∀ i, |(φ i * φ i).val| ≤ (2 : ℝ) ^ (-132 : ℤ) := fun i => h.pow_le (by norm_num) (by
      rw [abs_mul]
      refine (mul_le_mul (hc i) (hc i) (abs_nonneg _) (by norm_num)).trans ?_
      rw [_root_.zpow_neg]; norm_num)
    have e1 : (2 : ℝ) ^ (-131 : ℤ) = 2 * (2 : ℝ) ^ (-132 : ℤ) := by rw [show (-131 : ℤ) = 1 + -132 by norm_num, zpow_add₀ (by norm_num)]; norm_num
    have e2 : (2 : ℝ) ^ (-130 : ℤ) = 2 * (2 : ℝ) ^ (-131 : ℤ) := by rw [show (-130 : ℤ) = 1 + -131 by norm_num, zpow_add₀ (by norm_num)]; norm_num
    have g1 : |r ((φ (ord3 0) * φ (ord3 0)).val + (φ (ord3 1) * φ (ord3 1)).val)| ≤ (2 : ℝ) ^ (-131 : ℤ) :=
      h.pow_le (by norm_num) ((abs_add_le _ _).trans (by rw [e1]; linarith [hp (ord3 0), hp (ord3 1)]))
    have g2 : |r (r ((φ (ord3 0) * φ (ord3 0)).val + (φ (ord3 1) * φ (ord3 1)).val) + (φ (ord3 2) * φ (ord3 2)).val)| ≤ (2 : ℝ) ^ (-130 : ℤ) :=
      h.pow_le (by norm_num) ((abs_add_le _ _).trans (by
        have : (0 : ℝ) < (2 : ℝ) ^ (-132 : ℤ) := by positivity
        rw [e2]; linarith [hp (ord3 2)]))
    rw [e]; exact (le_abs_self _).trans g2
  have hmv : (vnorm φ).val = r (Real.sqrt (vsqNorm φ).val) := rfl
  have hn0 : 0 ≤ (vsqNorm φ).val := ht.le.trans hm
  generalize hN : (vsqNorm φ).val = n at *
  have hst : (2 : ℝ) ^ (-537 : ℤ) ≤ Real.sqrt n := by
    refine Real.le_sqrt_of_sq_le ?_
    have : ((2 : ℝ) ^ (-537 : ℤ)) ^ 2 = tau := by rw [tau, ← zpow_natCast, ← _root_.zpow_mul]; norm_num
    rw [this]; exact hm
  have hsu : Real.sqrt n ≤ (2 : ℝ) ^ (-65 : ℤ) := by
    refine Real.sqrt_le_iff.2 ⟨by positivity, ?_⟩
    have : ((2 : ℝ) ^ (-65 : ℤ)) ^ 2 = (2 : ℝ) ^ (-130 : ℤ) := by rw [← zpow_natCast, ← _root_.zpow_mul]; norm_num
    rw [this]; exact hup
  have hs0 := Real.sqrt_nonneg n
  have hm1 : (2 : ℝ) ^ (-537 : ℤ) ≤ (vnorm φ).val := by rw [hmv]; exact h.le_pow (by norm_num) hst
  have hm2 : (vnorm φ).val ≤ (2 : ℝ) ^ (-65 : ℤ) := by
    rw [hmv]; exact (le_abs_self _).trans (h.pow_le (by norm_num) (by rw [abs_of_nonneg hs0]; exact hsu))
  -- the length is accurate
  have hrel : |(vnorm φ).val - Real.sqrt n| ≤ Real.sqrt n * ulp := by
    have := h.rel (Real.sqrt n) (by
      rw [abs_of_nonneg hs0]; exact (zpow_le_zpow_right₀ (by norm_num) (by norm_num)).trans hst)
    rw [hmv]; rwa [abs_of_nonneg hs0, ← mul_one_div, ← ulp] at this
  have hmn : n * (1 - 2 * ulp) ≤ (vnorm φ).val * (vnorm φ).val := by
    have h1 := (abs_le.1 hrel).1
    have h2 : Real.sqrt n * (1 - ulp) ≤ (vnorm φ).val := by linarith
    have h3 := mul_le_mul h2 h2 (mul_nonneg hs0 (by linarith)) ((mul_nonneg hs0 (by linarith : 0 ≤ 1 - ulp)).trans h2)
    have h4 := Real.mul_self_sqrt hn0
    have h5 : Real.sqrt n * (1 - ulp) * (Real.sqrt n * (1 - ulp)) = n * (1 - ulp) ^ 2 := by
      calc _ = (Real.sqrt n * Real.sqrt n) * (1 - ulp) ^ 2 := by ring
        _ = _ := by rw [h4]
    rw [h5] at h3
    nlinarith [mul_nonneg hn0 (sq_nonneg ulp)]
  have hmmv : (vnorm φ * vnorm φ).val = r ((vnorm φ).val * (vnorm φ).val) := rfl
  have hdv : (Flt.lit 1 - Flt.cos (vnorm φ)).val = r (1 - Machine.lib .cos (vnorm φ).val 0 (Real.cos (vnorm φ).val)) := by
    show r ((Flt.lit 1 : Rnd r).val - _) = _
    rw [Rnd.lit_one h]; rfl
  have hav : (Flt.sin (vnorm φ) / vnorm φ).val = r (Machine.lib .sin (vnorm φ).val 0 (Real.sin (vnorm φ).val) / (vnorm φ).val) := rfl
  have hbv : ((Flt.lit 1 - Flt.cos (vnorm φ)) / (vnorm φ * vnorm φ)).val = r ((Flt.lit 1 - Flt.cos (vnorm φ)).val / (vnorm φ * vnorm φ).val) := rfl
  have hm0 : 0 < (vnorm φ).val := lt_of_lt_of_le (by positivity) hm1
  have hmm0 : tau ≤ (vnorm φ).val * (vnorm φ).val := by
    have e : tau = (2 : ℝ) ^ (-537 : ℤ) * (2 : ℝ) ^ (-537 : ℤ) := by rw [tau, ← zpow_add₀ (by norm_num)]; norm_num
    rw [e]; exact mul_le_mul hm1 hm1 (by positivity) hm0.le
  have hmm1 : tau ≤ (vnorm φ * vnorm φ).val := by rw [hmmv]; exact h.le_pow (by norm_num) hmm0
  have hmm2 : (vnorm φ).val * (vnorm φ).val ≤ 201 / 100 * (vnorm φ * vnorm φ).val := by
    have := (abs_le.1 (h.rel_tau ((vnorm φ).val * (vnorm φ).val))).1
    rw [abs_of_nonneg (by positivity), ← hmmv] at this
    nlinarith
  have hphi : ∀ i, |(φ i).val| ^ 2 ≤ 103 / 10 * (vnorm φ * vnorm φ).val := fun i => by
    rw [sq_abs]
    refine (hsq i).trans ?_
    nlinarith
  suffices hh : ((2 : ℝ) ^ (-537 : ℤ) ≤ (vnorm φ).val ∧ tau ≤ (vnorm φ * vnorm φ).val ∧ (∀ i, |(φ i).val| ≤ 1e-20)
      ∧ 0 ≤ (Flt.sin (vnorm φ) / vnorm φ).val ∧ (Flt.sin (vnorm φ) / vnorm φ).val ≤ 2 ∧ 0 ≤ (Flt.lit 1 - Flt.cos (vnorm φ)).val
      ∧ (Flt.lit 1 - Flt.cos (vnorm φ)).val ≤ (2 : ℝ) ^ (-53 : ℤ)
      ∧ 0 ≤ ((Flt.lit 1 - Flt.cos (vnorm φ)) / (vnorm φ * vnorm φ)).val
      ∧ ((Flt.lit 1 - Flt.cos (vnorm φ)) / (vnorm φ * vnorm φ)).val ≤ (2 : ℝ) ^ (1021 : ℤ)
      ∧ ∀ i j, ((Flt.lit 1 - Flt.cos (vnorm φ)) / (vnorm φ * vnorm φ)).val * (|(φ i).val| * |(φ j).val|) ≤ 52 / 10 * ulp) by
    obtain ⟨q1, q2, q3, q4, q5, q6, q7, q8, q9, q10⟩ := hh
    exact ⟨q1, q2, q3, q4, q5, q6, q7, q8, q9, q10⟩
  generalize (vnorm φ * vnorm φ).val = mm at *
  generalize (Flt.lit 1 - Flt.cos (vnorm φ)).val = d at *
  generalize (vnorm φ).val = m at *
  have hmm : m ≤ 1 := hm2.trans (by rw [_root_.zpow_neg]; norm_num)
  have hc' := Machine.faithful .cos m 0
  have hs' := Machine.faithful .sin m 0
  generalize Machine.lib .cos m 0 = rc at *
  generalize Machine.lib .sin m 0 = rs at *
  have hd1 : 1 - (2 : ℝ) ^ (-53 : ℤ) ≤ rc (Real.cos m) := by
    have k := hc'.keeps (2 ^ 53 - 1) (-53) (by norm_num) (by norm_num)
    have e : (((2 ^ 53 - 1 : ℤ) : ℝ)) * (2 : ℝ) ^ (-53 : ℤ) = 1 - (2 : ℝ) ^ (-53 : ℤ) := by norm_num
    rw [e] at k
    rw [← k]
    refine hc'.mono ?_
    have h1 := Real.one_sub_sq_div_two_le_cos (x := m)
    have h2 : m ^ 2 ≤ ((2 : ℝ) ^ (-65 : ℤ)) ^ 2 := pow_le_pow_left₀ hm0.le hm2 2
    have h3 : ((2 : ℝ) ^ (-65 : ℤ)) ^ 2 ≤ (2 : ℝ) ^ (-53 : ℤ) := by rw [_root_.zpow_neg, _root_.zpow_neg]; norm_num
    have h4 : 0 ≤ m ^ 2 := sq_nonneg m
    linarith
  have hd2 : rc (Real.cos m) ≤ 1 := by rw [← hc'.one]; exact hc'.mono (Real.cos_le_one m)
  have d0 : 0 ≤ d := by rw [hdv]; exact h.nonneg (by linarith)
  have d1 : d ≤ (2 : ℝ) ^ (-53 : ℤ) := by
    rw [hdv]; refine (le_abs_self _).trans (h.pow_le (by norm_num) ?_)
    rw [abs_of_nonneg (by linarith)]; linarith
  have hmmp : 0 < mm := ht.trans_le hmm1
  have hq : d / mm ≤ (2 : ℝ) ^ (-53 : ℤ) / mm := div_le_div_of_nonneg_right d1 hmmp.le
  have b0 : 0 ≤ d / mm := div_nonneg d0 hmmp.le
  refine ⟨hm1, hmm1, hc, ?_, ?_, d0, d1, ?_, ?_, ?_⟩
  · rw [hav]; exact h.nonneg (div_nonneg (hs'.nonneg (Real.sin_nonneg_of_nonneg_of_le_pi hm0.le (by linarith [Real.two_le_pi]))) hm0.le)
  · rw [hav]
    have h1 : rs (Real.sin m) ≤ 2 * m := by
      refine (hs'.mono (Real.sin_le hm0.le)).trans ?_
      have := (abs_le.1 (hs'.rel m (by rw [abs_of_pos hm0]; exact (zpow_le_zpow_right₀ (by norm_num) (by norm_num)).trans hm1))).2
      rw [abs_of_pos hm0] at this
      have h2 : m / 2 ^ 52 ≤ m := by rw [div_le_iff₀ (by positivity)]; norm_num; linarith
      linarith
    have h2 : rs (Real.sin m) / m ≤ (2 : ℤ) := by rw [div_le_iff₀ hm0]; push_cast; exact h1
    refine (h.mono h2).trans ?_
    rw [h.int 2 (by norm_num)]; norm_num
  · rw [hbv]; exact h.nonneg b0
  · rw [hbv]; refine (le_abs_self _).trans (h.pow_le (by norm_num) ?_)
    rw [abs_of_nonneg b0, div_le_iff₀ hmmp]
    refine d1.trans ?_
    have : (2 : ℝ) ^ (-53 : ℤ) = (2 : ℝ) ^ (1021 : ℤ) * tau := by rw [tau, ← zpow_add₀ (by norm_num)]; norm_num
    rw [this]; exact mul_le_mul_of_nonneg_left hmm1 (by positivity)
  · intro i j
    rw [hbv]
    have h1 : r (d / mm) ≤ 2 ^ (-53 : ℤ) / mm * (1 + ulp) + tau := by
      refine (h.mono hq).trans ?_
      have := (abs_le.1 (h.rel_tau ((2 : ℝ) ^ (-53 : ℤ) / mm))).2
      rw [abs_of_nonneg (by positivity)] at this
      linarith
    have h2 : |(φ i).val| * |(φ j).val| ≤ 103 / 10 * mm := by
      nlinarith [hphi i, hphi j, sq_nonneg (|(φ i).val| - |(φ j).val|)]
    have h3 : 0 ≤ |(φ i).val| * |(φ j).val| := by positivity
    have h4 : |(φ i).val| * |(φ j).val| ≤ 1 / 10 ^ 20 := by
      refine (mul_le_mul (hc i) (hc j) (abs_nonneg _) (by norm_num)).trans (by norm_num)
    have hp : 0 ≤ (2 : ℝ) ^ (-53 : ℤ) / mm * (1 + ulp) + tau := by positivity
    calc r (d / mm) * (|(φ i).val| * |(φ j).val|)
        ≤ (2 ^ (-53 : ℤ) / mm * (1 + ulp) + tau) * (|(φ i).val| * |(φ j).val|) := mul_le_mul_of_nonneg_right h1 h3
      _ = 2 ^ (-53 : ℤ) / mm * (1 + ulp) * (|(φ i).val| * |(φ j).val|) + tau * (|(φ i).val| * |(φ j).val|) := by ring
      _ ≤ 2 ^ (-53 : ℤ) / mm * (1 + ulp) * (103 / 10 * mm) + tau * (1 / 10 ^ 20) :=
          add_le_add (mul_le_mul_of_nonneg_left h2 (by positivity)) (mul_le_mul_of_nonneg_left h4 ht.le)
      _ = 103 / 10 * 2 ^ (-53 : ℤ) * (1 + ulp) + tau * (1 / 10 ^ 20) := by field_simp
      _ ≤ 52 / 10 * ulp := by
          have e : (2 : ℝ) ^ (-53 : ℤ) = ulp / 2 := by rw [ulp, _root_.zpow_neg]; norm_num
          have t1 : tau ≤ 1e-75 := zpow_1074
          have t2 : (1e-75 : ℝ) ≤ ulp := by rw [ulp]; norm_num
          rw [e]
          nlinarith

/-- the products in the quadratic term -/
theorem tiny_term (h : Rounds53 r) (φ : V3 (Rnd r)) (T : TinyAngle φ) (i l j : Fin 3) :
    |(msmul ((Flt.lit 1 - Flt.cos (vnorm φ)) / (vnorm φ * vnorm φ)) (skewSymmetric φ).2 i l * (skewSymmetric φ).2 l j).val| ≤ 53 / 10 * ulp := by
  have hu := ulp_pos
  have hu2 : ulp ≤ 1 / 1000000000000000 := by have := ulp_le; norm_num at this ⊢; exact this
  have hskv := sk_val h φ
  have hX : ∀ i j, |(skewSymmetric (valV φ)).2 i j| ≤ 1e-20 := by
    intro i j
    rw [sk_R]
    have p0 := T.comp 0; have p1 := T.comp 1; have p2 := T.comp 2
    fin_cases i <;> fin_cases j <;> simp <;> first | (norm_num; done) | (simpa [valV] using ‹_›)
  have hsm : ∀ i l, (msmul ((Flt.lit 1 - Flt.cos (vnorm φ)) / (vnorm φ * vnorm φ)) (skewSymmetric φ).2 i l).val
      = r (((Flt.lit 1 - Flt.cos (vnorm φ)) / (vnorm φ * vnorm φ)).val * (skewSymmetric (valV φ)).2 i l) := by
    intro i l; rw [← hskv i l]; rfl
  obtain ⟨b0, b2⟩ := (⟨T.b0, T.b2⟩ : _ ∧ _)
  generalize ((Flt.lit 1 - Flt.cos (vnorm φ)) / (vnorm φ * vnorm φ)) = bb at *
  -- products of two entries of the skew matrix
  have hbX : ∀ i l j, |bb.val * (skewSymmetric (valV φ)).2 i l * (skewSymmetric (valV φ)).2 l j| ≤ 52 / 10 * ulp := by
    intro i l j
    rw [abs_mul, abs_mul, abs_of_nonneg b0, mul_assoc, sk_R]
    have z : bb.val * (0 : ℝ) ≤ 52 / 10 * ulp := by rw [mul_zero]; positivity
    have q := b2
    fin_cases i <;> fin_cases l <;> fin_cases j <;> simp [valV] <;> first | positivity | exact q _ _ | (rw [← abs_mul_abs_self]; exact q _ _)
  show |r ((msmul bb (skewSymmetric φ).2 i l).val * ((skewSymmetric φ).2 l j).val)| ≤ _
  rw [hsm, hskv]
  have h1 := h.rel_add (bb.val * (skewSymmetric (valV φ)).2 i l)
  have h2 := hbX i l j
  have hxl := hX l j
  generalize bb.val * (skewSymmetric (valV φ)).2 i l = q at *
  generalize (skewSymmetric (valV φ)).2 l j = s at *
  have e : r q * s = (r q - q) * s + q * s := by ring
  have h3 : |r q * s| ≤ 52 / 10 * ulp + (52 / 10 * ulp * ulp + 1e-75) := by
    rw [e]
    refine (abs_add_le _ _).trans ?_
    have : |(r q - q) * s| ≤ 52 / 10 * ulp * ulp + 1e-75 := by
      rw [abs_mul]
      refine (mul_le_mul_of_nonneg_right h1 (abs_nonneg s)).trans ?_
      have e1 : (|q| / 2 ^ 52 + 1e-75) * |s| = |q * s| * ulp + 1e-75 * |s| := by rw [abs_mul, ulp]; ring
      rw [e1]
      refine add_le_add (mul_le_mul_of_nonneg_right h2 hu.le) ?_
      have : |s| ≤ 1 := hxl.trans (by norm_num)
      nlinarith
    linarith
  have h4 := h.rel_add (r q * s)
  have h5 := abs_add_le (r (r q * s) - r q * s) (r q * s)
  rw [sub_add_cancel] at h5
  have h6 : |r q * s| / 2 ^ 52 ≤ (6 * ulp) * ulp := by
    rw [ulp, mul_one_div]
    refine div_le_div_of_nonneg_right ?_ (by positivity)
    rw [← ulp]
    have : (1e-75 : ℝ) ≤ ulp / 100 := by rw [ulp]; norm_num
    nlinarith
  have h7 : (1e-75 : ℝ) ≤ ulp / 1000 := by rw [ulp]; norm_num
  have h8 : ulp * ulp ≤ ulp / 1000 := by nlinarith
  linarith

/-- the computed increment for such angles is the identity up to 20 units in the last place -/
theorem attInc_tiny_rnd (h : Rounds53 r) (φ : V3 (Rnd r)) (T : TinyAngle φ) (i j : Fin 3) :
    |(attInc φ i j).val - (1 : Matrix (Fin 3) (Fin 3) ℝ) i j| ≤ 20 * ulp := by
  have hu := ulp_pos
  have hu2 : ulp ≤ 1 / 1000000000000000 := by have := ulp_le; norm_num at this ⊢; exact this
  have hskv := sk_val h φ
  have hX : ∀ i j, |(skewSymmetric (valV φ)).2 i j| ≤ 1e-20 := by
    intro i j
    rw [sk_R]
    have p0 := T.comp 0; have p1 := T.comp 1; have p2 := T.comp 2
    fin_cases i <;> fin_cases j <;> simp <;> first | (norm_num; done) | (simpa [valV] using ‹_›)
  have hT : (attInc φ i j).val = r (r ((mid (α := Rnd r) i j : Rnd r).val + r ((Flt.sin (vnorm φ) / vnorm φ).val * (skewSymmetric (valV φ)).2 i j))
      + (fsum fun l => (msmul ((Flt.lit 1 - Flt.cos (vnorm φ)) / (vnorm φ * vnorm φ)) (skewSymmetric φ).2) i l * (skewSymmetric φ).2 l j).val) := by
    rw [← hskv i j]; rfl
  have hmid : (mid (α := Rnd r) i j : Rnd r).val = (1 : Matrix (Fin 3) (Fin 3) ℝ) i j := by
    simp only [mid, of_apply, Matrix.one_apply]
    split_ifs
    · exact Rnd.lit_one h
    · exact Rnd.lit_zero h
  have hd1 : |(1 : Matrix (Fin 3) (Fin 3) ℝ) i j| ≤ 1 := by rw [Matrix.one_apply]; split_ifs <;> norm_num
  rw [hT, hmid]
  have ha : |(Flt.sin (vnorm φ) / vnorm φ).val * (skewSymmetric (valV φ)).2 i j| ≤ 2e-20 := by
    rw [abs_mul, abs_of_nonneg T.a0]
    refine (mul_le_mul T.a2 (hX i j) (abs_nonneg _) (by norm_num)).trans (by norm_num)
  generalize (Flt.sin (vnorm φ) / vnorm φ).val * (skewSymmetric (valV φ)).2 i j = A at *
  have t0 := tiny_term h φ T i (ord3 0) j; have t1 := tiny_term h φ T i (ord3 1) j; have t2 := tiny_term h φ T i (ord3 2) j
  generalize ((Flt.lit 1 - Flt.cos (vnorm φ)) / (vnorm φ * vnorm φ)) = bb at *
  have hA : |r A| ≤ ulp / 100 := by
    have h1 := abs_add_le (r A - A) A
    rw [sub_add_cancel] at h1
    have h2 := h.rel_add A
    have h3 : |A| / 2 ^ 52 ≤ |A| := div_le_self (abs_nonneg _) (by norm_num)
    have h4 : (1e-75 : ℝ) + 4e-20 ≤ ulp / 100 := by rw [ulp]; norm_num
    norm_num at *; linarith
  rw [Rnd.fsum3]
  generalize (msmul bb (skewSymmetric φ).2 i (ord3 0) * (skewSymmetric φ).2 (ord3 0) j).val = x0 at *
  generalize (msmul bb (skewSymmetric φ).2 i (ord3 1) * (skewSymmetric φ).2 (ord3 1) j).val = x1 at *
  generalize (msmul bb (skewSymmetric φ).2 i (ord3 2) * (skewSymmetric φ).2 (ord3 2) j).val = x2 at *
  generalize (1 : Matrix (Fin 3) (Fin 3) ℝ) i j = δ at *
  have rr : ∀ x : ℝ, |r x| ≤ 1001 / 1000 * |x| + 1e-75 := fun x => by
    have h1 := abs_add_le (r x - x) x
    rw [sub_add_cancel] at h1
    have h2 := h.rel_add x
    have h3 : |x| / 2 ^ 52 ≤ |x| / 1000 := by
      refine div_le_div_of_nonneg_left (abs_nonneg _) (by norm_num) (by norm_num)
    linarith
  have h7 : (1e-75 : ℝ) ≤ ulp / 1000 := by rw [ulp]; norm_num
  generalize (1e-75 : ℝ) = ε at *
  have y1 := (rr (x0 + x1)).trans (add_le_add (mul_le_mul_of_nonneg_left (abs_add_le _ _) (by norm_num)) le_rfl)
  have y2 := (rr (r (x0 + x1) + x2)).trans (add_le_add (mul_le_mul_of_nonneg_left (abs_add_le _ _) (by norm_num)) le_rfl)
  have z1 := h.step (x := δ + r A) (y := δ) (d := ulp / 100) (M := 1) (by rwa [add_sub_cancel_left]) hd1
  have z2 := h.step (x := r (δ + r A) + r (r (x0 + x1) + x2)) (y := δ) (d := 18 * ulp) (M := 1) (by
    have e : r (δ + r A) + r (r (x0 + x1) + x2) - δ = (r (δ + r A) - δ) + r (r (x0 + x1) + x2) := by ring
    rw [e]
    refine (abs_add_le _ _).trans ?_
    nlinarith) hd1
  nlinarith

omit [Machine] in
/-- so is the exact one -/
theorem attInc_tiny_exact (x : V3 ℝ) (h0 : x ≠ 0) (hs : len3 x ≤ 1e-20) (i j : Fin 3) :
    |attInc x i j - (1 : Matrix (Fin 3) (Fin 3) ℝ) i j| ≤ ulp := by
  have hvn : vnorm x = len3 x := Props.vnorm_len3 _
  have hp : 0 < len3 x := lt_of_le_of_ne (len3_nonneg' _) fun e => h0 <| by
    funext i
    have := le_len3 x i
    rw [← e] at this
    exact abs_nonpos_iff.1 this
  have hle := le_len3 x
  have hX : |(skewSymmetric x).2 i j| ≤ len3 x := by
    rw [sk_R]
    have p0 := hle 0; have p1 := hle 1; have p2 := hle 2
    fin_cases i <;> fin_cases j <;> simp <;> first | exact hp.le | assumption
  have hXX : |∑ l, (skewSymmetric x).2 i l * (skewSymmetric x).2 l j| ≤ len3 x ^ 2 := by
    rw [Props.len3_sq]; exact sk_sq_le x i j
  have hex : attInc x i j - (1 : Matrix (Fin 3) (Fin 3) ℝ) i j = Real.sin (len3 x) / len3 x * (skewSymmetric x).2 i j
      + (1 - Real.cos (len3 x)) / (len3 x * len3 x) * ∑ l, (skewSymmetric x).2 i l * (skewSymmetric x).2 l j := by
    simp only [attInc, hvn, rsimp, Matrix.add_apply, Matrix.smul_apply, Matrix.mul_apply, smul_eq_mul, Matrix.one_apply, Finset.mul_sum]
    rw [add_assoc, add_sub_cancel_left]
    simp only [mul_assoc]
  rw [hex]
  generalize len3 x = θ at *
  have k1 : |Real.sin θ / θ * (skewSymmetric x).2 i j| ≤ θ := by
    rw [abs_mul, abs_div, abs_of_pos hp]
    have h1 : |Real.sin θ| / θ ≤ 1 := (div_le_one hp).2 ((Real.abs_sin_le_abs (x := θ)).trans (abs_of_pos hp).le)
    calc _ ≤ 1 * θ := mul_le_mul h1 hX (abs_nonneg _) (by norm_num)
      _ = _ := one_mul _
  have k2 : |(1 - Real.cos θ) / (θ * θ) * ∑ l, (skewSymmetric x).2 i l * (skewSymmetric x).2 l j| ≤ θ ^ 2 := by
    have c0 : 0 ≤ 1 - Real.cos θ := by linarith [Real.cos_le_one θ]
    have c1 : 1 - Real.cos θ ≤ θ * θ := by nlinarith [Real.one_sub_sq_div_two_le_cos (x := θ), sq_nonneg θ]
    rw [abs_mul, abs_div, abs_of_nonneg c0, abs_of_nonneg (mul_self_nonneg θ)]
    have h1 : (1 - Real.cos θ) / (θ * θ) ≤ 1 := (div_le_one (mul_pos hp hp)).2 c1
    calc _ ≤ 1 * θ ^ 2 := mul_le_mul h1 hXX (abs_nonneg _) (by norm_num)
      _ = _ := one_mul _
  refine (abs_add_le _ _).trans ((add_le_add k1 k2).trans ?_)
  have : θ ^ 2 ≤ 1e-20 := by
    have : θ ^ 2 ≤ (1e-20) ^ 2 := pow_le_pow_left₀ hp.le hs 2
    exact this.trans (by norm_num)
  have h4 : (2e-20 : ℝ) ≤ ulp := by rw [ulp]; norm_num
  norm_num at *; linarith

theorem ne_zero_of_vsqNorm (h : Rounds53 r) {φ : V3 (Rnd r)} (hm : tau ≤ (vsqNorm φ).val) : valV φ ≠ 0 := fun e => by
  have hz : ∀ i, (φ i).val = 0 := fun i => congrFun e i
  have : (vsqNorm φ).val = 0 := by
    show (fsum fun i => φ i * φ i : Rnd r).val = _
    rw [Rnd.fsum3]
    have : ∀ i, (φ i * φ i).val = 0 := fun i => by show r ((φ i).val * (φ i).val) = 0; rw [hz, mul_zero, h.zero]
    simp [this, h.zero]
  have := tau_pos
  linarith

/-- the computed squared length is not zero unless all components are below 2⁻⁵³⁷ -/
theorem vsqNorm_ge (h : Rounds53 r) (φ : V3 (Rnd r)) (i : Fin 3) (hi : tau ≤ (φ i * φ i).val) : tau ≤ (vsqNorm φ).val := by
  show tau ≤ (fsum fun i => φ i * φ i : Rnd r).val
  rw [Rnd.fsum3]
  obtain ⟨i, rfl⟩ := ord3.surjective i
  have hs : ∀ i, 0 ≤ (φ i * φ i).val := fun i => h.nonneg (mul_self_nonneg _)
  have s0 := hs (ord3 0); have s1 := hs (ord3 1); have s2 := hs (ord3 2)
  have g1 := h.nonneg (add_nonneg s0 s1)
  have k : ∀ x, tau ≤ x → tau ≤ r x := fun x hx => h.le_pow (by norm_num) hx
  fin_cases i <;> simp only [Fin.zero_eta, Fin.mk_one, Fin.reduceFinMk] at hi
  · have := k ((φ (ord3 0) * φ (ord3 0)).val + (φ (ord3 1) * φ (ord3 1)).val) (by linarith)
    exact k _ (by linarith)
  · have := k ((φ (ord3 0) * φ (ord3 0)).val + (φ (ord3 1) * φ (ord3 1)).val) (by linarith)
    exact k _ (by linarith)
  · exact k _ (by linarith)

theorem vsqNorm_len (h : Rounds53 r) (φ : V3 (Rnd r)) (hp : 1e-160 ≤ len3 (valV φ)) : tau ≤ (vsqNorm φ).val := by
  have hk : (2 : ℝ) ^ (-537 : ℤ) ≤ 1e-161 := by
    have : (2 : ℝ) ^ (-537 : ℤ) = ((2 : ℝ) ^ 179)⁻¹ ^ 3 := by rw [inv_pow, ← pow_mul, _root_.zpow_neg]; rfl
    rw [this]
    have h2 : ((2 : ℝ) ^ 179)⁻¹ ≤ 1.4e-54 := by norm_num
    refine (pow_le_pow_left₀ (by positivity) h2 3).trans (by norm_num)
  obtain ⟨i, hi⟩ : ∃ i, (2 : ℝ) ^ (-537 : ℤ) ≤ |(φ i).val| := by
    by_contra hn
    push Not at hn
    have h1 : len3 (valV φ) ^ 2 ≤ (3e-161) ^ 2 := by
      rw [Props.len3_sq]
      have : ∀ i, valV φ i ^ 2 ≤ (1e-161) ^ 2 := fun i => by
        rw [← sq_abs]; exact pow_le_pow_left₀ (abs_nonneg _) ((hn i).le.trans hk) 2
      have h0 := this 0; have h1 := this 1; have h2 := this 2
      norm_num at *; linarith
    have h2 := abs_le_of_sq_le_sq' h1 (by norm_num) |>.2
    norm_num at *; linarith
  refine vsqNorm_ge h φ i (h.le_pow (by norm_num) ?_)
  rw [← abs_mul_abs_self]
  have e : tau = (2 : ℝ) ^ (-537 : ℤ) * (2 : ℝ) ^ (-537 : ℤ) := by rw [tau, ← zpow_add₀ (by norm_num)]; norm_num
  rw [← tau, e]
  exact mul_le_mul hi hi (by positivity) (abs_nonneg _)

/-- the computed attitude increment, for every increment up to 4 rad whose computed squared length is not zero -/
theorem attInc_rnd' (h : Rounds53 r) (φ : V3 (Rnd r)) (hm : tau ≤ (vsqNorm φ).val) (h4 : len3 (valV φ) ≤ 4) (i j : Fin 3) :
    |(attInc φ i j).val - attInc (valV φ) i j| ≤ 216 * ulp := by
  rcases le_total (1e-20) (len3 (valV φ)) with hp | hp
  · exact attInc_rnd_normal h φ hp h4 i j
  · have h1 := attInc_tiny_rnd h φ (tinyAngle h φ hm hp) i j
    have h2 := attInc_tiny_exact (valV φ) (ne_zero_of_vsqNorm h hm) hp i j
    have e : (attInc φ i j).val - attInc (valV φ) i j = ((attInc φ i j).val - (1 : Matrix (Fin 3) (Fin 3) ℝ) i j)
        - (attInc (valV φ) i j - (1 : Matrix (Fin 3) (Fin 3) ℝ) i j) := by ring
    rw [e]
    refine (abs_sub _ _).trans ?_
    have := ulp_pos
    linarith

/-- the computed attitude increment, between 10⁻¹⁶⁰ and 4 rad -/
theorem attInc_rnd (h : Rounds53 r) (φ : V3 (Rnd r)) (hp1 : 1e-160 ≤ len3 (valV φ)) (h4 : len3 (valV φ) ≤ 4) (i j : Fin 3) :
    |(attInc φ i j).val - attInc (valV φ) i j| ≤ 216 * ulp := attInc_rnd' h φ (vsqNorm_len h φ hp1) h4 i j

end NavFuse
