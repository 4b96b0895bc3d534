import Verif.Props.Coning
import Verif.Props.Mounting

/-! # Property C174, continued: coning drift accumulates -/

namespace NavFuse.Props
open Matrix Spec NavUtils Strapdown XR

/-! ## powers of a rotation -/

theorem cayley_hamilton3 (M : M3 ℝ) : M * M * M = M.trace • (M * M)
    - (M 0 0 * M 1 1 - M 0 1 * M 1 0 + M 0 0 * M 2 2 - M 0 2 * M 2 0 + M 1 1 * M 2 2 - M 1 2 * M 2 1) • M + M.det • 1 := by
  ext i j
  rw [Matrix.trace_fin_three, det_fin_three]
  fin_cases i <;> fin_cases j <;> simp [mul_apply, Fin.sum_univ_three] <;> ring

theorem trace_pow_rot {B : M3 ℝ} (hB : IsRot B) {β : ℝ} (ht : B.trace = 1 + 2 * Real.cos β) (n : ℕ) : (B ^ n).trace = 1 + 2 * Real.cos (n * β) := by
  obtain ⟨c00, c01, c02, c10, c11, c12, c20, c21, c22⟩ := hB.cof
  have e2 : B 0 0 * B 1 1 - B 0 1 * B 1 0 + B 0 0 * B 2 2 - B 0 2 * B 2 0 + B 1 1 * B 2 2 - B 1 2 * B 2 1 = B.trace := by
    rw [Matrix.trace_fin_three]; linarith
  have ch := cayley_hamilton3 B
  rw [e2, hB.2, one_smul] at ch
  have h2 : (B ^ 2).trace = B.trace ^ 2 - 2 * B.trace := by
    have e : (B ^ 2).trace = B.trace ^ 2 - 2 * (B 0 0 * B 1 1 - B 0 1 * B 1 0 + B 0 0 * B 2 2 - B 0 2 * B 2 0 + B 1 1 * B 2 2 - B 1 2 * B 2 1) := by
      rw [sq B, Matrix.trace_fin_three, Matrix.trace_fin_three]
      simp only [mul_apply, Fin.sum_univ_three]; ring
    rw [e, e2]
  have key : ∀ n : ℕ, (B ^ n).trace = 1 + 2 * Real.cos (n * β) ∧ (B ^ (n + 1)).trace = 1 + 2 * Real.cos ((n + 1 : ℕ) * β) ∧ (B ^ (n + 2)).trace = 1 + 2 * Real.cos ((n + 2 : ℕ) * β) := fun n => by
    induction n with
    | zero =>
      refine ⟨by simp; norm_num, by simpa using ht, ?_⟩
      rw [zero_add, h2, ht]
      push_cast
      rw [Real.cos_two_mul]; ring
    | succ n ih =>
      obtain ⟨i0, i1, i2⟩ := ih
      refine ⟨i1, i2, ?_⟩
      have e : B ^ (n + 1 + 2) = B.trace • B ^ (n + 2) - B.trace • B ^ (n + 1) + B ^ n := by
        rw [show B ^ (n + 1 + 2) = B ^ n * (B * B * B) by simp only [pow_add, pow_one, sq, Matrix.mul_assoc], ch, Matrix.mul_add, Matrix.mul_sub, Matrix.mul_smul, Matrix.mul_smul, Matrix.mul_one]
        simp only [pow_add, pow_one, sq]
      rw [e, trace_add, trace_sub, trace_smul, trace_smul, i0, i1, i2, ht, smul_eq_mul, smul_eq_mul]
      push_cast
      rw [show ((n : ℝ) + 1 + 2) * β = (n + 1) * β + 2 * β by ring, show ((n : ℝ) + 2) * β = (n + 1) * β + β by ring, show (n : ℝ) * β = (n + 1) * β - β by ring]
      rw [Real.cos_add, Real.cos_add, Real.cos_sub, Real.cos_two_mul, Real.sin_two_mul]
      ring
  exact (key n).1

/-! ## two slightly different rates get out of step -/

set_option maxHeartbeats 1600000 in
theorem out_of_step {α β : ℝ} (h0 : 0 < β) (h1 : β < α) (h2 : α ≤ 3 / 20) (h3 : 100 * (α - β) ≤ 18 * (α + β)) : ∃ N : ℕ, 3 / 2 ≤ |Real.cos (N * α) - Real.cos (N * β)| := by
  have hπ := Real.pi_pos
  have hp1 := Real.pi_gt_d2
  have hp2 := Real.pi_lt_d2
  set σ := (α + β) / 2 with hσ
  set ε := α - β with hε
  have σ0 : 0 < σ := by rw [hσ]; linarith
  have ε0 : 0 < ε := by rw [hε]; linarith
  have σ1 : σ ≤ 3 / 20 := by rw [hσ]; linarith
  set k := ⌊σ / ε⌋₊ with hk
  have k1 : (k : ℝ) * ε ≤ σ := by rw [← le_div_iff₀ ε0]; exact Nat.floor_le (by positivity)
  have k2 : σ < ((k : ℝ) + 1) * ε := by rw [← div_lt_iff₀ ε0]; exact Nat.lt_floor_add_one _
  set a := Real.pi / 2 + k * Real.pi with ha
  have a0 : 0 < a := by positivity
  set N := ⌈a / σ⌉₊ with hN
  have n1 : a ≤ N * σ := by rw [← div_le_iff₀ σ0]; exact Nat.le_ceil _
  have n2 : N * σ < a + σ := by
    have := Nat.ceil_lt_add_one (a := a / σ) (by positivity)
    rw [← hN] at this
    have := mul_lt_mul_of_pos_right this σ0
    rw [add_mul, div_mul_cancel₀ _ σ0.ne', one_mul] at this
    exact this
  refine ⟨N, ?_⟩
  set r := N * σ - a with hr
  have s1 : |Real.sin (N * σ)| = |Real.cos r| := by
    rw [show N * σ = (r + Real.pi / 2) + k * Real.pi by rw [hr, ha]; ring, Real.sin_add_nat_mul_pi, abs_mul, abs_pow, abs_neg, abs_one, one_pow, one_mul, Real.sin_add_pi_div_two]
  have c1 : 98 / 100 ≤ |Real.cos r| := by
    have := Real.one_sub_sq_div_two_le_cos (x := r)
    refine le_trans ?_ (le_abs_self _)
    have r0 : 0 ≤ r := by rw [hr]; linarith
    have r1 : r ≤ 3 / 20 := by rw [hr]; linarith
    nlinarith
  set y := N * ε / 2 with hy
  have ye : 2 * σ * y = ε * (a + r) := by rw [hy, hr]; ring
  have y1 : |y - Real.pi / 2| ≤ 32 / 100 := by
    have r0 : 0 ≤ r := by rw [hr]; linarith
    have r1 : r ≤ 3 / 20 := by rw [hr]; linarith
    have hη : ε ≤ 18 / 100 * (2 * σ) := by rw [hσ]; linarith
    have e : 2 * σ * (y - Real.pi / 2) = Real.pi * (k * ε - σ) + ε * (Real.pi / 2 + r) := by
      linear_combination ye + ε * ha
    rw [abs_le]
    constructor
    · have : -(ε * (Real.pi / 2)) ≤ 2 * σ * (y - Real.pi / 2) := by
        rw [e]
        have h8 := mul_nonneg ε0.le r0
        have h9 := mul_le_mul_of_nonneg_left (by linarith : -ε ≤ k * ε - σ) hπ.le
        linarith
      have b : ε * (Real.pi / 2) ≤ 18 / 100 * (2 * σ) * (3.15 / 2) := mul_le_mul hη (by linarith) (by positivity) (by positivity)
      by_contra hc
      rw [not_le] at hc
      have h7 := mul_lt_mul_of_pos_left hc (by positivity : 0 < 2 * σ)
      linarith
    · have : 2 * σ * (y - Real.pi / 2) ≤ ε * (Real.pi / 2 + r) := by
        rw [e]
        have h9 := mul_nonneg hπ.le (by linarith : 0 ≤ σ - k * ε)
        linarith
      have b : ε * (Real.pi / 2 + r) ≤ 18 / 100 * (2 * σ) * (3.15 / 2 + 3 / 20) := mul_le_mul hη (by linarith) (by positivity) (by positivity)
      by_contra hc
      rw [not_le] at hc
      have h7 := mul_lt_mul_of_pos_left hc (by positivity : 0 < 2 * σ)
      linarith
  have c2 : 94 / 100 ≤ |Real.sin y| := by
    have := Real.one_sub_sq_div_two_le_cos (x := y - Real.pi / 2)
    rw [Real.cos_sub_pi_div_two] at this
    refine le_trans ?_ (le_abs_self _)
    have h4 := abs_le.1 y1
    have h5 : (y - Real.pi / 2) ^ 2 ≤ (32 / 100) ^ 2 := sq_le_sq' h4.1 h4.2
    linarith
  have e : Real.cos (N * α) - Real.cos (N * β) = -2 * (Real.sin (N * σ) * Real.sin y) := by
    rw [Real.cos_sub_cos, show (N * α + N * β) / 2 = N * σ by rw [hσ]; ring, show (N * α - N * β) / 2 = y by rw [hy, hε]; ring]; ring
  rw [e, abs_mul, abs_mul, s1]
  have h6 := mul_le_mul c1 c2 (by norm_num) (abs_nonneg _)
  rw [show |(-2 : ℝ)| = 2 by norm_num]
  linarith

/-! ## the navigator on the coning body -/

/-- a turn about the third axis -/
noncomputable def Rz (t : ℝ) : M3 ℝ := !![Real.cos t, -Real.sin t, 0; Real.sin t, Real.cos t, 0; 0, 0, 1]

theorem Rz_add (a b : ℝ) : Rz a * Rz b = Rz (a + b) := by
  ext i j
  fin_cases i <;> fin_cases j <;> simp [Rz, mul_apply, Fin.sum_univ_three, Real.cos_add, Real.sin_add] <;> ring

theorem Rz_zero : Rz 0 = 1 := by
  ext i j
  fin_cases i <;> fin_cases j <;> simp [Rz]

theorem Rz_transpose (a : ℝ) : (Rz a)ᵀ = Rz (-a) := by
  ext i j
  fin_cases i <;> fin_cases j <;> simp [Rz]

theorem Rz_isRot (a : ℝ) : IsRot (Rz a) := by
  refine ⟨by rw [Rz_transpose, Rz_add, add_neg_cancel, Rz_zero], ?_⟩
  rw [det_fin_three]
  simp [Rz]
  nlinarith [Real.sin_sq_add_cos_sq a]

/-- the increment of the coning body over `[k h, (k+1) h]` -/
theorem cone_increment {h : ℝ} {φ : ℕ → V3 ℝ} (hφ : ∀ k i, φ k i = ∫ x in (k : ℝ) * h..((k + 1 : ℕ) : ℝ) * h, cone x i) (k : ℕ) :
    φ k = Rz (k * h) *ᵥ ![Real.sin h, 1 - Real.cos h, 0] := by
  have e0 : φ k 0 = Real.sin (((k + 1 : ℕ) : ℝ) * h) - Real.sin (k * h) := by
    rw [hφ]
    show (∫ x in (k : ℝ) * h..((k + 1 : ℕ) : ℝ) * h, Real.cos x) = _
    rw [integral_cos]
  have e1 : φ k 1 = Real.cos (k * h) - Real.cos (((k + 1 : ℕ) : ℝ) * h) := by
    rw [hφ]
    show (∫ x in (k : ℝ) * h..((k + 1 : ℕ) : ℝ) * h, Real.sin x) = _
    rw [integral_sin]
  have e2 : φ k 2 = 0 := by rw [hφ]; simp [cone]
  have ea : ((k + 1 : ℕ) : ℝ) * h = k * h + h := by push_cast; ring
  rw [ea] at e0 e1
  rw [Real.sin_add] at e0
  rw [Real.cos_add] at e1
  ext i
  fin_cases i
  · show φ k 0 = _
    rw [e0]; simp [Rz, mulVec, dotProduct, Fin.sum_univ_three]; ring
  · show φ k 1 = _
    rw [e1]; simp [Rz, mulVec, dotProduct, Fin.sum_univ_three]; ring
  · show φ k 2 = _
    rw [e2]; simp [Rz, mulVec, dotProduct, Fin.sum_univ_three]

theorem cone_trace {h : ℝ} (h0 : 0 < h) (h1 : h ≤ 1 / 10) :
    (attInc ![Real.sin h, 1 - Real.cos h, 0] * Rz h).trace = 4 * (Real.cos (Real.sin (h / 2)) * Real.cos (h / 2)) ^ 2 - 1 := by
  have sx : 0 < Real.sin (h / 2) := Real.sin_pos_of_pos_of_lt_pi (by linarith) (by linarith [Real.pi_gt_three])
  have hsc := Real.sin_sq_add_cos_sq (h / 2)
  have e1 : Real.sin h = 2 * Real.sin (h / 2) * Real.cos (h / 2) := by rw [← Real.sin_two_mul]; congr 1; ring
  have e2 : Real.cos h = 2 * Real.cos (h / 2) ^ 2 - 1 := by rw [← Real.cos_two_mul]; congr 1; ring
  set x := h / 2
  have ev : (![Real.sin h, 1 - Real.cos h, 0] : V3 ℝ) = (2 * Real.sin x) • ![Real.cos x, Real.sin x, 0] := by
    ext i
    fin_cases i <;> simp [e1, e2] <;> nlinarith
  have hne : (![Real.sin h, 1 - Real.cos h, 0] : V3 ℝ) ≠ 0 := fun e =>
    (Real.sin_pos_of_pos_of_lt_pi h0 (by linarith [Real.pi_gt_three])).ne' (congrFun e 0)
  have hu : (![Real.cos x, Real.sin x, 0] : V3 ℝ) 0 ^ 2 + (![Real.cos x, Real.sin x, 0] : V3 ℝ) 1 ^ 2 + (![Real.cos x, Real.sin x, 0] : V3 ℝ) 2 ^ 2 = 1 := by
    simp
  have eA : ∀ u, attInc ![Real.sin h, 1 - Real.cos h, 0] *ᵥ u = turn ![Real.cos x, Real.sin x, 0] (2 * Real.sin x) u := fun u => by
    rw [attInc_R _ _ hne, ev, rotByVec_axis _ hu _ _ (by positivity)]
  have hA : attInc (![Real.sin h, 1 - Real.cos h, 0] : V3 ℝ) = of fun i j => turn ![Real.cos x, Real.sin x, 0] (2 * Real.sin x) (Pi.single j 1) i := by
    ext i j
    rw [of_apply, ← eA]; simp
  rw [hA, Matrix.trace_fin_three]
  simp [mul_apply, Fin.sum_univ_three, Rz, turn_eq]
  rw [e1, e2, Real.cos_two_mul (Real.sin x)]
  have hs : Real.sin x ^ 2 = 1 - Real.cos x ^ 2 := by linarith
  ring_nf
  rw [hs]
  ring

set_option maxHeartbeats 1600000 in
/-- C174, the error accumulates. On the coning body the attitude of a navigator with perfect gyroscopes, called at any constant rate of at least ten times per
second, is eventually wrong: there is a call after which an entry of the attitude matrix differs by at least one half from the truth. -/
theorem C174_drifts_away : ∃ X : ℝ → M3 ℝ, IsRot (X 0) ∧ (∀ τ u, HasDerivAt (fun s => X s *ᵥ u) (X τ *ᵥ (cone τ ⨯₃ u)) τ)
    ∧ ∀ h : ℝ, 0 < h → h ≤ 1 / 10 → ∀ φ : ℕ → V3 ℝ, (∀ k i, φ k i = ∫ x in (k : ℝ) * h..((k + 1 : ℕ) : ℝ) * h, cone x i) →
      ∀ (s : ℕ → St XR) (dV : ℕ → V3 XR) (t : ℕ → Int) (l v : V3 XR),
        ((s 0).lla = some l ∧ (s 0).vNed = some v ∧ (s 0).RB2N = some (finM (X 0)) ∧ (s 0).tov = some (t 0)) →
        (∀ k, -2 ^ 63 ≤ t (k + 1) - t k ∧ t (k + 1) - t k < 2 ^ 63) → Gyros s dV φ t →
        ∃ N R, (s N).RB2N = some (finM R) ∧ ∃ i j, 1 / 2 ≤ |R i j - X (N * h) i j| := by
  obtain ⟨X, X0, hX, -, T, hT, hTt⟩ := exists_cone
  refine ⟨X, by rw [X0]; exact IsRot.one, hX, fun h hp hle φ hφ s dV t l v hs ht hg => ?_⟩
  have hinc := cone_increment hφ
  set p : V3 ℝ := ![Real.sin h, 1 - Real.cos h, 0] with hpdef
  have hne : p ≠ 0 := fun e => (Real.sin_pos_of_pos_of_lt_pi hp (by linarith [Real.pi_gt_three])).ne' (congrFun e 0)
  set B := attInc p * Rz h with hB
  have hBrot : IsRot B := (attInc_isRot p hne).mul (Rz_isRot h)
  have run : ∀ k, ∃ l v, Ready (s k) l v (finM (B ^ k * Rz (-(k * h)))) (t k) := fun k => by
    induction k with
    | zero =>
      refine ⟨l, v, ?_⟩
      rw [X0] at hs
      simpa [Rz_zero, Ready] using hs
    | succ k ih =>
      obtain ⟨l, v, g⟩ := ih
      have hk : φ k ≠ 0 := fun e => by
        rw [hinc k] at e
        have := congrArg (fun w => (Rz (k * h))ᵀ *ᵥ w) e
        simp only [mulVec_mulVec, (Rz_isRot (k * h)).tr_mul, one_mulVec, mulVec_zero] at this
        exact hne this
      obtain ⟨s', l', v', e, g'⟩ := integrate_att (s k) l v (dV k) _ (t k) (t (k + 1)) (φ k) g hk (ht k)
      rw [hg k] at e
      cases e
      refine ⟨l', v', ?_⟩
      convert g' using 2
      rw [hinc k, attInc_mounted (Rz_isRot _) hne, Rz_transpose]
      have e1 : Rz (-(((k + 1 : ℕ) : ℝ) * h)) = Rz (-h) * Rz (-(k * h)) := by rw [Rz_add]; congr 1; push_cast; ring
      rw [e1, pow_succ]
      have e2 : Rz h * Rz (-h) = 1 := by rw [Rz_add, add_neg_cancel, Rz_zero]
      have e3 : Rz (-(k * h)) * Rz (k * h) = 1 := by rw [Rz_add, neg_add_cancel, Rz_zero]
      calc B ^ k * B * (Rz (-h) * Rz (-(k * h))) = B ^ k * attInc p * (Rz h * Rz (-h)) * Rz (-(k * h)) := by rw [hB]; simp only [Matrix.mul_assoc]
        _ = B ^ k * (Rz (-(k * h)) * Rz (k * h)) * attInc p * Rz (-(k * h)) := by rw [e2, e3, Matrix.mul_one, Matrix.mul_one]
        _ = _ := by simp only [Matrix.mul_assoc]
  -- the angle by which the navigator turns per call
  set c := Real.cos (Real.sin (h / 2)) * Real.cos (h / 2) with hc
  set β := 2 * Real.arccos c with hβ
  have x0 : 0 < h / 2 := by linarith
  have s2 : √2 * √2 = (2 : ℝ) := Real.mul_self_sqrt (by norm_num)
  have sp : 0 < √2 := by positivity
  have sq2 : √2 ≤ (1415 / 1000 : ℝ) := Real.sqrt_le_iff.2 ⟨by norm_num, by norm_num⟩
  have cx0 : 0 ≤ Real.cos (h / 2) := Real.cos_nonneg_of_mem_Icc ⟨by linarith [Real.pi_gt_three], by linarith [Real.pi_gt_three]⟩
  have c_le : c ≤ Real.cos (h / 2) := by rw [hc]; nlinarith [Real.cos_le_one (Real.sin (h / 2))]
  have c_gt : Real.cos (√2 * (h / 2)) < c := by
    have a1 := Real.one_sub_sq_div_two_le_cos (x := Real.sin (h / 2))
    have a2 := Real.one_sub_sq_div_two_le_cos (x := h / 2)
    have hx : |√2 * (h / 2)| ≤ 1 := by rw [abs_of_pos (by positivity)]; nlinarith
    have a3 := (abs_le.1 (Real.cos_bound hx)).2
    have e2 : (√2 * (h / 2)) ^ 2 = 2 * (h / 2) ^ 2 := by rw [mul_pow, sq √2, s2]
    have e4 : |√2 * (h / 2)| ^ 4 = 4 * (h / 2) ^ 4 := by
      rw [← abs_pow, show (√2 * (h / 2)) ^ 4 = ((√2 * (h / 2)) ^ 2) ^ 2 by ring, e2, abs_of_nonneg (by positivity)]; ring
    rw [e2, e4] at a3
    have a4 : Real.sin (h / 2) ^ 2 ≤ (h / 2) ^ 2 := by
      have := Real.sin_le x0.le
      have := Real.sin_nonneg_of_nonneg_of_le_pi x0.le (by linarith [Real.pi_gt_three])
      nlinarith
    have hx1 : h / 2 ≤ 1 := by linarith
    set x := h / 2
    have hx2 : x ^ 2 ≤ 1 := by nlinarith
    have b : (1 - x ^ 2 / 2) * (1 - x ^ 2 / 2) ≤ c := mul_le_mul (by linarith) a2 (by nlinarith) (by nlinarith)
    have := pow_pos x0 4
    nlinarith
  have c1 : c ≤ 1 := c_le.trans (Real.cos_le_one _)
  have cm : -1 ≤ c := (Real.neg_one_le_cos _).trans c_gt.le
  have hβ1 : h ≤ β := by
    have := Real.arccos_le_arccos c_le
    rw [Real.arccos_cos x0.le (by linarith [Real.pi_gt_three])] at this
    rw [hβ]; linarith
  have hβ2 : β < √2 * h := by
    have h1 : Real.arccos c < Real.arccos (Real.cos (√2 * (h / 2))) := Real.strictAntiOn_arccos ⟨Real.neg_one_le_cos _, Real.cos_le_one _⟩ ⟨cm, c1⟩ c_gt
    rw [Real.arccos_cos (by positivity) (by nlinarith [Real.pi_gt_three])] at h1
    rw [hβ]; linarith
  have hBt : B.trace = 1 + 2 * Real.cos β := by
    rw [hB, cone_trace hp hle, hβ, Real.cos_two_mul, Real.cos_arccos cm c1]; ring
  obtain ⟨N, hN⟩ := out_of_step (α := √2 * h) (β := β) (by linarith) hβ2 (by nlinarith) (by nlinarith)
  obtain ⟨l', v', g⟩ := run N
  refine ⟨N, _, g.2.2.1, ?_⟩
  set D := B ^ N - T (N * h) with hD
  have hdiff : B ^ N * Rz (-(N * h)) - X (N * h) = D * Rz (-(N * h)) := by
    rw [hD, Matrix.sub_mul, hT]
    congr 2
    ext i j
    fin_cases i <;> fin_cases j <;> simp [Rz]
  have htr : D.trace = 2 * (Real.cos (N * β) - Real.cos (N * (√2 * h))) := by
    rw [hD, trace_sub, trace_pow_rot hBrot hBt, hTt, show √2 * (N * h) = N * (√2 * h) by ring]; ring
  have hbig : 9 ≤ D.trace ^ 2 := by
    rw [htr]
    have := abs_sub_comm (Real.cos (N * (√2 * h))) (Real.cos (N * β))
    rw [this] at hN
    nlinarith [sq_abs (Real.cos (N * β) - Real.cos (N * (√2 * h))), abs_nonneg (Real.cos (N * β) - Real.cos (N * (√2 * h)))]
  by_contra hno
  simp only [not_exists, not_le] at hno
  have hent : ∀ i j, (D * Rz (-(N * h))) i j ^ 2 ≤ 1 / 4 := fun i j => by
    have := hno i j
    rw [← Matrix.sub_apply, hdiff] at this
    have := abs_lt.1 this
    nlinarith
  have hF : ((D * Rz (-(N * h))) * (D * Rz (-(N * h)))ᵀ).trace = (D * Dᵀ).trace := by
    rw [transpose_mul, Matrix.mul_assoc, ← Matrix.mul_assoc (Rz _), (Rz_isRot _).1, Matrix.one_mul]
  rw [Matrix.trace_fin_three, Matrix.trace_fin_three] at hF
  rw [Matrix.trace_fin_three] at hbig
  simp only [Matrix.mul_apply (M := D * Rz (-(N * h))) (N := (D * Rz (-(N * h)))ᵀ), Matrix.mul_apply (M := D) (N := Dᵀ), transpose_apply, Fin.sum_univ_three] at hF
  have g00 := hent 0 0; have g01 := hent 0 1; have g02 := hent 0 2
  have g10 := hent 1 0; have g11 := hent 1 1; have g12 := hent 1 2
  have g20 := hent 2 0; have g21 := hent 2 1; have g22 := hent 2 2
  nlinarith [sq_nonneg (D 0 0 - D 1 1), sq_nonneg (D 0 0 - D 2 2), sq_nonneg (D 1 1 - D 2 2), sq_nonneg (D 0 1), sq_nonneg (D 0 2), sq_nonneg (D 1 0),
    sq_nonneg (D 1 2), sq_nonneg (D 2 0), sq_nonneg (D 2 1)]

/-- such runs exist, for every interval -/
example (h : ℝ) (hp : 0 < h) (hle : h ≤ 1 / 10) (φ : ℕ → V3 ℝ) (hφ : ∀ k i, φ k i = ∫ x in (k : ℝ) * h..((k + 1 : ℕ) : ℝ) * h, cone x i) :
    ∃ s : ℕ → St XR, Ready (s 0) (finV 0) (finV 0) (finM 1) 0 ∧ Gyros s (fun _ => finV 0) φ (fun k => (k : Int) * 1000) := by
  have hne : ∀ k, φ k ≠ 0 := fun k e => by
    rw [cone_increment hφ k] at e
    have h1 := congrArg (fun w => (Rz (k * h))ᵀ *ᵥ w) e
    simp only [mulVec_mulVec, (Rz_isRot (k * h)).tr_mul, one_mulVec, mulVec_zero] at h1
    exact (Real.sin_pos_of_pos_of_lt_pi hp (by linarith [Real.pi_gt_three])).ne' (congrFun h1 0)
  obtain ⟨s, hs, hg⟩ := exists_gyros φ hne (fun _ => finV 0) (fun k => (k : Int) * 1000) (fun k => by push_cast; constructor <;> linarith)
    { lla := some (finV 0), vNed := some (finV 0), RB2N := some (finM 1), tov := some 0 } (finV 0) (finV 0) 1 ⟨rfl, rfl, rfl, by simp⟩
  exact ⟨s, by rw [hs]; exact ⟨rfl, rfl, rfl, rfl⟩, hg⟩

end NavFuse.Props
