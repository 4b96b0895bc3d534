import Verif.Props.Init
/-! # C60: exactly which states a fine-alignment prediction keeps -/

namespace NavFuse.Props.Align
open Matrix NavFuse.KA NavFuse.Init NavFuse.XR NavFuse.Spec NavFuse.Kalman

/-- C60 (exactly). With the rotation rate, gravity and radius of the Earth, at every latitude, the prediction keeps the state if and only if the state is zero;
it keeps the gyroscope biases if and only if they are zero. -/
theorem C60_characterised (lat wE g r : ℝ) (hw : |wE| ≤ 0.01) (hg : |g| ≤ 100) (hr : 1e6 ≤ r) (x : Fin 8 → ℝ) (P : Matrix (Fin 8) (Fin 8) ℝ) (xo : Fin 8 → ℝ)
    (Po : Matrix (Fin 8) (Fin 8) ℝ) :
    ∃ x' P', fineAlignmentPredict lat wE g r ⟨8, x⟩ ⟨8, 8, P⟩ ⟨8, xo⟩ ⟨8, 8, Po⟩ = .ok (true, ⟨8, x'⟩, ⟨8, 8, P'⟩)
      ∧ (x' = x ↔ x = 0) ∧ ((x' 3 = x 3 ∧ x' 4 = x 4 ∧ x' 5 = x 5) ↔ (x 3 = 0 ∧ x 4 = 0 ∧ x 5 = 0)) := by
  refine ⟨_, _, predict_eq lat wE g r x P xo Po, ⟨fun h => ?_, ?_⟩, ?_⟩
  · have e := fun i => congrFun h i
    have e0 : -(wE * Real.sin lat) * x 1 - x 3 + x 7 / r = x 0 := e 0
    have e1 : wE * Real.sin lat * x 0 + wE * Real.cos lat * x 2 - x 4 - x 6 / r = x 1 := e 1
    have e2 : -(wE * Real.cos lat) * x 1 - x 5 + Real.tan lat / r * x 7 = x 2 := e 2
    have e3 : 0 = x 3 := e 3
    have e4 : 0 = x 4 := e 4
    have e5 : 0 = x 5 := e 5
    have e6 : g * x 1 - 2 * wE * Real.sin lat * x 7 = x 6 := e 6
    have e7 : -g * x 0 + 2 * wE * Real.sin lat * x 6 = x 7 := e 7
    have hs : |wE * Real.sin lat| ≤ 0.01 := by
      rw [abs_mul]; exact (mul_le_mul hw (Real.abs_sin_le_one _) (abs_nonneg _) (by norm_num)).trans (by norm_num)
    have hc : |wE * Real.cos lat| ≤ 0.01 := by
      rw [abs_mul]; exact (mul_le_mul hw (Real.abs_cos_le_one _) (abs_nonneg _) (by norm_num)).trans (by norm_num)
    have ht : |wE * Real.cos lat * Real.tan lat| ≤ 0.01 := by
      by_cases hz : Real.cos lat = 0
      · rw [hz]; norm_num
      · rw [mul_assoc, mul_comm (Real.cos lat), Real.tan_mul_cos hz]; exact hs
    have e1' : wE * Real.sin lat * x 0 - (wE * Real.cos lat) * (wE * Real.cos lat) * x 1 + wE * Real.cos lat * Real.tan lat * (x 7 / r) - x 6 / r = x 1 := by
      linear_combination e1 + wE * Real.cos lat * e2 - wE * Real.cos lat * e5 - e4
    have hr0 : 0 < r := by linarith
    generalize wE * Real.cos lat * Real.tan lat = τ at *
    generalize hS : wE * Real.sin lat = S at *
    generalize hC : wE * Real.cos lat = C at *
    have i6 : |x 6 / r| ≤ 1e-6 * |x 6| := by
      rw [abs_div, abs_of_pos hr0, div_le_iff₀ hr0]; nlinarith [abs_nonneg (x 6)]
    have i7 : |x 7 / r| ≤ 1e-6 * |x 7| := by
      rw [abs_div, abs_of_pos hr0, div_le_iff₀ hr0]; nlinarith [abs_nonneg (x 7)]
    have b : ∀ a z c : ℝ, |a| ≤ c → |a * z| ≤ c * |z| := fun a z c h => by rw [abs_mul]; exact mul_le_mul_of_nonneg_right h (abs_nonneg _)
    have a0 : |x 0| ≤ 0.01 * |x 1| + 1e-6 * |x 7| := by
      rw [← e0, ← e3]
      have h1 := b S (x 1) 0.01 hs
      rw [show -S * x 1 - 0 + x 7 / r = -(S * x 1) + x 7 / r by ring]
      refine (abs_add_le _ _).trans ?_
      rw [abs_neg]; linarith
    have a1 : |x 1| ≤ 0.01 * |x 0| + 1e-4 * |x 1| + 1e-6 * |x 7| + 1e-6 * |x 6| := by
      have h1 := b S (x 0) 0.01 hs
      have h2 := b (C * C) (x 1) 1e-4 (by rw [abs_mul]; nlinarith [abs_nonneg C])
      have h3 := b τ (x 7 / r) 0.01 ht
      calc |x 1| = |S * x 0 - C * C * x 1 + τ * (x 7 / r) - x 6 / r| := by rw [e1']
        _ ≤ |S * x 0| + |C * C * x 1| + |τ * (x 7 / r)| + |x 6 / r| :=
          (abs_sub _ _).trans (add_le_add ((abs_add_le _ _).trans (add_le_add (abs_sub _ _) le_rfl)) le_rfl)
        _ ≤ _ := by norm_num at *; linarith [abs_nonneg (x 7)]
    have a6 : |x 6| ≤ 100 * |x 1| + 0.02 * |x 7| := by
      rw [← e6]
      have h1 := b g (x 1) 100 hg
      have h2 := b S (x 7) 0.01 hs
      rw [show 2 * wE * Real.sin lat * x 7 = 2 * (S * x 7) by rw [← hS]; ring]
      refine (abs_sub _ _).trans ?_
      rw [abs_mul 2, abs_two]; linarith
    have a7 : |x 7| ≤ 100 * |x 0| + 0.02 * |x 6| := by
      rw [← e7]
      have h1 := b g (x 0) 100 hg
      have h2 := b S (x 6) 0.01 hs
      rw [show -g * x 0 + 2 * wE * Real.sin lat * x 6 = -(g * x 0) + 2 * (S * x 6) by rw [← hS]; ring]
      refine (abs_add_le _ _).trans ?_
      rw [abs_neg, abs_mul 2, abs_two]; linarith
    have n0 := abs_nonneg (x 0)
    have n1 := abs_nonneg (x 1)
    have n6 := abs_nonneg (x 6)
    have n7 := abs_nonneg (x 7)
    norm_num at a0 a1 a6 a7
    have z0 : x 0 = 0 := abs_nonpos_iff.1 (by linarith)
    have z1 : x 1 = 0 := abs_nonpos_iff.1 (by linarith)
    have z6 : x 6 = 0 := abs_nonpos_iff.1 (by linarith)
    have z7 : x 7 = 0 := abs_nonpos_iff.1 (by linarith)
    have z2 : x 2 = 0 := by rw [← e2, z1, z7, ← e5]; ring
    ext i
    fin_cases i
    exacts [z0, z1, z2, e3.symm, e4.symm, e5.symm, z6, z7]
  · rintro rfl
    ext i; fin_cases i <;> simp [errRate]
  · simp [errRate, eq_comm]

/-- 45 degrees, the constants of the Earth -/
example (P : Matrix (Fin 8) (Fin 8) ℝ) : ∃ x' P', fineAlignmentPredict 0.785 7.292115e-5 9.8 6378137 ⟨8, ![0, 0, 1e-3, 0, 0, 0, 0, 0]⟩ ⟨8, 8, P⟩ ⟨8, 0⟩ ⟨8, 8, 0⟩
    = .ok (true, ⟨8, x'⟩, ⟨8, 8, P'⟩) ∧ x' ≠ ![0, 0, 1e-3, 0, 0, 0, 0, 0] := by
  obtain ⟨x', P', h, h1, -⟩ := C60_characterised 0.785 7.292115e-5 9.8 6378137 (by rw [abs_of_pos (by norm_num)]; norm_num)
    (by rw [abs_of_pos (by norm_num)]; norm_num) (by norm_num) ![0, 0, 1e-3, 0, 0, 0, 0, 0] P 0 0
  refine ⟨x', P', h, fun he => ?_⟩
  have : (1e-3 : ℝ) = 0 := congrFun (h1.1 he) 2
  norm_num at this

end NavFuse.Props.Align
