import Verif.Props.Init
import Verif.Props.PvaNed
import Mathlib.Analysis.Real.Pi.Bounds

/-! # Property C188: the matrix of fine alignment and the error equations of a vehicle at rest -/

namespace NavFuse.Props.Align
open Matrix NavFuse.Init NavFuse.Spec NavFuse.XR

/-- Errors of a navigator at rest on a sphere of radius `r`: tilts `ψ` (x 0, 1, 2), gyroscope biases `b` (x 3, 4, 5), velocities north and east (x 6, 7), height and vertical
velocity held. `ψ' = -Ω × ψ + ω(v) - b`, where `ω(v)` is the rate at which axes that move with the velocity `v` turn over the earth, `b' = 0`, and `v' = s × ψ - 2 Ω × v`
with the specific force `s = (0, 0, -g)` of a vehicle at rest. -/
noncomputable def restErrors (lat wE g r : ℝ) (x : Fin 8 → ℝ) : Fin 8 → ℝ :=
  let Ω : Fin 3 → ℝ := wE • ![Real.cos lat, 0, -Real.sin lat]
  let ψ : Fin 3 → ℝ := ![x 0, x 1, x 2]
  let b : Fin 3 → ℝ := ![x 3, x 4, x 5]
  let v : Fin 3 → ℝ := ![x 6, x 7, 0]
  let ψ' := -(Ω ⨯₃ ψ) + transportVec lat (x 6 / r) (x 7 / (r * Real.cos lat)) - b
  let v' := ![0, 0, -g] ⨯₃ ψ - (2 : ℝ) • (Ω ⨯₃ v)
  ![ψ' 0, ψ' 1, ψ' 2, 0, 0, 0, v' 0, v' 1]

/-- C188, what holds: the state that `fineAlignmentPredict` computes is the rate of change of the errors in every component but the third, the heading error, which is off by
`2 tan(lat) / r` times the east velocity. -/
theorem C188_resting_errors_partial (lat wE g r : ℝ) (hc : Real.cos lat ≠ 0) (x xo : Fin 8 → ℝ) (P Po : Matrix (Fin 8) (Fin 8) ℝ) :
    ∃ x' P', fineAlignmentPredict lat wE g r ⟨8, x⟩ ⟨8, 8, P⟩ ⟨8, xo⟩ ⟨8, 8, Po⟩ = .ok (true, ⟨8, x'⟩, ⟨8, 8, P'⟩)
      ∧ (∀ i, i ≠ 2 → x' i = restErrors lat wE g r x i)
      ∧ x' 2 - restErrors lat wE g r x 2 = 2 * (Real.tan lat / r) * x 7 := by
  refine ⟨_, _, predict_eq lat wE g r x P xo Po, fun i hi => ?_, ?_⟩
  · fin_cases i <;> simp [errRate, restErrors, transportVec, cross_apply] at hi ⊢
    · rw [div_mul_eq_mul_div, mul_div_mul_right _ _ hc]; ring
    · ring
    · ring
    · ring
  · simp [errRate, restErrors, transportVec, cross_apply]
    rw [Real.tan_eq_sin_div_cos, mul_comm r, ← div_div]; ring

/-- C188 fails: away from the equator an error of the east velocity moves the heading error to the wrong side; the two agree only without that velocity error. -/
theorem C188_heading_sign_fails (lat wE g r : ℝ) (hc : Real.cos lat ≠ 0) (hs : Real.sin lat ≠ 0) (hr : r ≠ 0) (x xo : Fin 8 → ℝ) (P Po : Matrix (Fin 8) (Fin 8) ℝ) :
    ∃ x' P', fineAlignmentPredict lat wE g r ⟨8, x⟩ ⟨8, 8, P⟩ ⟨8, xo⟩ ⟨8, 8, Po⟩ = .ok (true, ⟨8, x'⟩, ⟨8, 8, P'⟩)
      ∧ (x' = restErrors lat wE g r x ↔ x 7 = 0) := by
  obtain ⟨x', P', e, h, h2⟩ := C188_resting_errors_partial lat wE g r hc x xo P Po
  have ht : 2 * (Real.tan lat / r) ≠ 0 := mul_ne_zero two_ne_zero (div_ne_zero (by rw [Real.tan_eq_sin_div_cos]; exact div_ne_zero hs hc) hr)
  refine ⟨x', P', e, fun h' => ?_, fun h' => funext fun i => ?_⟩
  · rw [h', sub_self] at h2
    exact (mul_eq_zero.1 h2.symm).resolve_left ht
  · by_cases hi : i = 2
    · rw [h', mul_zero, sub_eq_zero] at h2; rw [hi, h2]
    · exact h i hi

example : Real.cos 1 ≠ 0 ∧ Real.sin 1 ≠ 0 ∧ (6378137 : ℝ) ≠ 0 :=
  ⟨Real.cos_one_pos.ne', (Real.sin_pos_of_pos_of_lt_pi one_pos (by linarith [Real.pi_gt_three])).ne', by norm_num⟩

/-- C188: the other error model of the code has the other sign. For a vehicle at rest, tilts `ψ` and level velocity errors (as rates of latitude and longitude), the attitude
rows of the matrix of `nedErrorDynamics` are the error equations, in all three components. -/
theorem C188_nedErrorDynamics_right (s : V3 ℝ) (Γ Q : M3 ℝ) (p acc : V3 ℝ) (hr : Pva.RegularNed (p 0) (p 2)) (F0 G0 : Matrix (Fin 9) (Fin 9) XR) (g r : ℝ) (x : Fin 8 → ℝ)
    (hb : x 3 = 0 ∧ x 4 = 0 ∧ x 5 = 0) :
    ∃ F G : Matrix (Fin 9) (Fin 9) ℝ,
      NavFuse.Pva.nedErrorDynamics (finV s) (finM Γ) (finM Q) (finV p) (finV 0) (finV acc) ⟨9, 9, F0⟩ ⟨9, 9, G0⟩ = .ok (true, ⟨9, 9, finM F⟩, ⟨9, 9, finM G⟩)
      ∧ ∀ i : Fin 3, (F *ᵥ ![x 0, x 1, x 2, x 6 / r, x 7 / (r * Real.cos (p 0)), 0, 0, 0, 0]) (Fin.castLE (by omega) i)
          = restErrors (p 0) Spec.earthRate g r x (Fin.castLE (by omega) i) := by
  refine ⟨_, _, Pva.ned_X s Γ Q p 0 acc hr F0 G0, fun i => ?_⟩
  obtain ⟨b3, b4, b5⟩ := hb
  fin_cases i <;>
    simp [NavFuse.Pva.nedF, mulVec, dotProduct, Fin.sum_univ_succ, rsimp, NavUtils.wE_R, restErrors, transportVec, cross_apply, b3, b4, b5] <;> ring

example : Pva.RegularNed 1 0 ∧ ∃ x : Fin 8 → ℝ, (x 3 = 0 ∧ x 4 = 0 ∧ x 5 = 0) ∧ x 7 ≠ 0 :=
  ⟨Pva.regularNed_of_nonneg Real.cos_one_pos.ne' le_rfl, ![0, 0, 0, 0, 0, 0, 0, 1], by simp, by simp⟩

end NavFuse.Props.Align
