import Verif.Props.Init
import Mathlib.Analysis.SpecialFunctions.Trigonometric.Angle
import Mathlib.Analysis.Real.Pi.Bounds

/-! # Property C189: azimuths are angles -/

namespace NavFuse.Props.Align
open Matrix NavFuse.Init NavFuse.Spec NavFuse.Kalman

/-- by how much one azimuth is to be turned, clockwise or anticlockwise, to get to the other -/
noncomputable def turnBetween (from_ to_ : ℝ) : ℝ := (((to_ - from_ : ℝ)) : Real.Angle).toReal

/-- C189, exactly when it holds: the azimuth update moves the heading error by the gain times (the turn from the estimated to the measured azimuth, minus the estimated heading
error) if and only if the difference of the two numbers lies in `(-π, π]`, or the heading is known exactly anyway. -/
theorem C189_azimuth_characterised_partial {L : LinSolver ℝ} (hL : L.Correct) (azMeas dtAz azEst sigAz : ℝ) (x xo : Fin 8 → ℝ) (P Po : Matrix (Fin 8) (Fin 8) ℝ)
    (hP : IsCov P) (hd : 0 < dtAz) (hs : sigAz ≠ 0) :
    ∃ x' P', fineAlignmentAzimuthUpdate L azMeas dtAz azEst sigAz ⟨8, x⟩ ⟨8, 8, P⟩ ⟨8, xo⟩ ⟨8, 8, Po⟩ = .ok (true, ⟨8, x'⟩, ⟨8, 8, P'⟩)
      ∧ (x' 2 = x 2 + P 2 2 / (P 2 2 + sigAz ^ 2 * dtAz) * (turnBetween azEst azMeas - x 2)
          ↔ (-Real.pi < azMeas - azEst ∧ azMeas - azEst ≤ Real.pi) ∨ P 2 2 = 0) := by
  obtain ⟨x', P', e, hx, -⟩ := C61_azimuth hL azMeas dtAz azEst sigAz x P xo Po hP hd hs
  have hr : 0 < sigAz ^ 2 * dtAz := by positivity
  have h22 : 0 ≤ P 2 2 := by simpa [Pi.single_apply] using hP.2 (Pi.single 2 1)
  have hS : P 2 2 + sigAz ^ 2 * dtAz ≠ 0 := by positivity
  refine ⟨x', P', e, ?_⟩
  rw [hx 2, ← Real.Angle.toReal_coe_eq_self_iff, ← turnBetween, add_right_inj, mul_eq_mul_left_iff, div_eq_zero_iff, or_iff_left hS, sub_left_inj, eq_comm]

/-- C189 for a careful caller: given the estimated azimuth plus the turn to the measured one, the update does what is claimed for all azimuths, and whole turns in the
measurement do not matter. -/
theorem C189_careful_caller_partial {L : LinSolver ℝ} (hL : L.Correct) (azMeas dtAz azEst sigAz : ℝ) (x xo : Fin 8 → ℝ) (P Po : Matrix (Fin 8) (Fin 8) ℝ)
    (hP : IsCov P) (hd : 0 < dtAz) (hs : sigAz ≠ 0) :
    (∀ k : ℤ, turnBetween azEst (azMeas + k * (2 * Real.pi)) = turnBetween azEst azMeas) ∧
    ∃ x' P', fineAlignmentAzimuthUpdate L (azEst + turnBetween azEst azMeas) dtAz azEst sigAz ⟨8, x⟩ ⟨8, 8, P⟩ ⟨8, xo⟩ ⟨8, 8, Po⟩ = .ok (true, ⟨8, x'⟩, ⟨8, 8, P'⟩)
      ∧ ∀ i, x' i = x i + P i 2 / (P 2 2 + sigAz ^ 2 * dtAz) * (turnBetween azEst azMeas - x 2) := by
  constructor
  · intro k
    unfold turnBetween
    congr 1
    rw [Real.Angle.angle_eq_iff_two_pi_dvd_sub]
    exact ⟨k, by ring⟩
  · obtain ⟨x', P', e, hx, -⟩ := C61_azimuth hL (azEst + turnBetween azEst azMeas) dtAz azEst sigAz x P xo Po hP hd hs
    exact ⟨x', P', e, fun i => by rw [hx i, add_sub_cancel_left]⟩

/-- C189 fails: a full turn more in the measured azimuth, which is the same direction, turns the estimated heading error by an angle strictly between none and a full turn. -/
theorem C189_full_turn_fails {L : LinSolver ℝ} (hL : L.Correct) (azMeas dtAz azEst sigAz : ℝ) (x xo : Fin 8 → ℝ) (P Po : Matrix (Fin 8) (Fin 8) ℝ)
    (hP : IsCov P) (hd : 0 < dtAz) (hs : sigAz ≠ 0) (h2 : P 2 2 ≠ 0) :
    ∃ x' x'' P' P'', fineAlignmentAzimuthUpdate L azMeas dtAz azEst sigAz ⟨8, x⟩ ⟨8, 8, P⟩ ⟨8, xo⟩ ⟨8, 8, Po⟩ = .ok (true, ⟨8, x'⟩, ⟨8, 8, P'⟩)
      ∧ fineAlignmentAzimuthUpdate L (azMeas + 2 * Real.pi) dtAz azEst sigAz ⟨8, x⟩ ⟨8, 8, P⟩ ⟨8, xo⟩ ⟨8, 8, Po⟩ = .ok (true, ⟨8, x''⟩, ⟨8, 8, P''⟩)
      ∧ 0 < x'' 2 - x' 2 ∧ x'' 2 - x' 2 < 2 * Real.pi := by
  obtain ⟨x', P', e, hx, -⟩ := C61_azimuth hL azMeas dtAz azEst sigAz x P xo Po hP hd hs
  obtain ⟨x'', P'', e', hx', -⟩ := C61_azimuth hL (azMeas + 2 * Real.pi) dtAz azEst sigAz x P xo Po hP hd hs
  have hr : 0 < sigAz ^ 2 * dtAz := by positivity
  have h22 : 0 ≤ P 2 2 := by simpa [Pi.single_apply] using hP.2 (Pi.single 2 1)
  have hp : 0 < P 2 2 := lt_of_le_of_ne h22 (Ne.symm h2)
  have hpi := Real.two_pi_pos
  have hg : 0 < P 2 2 / (P 2 2 + sigAz ^ 2 * dtAz) := by positivity
  have hg1 : P 2 2 / (P 2 2 + sigAz ^ 2 * dtAz) < 1 := by rw [div_lt_one (by positivity)]; linarith
  have hd' : x'' 2 - x' 2 = P 2 2 / (P 2 2 + sigAz ^ 2 * dtAz) * (2 * Real.pi) := by rw [hx 2, hx' 2]; ring
  exact ⟨x', x'', P', P'', e, e', hd' ▸ mul_pos hg hpi, by rw [hd']; nlinarith⟩

/-- C189 fails across north: the compass reads a little west of north, the navigator a little east of it, `2 ε` apart. A filter that trusts the compass at least as much as itself
turns the heading by more than a quarter turn, to the far side. -/
theorem C189_across_north_fails {L : LinSolver ℝ} (hL : L.Correct) (ε dtAz sigAz : ℝ) (x xo : Fin 8 → ℝ) (P Po : Matrix (Fin 8) (Fin 8) ℝ)
    (hP : IsCov P) (hd : 0 < dtAz) (hs : sigAz ≠ 0) (h0 : 0 < ε) (h1 : ε < 1) (hx0 : x 2 = 0) (hg : sigAz ^ 2 * dtAz ≤ P 2 2) :
    turnBetween ε (2 * Real.pi - ε) = -(2 * ε) ∧
    ∃ x' P', fineAlignmentAzimuthUpdate L (2 * Real.pi - ε) dtAz ε sigAz ⟨8, x⟩ ⟨8, 8, P⟩ ⟨8, xo⟩ ⟨8, 8, Po⟩ = .ok (true, ⟨8, x'⟩, ⟨8, 8, P'⟩)
      ∧ Real.pi / 2 < x' 2 ∧ Real.pi - ε ≤ x' 2 := by
  have p2 := Real.pi_gt_three
  constructor
  · have : ((2 * Real.pi - ε - ε : ℝ) : Real.Angle) = ((-(2 * ε) : ℝ) : Real.Angle) := by
      rw [Real.Angle.angle_eq_iff_two_pi_dvd_sub]; exact ⟨1, by push_cast; ring⟩
    rw [turnBetween, this, Real.Angle.toReal_coe_eq_self_iff]
    constructor <;> linarith
  · obtain ⟨x', P', e, hx, -⟩ := C61_azimuth hL (2 * Real.pi - ε) dtAz ε sigAz x P xo Po hP hd hs
    have hr : 0 < sigAz ^ 2 * dtAz := by positivity
    have hh : 1 / 2 ≤ P 2 2 / (P 2 2 + sigAz ^ 2 * dtAz) := by rw [div_le_div_iff₀ (by norm_num) (by linarith)]; linarith
    have : Real.pi - ε ≤ x' 2 := by
      rw [hx 2, hx0]; nlinarith
    exact ⟨x', P', e, by linarith, this⟩

example : IsCov (1 : Matrix (Fin 8) (Fin 8) ℝ) ∧ (0 : ℝ) < 1 ∧ (0.01 : ℝ) ≠ 0 ∧ (1 : Matrix (Fin 8) (Fin 8) ℝ) 2 2 ≠ 0
    ∧ (0.01 : ℝ) ^ 2 * 1 ≤ (1 : Matrix (Fin 8) (Fin 8) ℝ) 2 2 :=
  ⟨isCov_iff.2 Matrix.PosSemidef.one, one_pos, by norm_num, by simp, by norm_num⟩

end NavFuse.Props.Align
