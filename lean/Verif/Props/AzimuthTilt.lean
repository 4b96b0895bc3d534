import Verif.Props.Init
import Mathlib.Analysis.SpecialFunctions.Complex.LogDeriv
import Mathlib.Analysis.Calculus.Deriv.Add
import Mathlib.Analysis.Calculus.Deriv.Mul

/-! # Property C190: the azimuth measurement of a pitched vehicle -/

namespace NavFuse.Props.Align
open Matrix NavFuse.Init NavFuse.Spec NavFuse.Kalman

/-- the azimuth of a direction given in north-east-down axes -/
noncomputable def azimuthOf (c : Fin 3 → ℝ) : ℝ := Complex.arg ⟨c 0, c 1⟩

/-- the body's first axis as seen by a navigator whose attitude is off by the tilts `ψ`: `(1 - ψ ×) c` -/
noncomputable def seenAxis (ψ c : Fin 3 → ℝ) : Fin 3 → ℝ := c - ψ ⨯₃ c

theorem azimuth_deriv (ψ c : Fin 3 → ℝ) (hc : 0 < c 0 ∨ c 1 ≠ 0) :
    HasDerivAt (fun s : ℝ => azimuthOf c - azimuthOf (seenAxis (s • ψ) c)) (ψ 2 - c 2 * (ψ 0 * c 0 + ψ 1 * c 1) / (c 0 ^ 2 + c 1 ^ 2)) 0 := by
  have hn : 0 < c 0 ^ 2 + c 1 ^ 2 := by
    rcases hc with h | h
    · positivity
    · have := sq_nonneg (c 0); positivity
  set f : ℝ → ℂ := fun s => (⟨c 0, c 1⟩ : ℂ) + (s : ℂ) * ⟨-(ψ 1 * c 2 - ψ 2 * c 1), -(ψ 2 * c 0 - ψ 0 * c 2)⟩ with hf
  have e : ∀ s : ℝ, (⟨seenAxis (s • ψ) c 0, seenAxis (s • ψ) c 1⟩ : ℂ) = f s := fun s => by
    apply Complex.ext <;> simp [hf, seenAxis, cross_apply] <;> ring
  have hd : HasDerivAt f ⟨-(ψ 1 * c 2 - ψ 2 * c 1), -(ψ 2 * c 0 - ψ 0 * c 2)⟩ 0 := by
    have := ((Complex.ofRealCLM.hasDerivAt (x := (0 : ℝ))).mul_const (⟨-(ψ 1 * c 2 - ψ 2 * c 1), -(ψ 2 * c 0 - ψ 0 * c 2)⟩ : ℂ)).const_add (⟨c 0, c 1⟩ : ℂ)
    simpa [hf] using this
  have f0 : f 0 = ⟨c 0, c 1⟩ := by simp [hf]
  have hl := hd.clog_real (by rw [f0, Complex.mem_slitPlane_iff]; exact hc)
  have hi := (Complex.imCLM.hasFDerivAt.comp_hasDerivAt (0 : ℝ) hl)
  have hi' := hi.congr_of_eventuallyEq (f₁ := fun s : ℝ => azimuthOf (seenAxis (s • ψ) c)) (Filter.Eventually.of_forall fun s => by
    simp only [azimuthOf, e]
    simp [Complex.log_im])
  refine (hi'.const_sub (azimuthOf c)).congr_deriv ?_
  rw [f0]
  simp [Complex.div_im, Complex.normSq_apply]
  field_simp
  ring

/-- C190: a navigator is off by small tilts `s ψ`, its filter estimates exactly these tilts, and the azimuth is measured without error. To first order in `s` the update then moves
the heading error by the gain times `-c₂ (ψ₀ c₀ + ψ₁ c₁) / (c₀² + c₁²)`, where `c` is the direction of the vehicle's first axis. -/
theorem C190_tilted_azimuth_partial {L : LinSolver ℝ} (hL : L.Correct) (dtAz sigAz : ℝ) (P Po : Matrix (Fin 8) (Fin 8) ℝ) (xo b : Fin 8 → ℝ)
    (hP : IsCov P) (hd : 0 < dtAz) (hs : sigAz ≠ 0) (ψ c : Fin 3 → ℝ) (hc : 0 < c 0 ∨ c 1 ≠ 0) (hb : b 2 = ψ 2) :
    ∃ m : ℝ → ℝ, (∀ s, ∃ x' P', fineAlignmentAzimuthUpdate L (azimuthOf c) dtAz (azimuthOf (seenAxis (s • ψ) c)) sigAz ⟨8, s • b⟩ ⟨8, 8, P⟩ ⟨8, xo⟩ ⟨8, 8, Po⟩
        = .ok (true, ⟨8, x'⟩, ⟨8, 8, P'⟩) ∧ m s = x' 2 - s * ψ 2)
      ∧ HasDerivAt m (P 2 2 / (P 2 2 + sigAz ^ 2 * dtAz) * -(c 2 * (ψ 0 * c 0 + ψ 1 * c 1) / (c 0 ^ 2 + c 1 ^ 2))) 0
      ∧ (c 2 = 0 → HasDerivAt m 0 0) := by
  have D := ((azimuth_deriv ψ c hc).sub ((hasDerivAt_id (0 : ℝ)).mul_const (ψ 2))).const_mul (P 2 2 / (P 2 2 + sigAz ^ 2 * dtAz))
  refine ⟨fun s => P 2 2 / (P 2 2 + sigAz ^ 2 * dtAz) * (azimuthOf c - azimuthOf (seenAxis (s • ψ) c) - s * ψ 2), fun s => ?_, D.congr_deriv ?_,
    fun h => D.congr_deriv ?_⟩
  · obtain ⟨x', P', e, hx, -⟩ := C61_azimuth hL (azimuthOf c) dtAz (azimuthOf (seenAxis (s • ψ) c)) sigAz (s • b) P xo Po hP hd hs
    refine ⟨x', P', e, ?_⟩
    rw [hx 2]; simp [hb]
  · ring
  · rw [h]; ring

/-- C190 fails: for every vehicle whose first axis is neither level nor vertical, and every uncertain heading, there are tilts for which a perfect measurement spoils a perfect
estimate in first order. -/
theorem C190_pitched_fails {L : LinSolver ℝ} (hL : L.Correct) (dtAz sigAz : ℝ) (P Po : Matrix (Fin 8) (Fin 8) ℝ) (xo : Fin 8 → ℝ)
    (hP : IsCov P) (hd : 0 < dtAz) (hs : sigAz ≠ 0) (h2 : P 2 2 ≠ 0) (c : Fin 3 → ℝ) (hc : 0 < c 0 ∨ c 1 ≠ 0) (hp : c 2 ≠ 0) :
    ∃ ψ : Fin 3 → ℝ, ∃ d ≠ 0, ∀ b : Fin 8 → ℝ, b 2 = ψ 2 →
      ∃ m : ℝ → ℝ, (∀ s, ∃ x' P', fineAlignmentAzimuthUpdate L (azimuthOf c) dtAz (azimuthOf (seenAxis (s • ψ) c)) sigAz ⟨8, s • b⟩ ⟨8, 8, P⟩ ⟨8, xo⟩ ⟨8, 8, Po⟩
        = .ok (true, ⟨8, x'⟩, ⟨8, 8, P'⟩) ∧ m s = x' 2 - s * ψ 2) ∧ HasDerivAt m d 0 := by
  have hn : 0 < c 0 ^ 2 + c 1 ^ 2 := by
    rcases hc with h | h
    · positivity
    · have := sq_nonneg (c 0); positivity
  have hr : 0 < sigAz ^ 2 * dtAz := by positivity
  have h22 : 0 ≤ P 2 2 := by simpa [Pi.single_apply] using hP.2 (Pi.single 2 1)
  refine ⟨![c 0, c 1, 0], P 2 2 / (P 2 2 + sigAz ^ 2 * dtAz) * -c 2, mul_ne_zero (div_ne_zero h2 (by positivity)) (neg_ne_zero.2 hp), fun b hb => ?_⟩
  obtain ⟨m, h1, h3, -⟩ := C190_tilted_azimuth_partial hL dtAz sigAz P Po xo b hP hd hs ![c 0, c 1, 0] c hc hb
  refine ⟨m, h1, h3.congr_deriv ?_⟩
  have : c 0 * c 0 + c 1 * c 1 = c 0 ^ 2 + c 1 ^ 2 := by ring
  simp only [cons_val_zero, cons_val_one, this]
  rw [mul_div_cancel_right₀ _ hn.ne']

example : IsCov (1 : Matrix (Fin 8) (Fin 8) ℝ) ∧ (1 : Matrix (Fin 8) (Fin 8) ℝ) 2 2 ≠ 0 ∧ (0 : ℝ) < (![0.8, 0, -0.6] : Fin 3 → ℝ) 0 ∧ (![0.8, 0, -0.6] : Fin 3 → ℝ) 2 ≠ 0 :=
  ⟨isCov_iff.2 Matrix.PosSemidef.one, by simp, by norm_num, by simp; norm_num⟩

end NavFuse.Props.Align
