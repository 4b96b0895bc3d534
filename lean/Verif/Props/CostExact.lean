import Verif.Props.LeastSquares
import Verif.Props.Eop
/-! C68 and C87 exactly: when the cost reported by the weighted solver is the weighted cost, and when interpolated UT1-TAI is the interpolation of UT1-TAI. -/

namespace NavFuse.Props
open Matrix Spec KA Lsq Rotations

/-- C68, exactly. For a full-rank `H` and a positive definite weight the cost reported is the weighted cost for all measurements if and only if weighted and
unweighted squares agree on all residuals that can remain, i.e. on the vectors `ρ` with `Hᵀ W ρ = 0`. -/
theorem C68_characterised {n m : ℕ} {L : LinSolver ℝ} (hL : L.Correct) (H : Matrix (Fin m) (Fin n) ℝ) (hH : FullColumnRank H)
    (W : Matrix (Fin m) (Fin m) ℝ) (hW : IsPosCov W) (x0 : Fin n → ℝ) (J0 : ℝ) :
    (∀ y, ∃ x J, weightedLinear L ⟨m, y⟩ ⟨m, n, H⟩ ⟨m, m, W⟩ ⟨n, x0⟩ J0 = .ok (true, ⟨n, x⟩, J) ∧ J = quad W (y - H *ᵥ x) / 2)
      ↔ ∀ ρ, Hᵀ *ᵥ (W *ᵥ ρ) = 0 → quad W ρ = ρ ⬝ᵥ ρ := by
  rw [isPosCov_iff] at hW
  have hs : ∀ y, (Hᵀ * W * H) *ᵥ L.ldltSolve (Hᵀ * W * H) ((Hᵀ * W) *ᵥ y) = (Hᵀ * W) *ᵥ y := fun y => hL.solve _ _ (normal_pd hH hW)
  constructor
  · intro h ρ hρ
    obtain ⟨x, J, h1, h2⟩ := h ρ
    rw [wlls_R L ρ H W x0 J0 hH.le] at h1
    have hz : L.ldltSolve (Hᵀ * W * H) ((Hᵀ * W) *ᵥ ρ) = 0 := by
      have inj : Function.Injective (fun w : Fin n → ℝ => (Hᵀ * W * H) *ᵥ w) := mulVec_injective_iff_isUnit.2 (normal_pd hH hW).isUnit
      apply inj
      show (Hᵀ * W * H) *ᵥ _ = (Hᵀ * W * H) *ᵥ 0
      rw [hs, ← mulVec_mulVec, hρ, mulVec_zero]
    rw [hz] at h1
    simp only [Except.ok.injEq, Prod.mk.injEq, DVec.mk.injEq, true_and, heq_eq_eq, mulVec_zero, sub_zero] at h1
    obtain ⟨rfl, rfl⟩ := h1
    rw [mulVec_zero, sub_zero] at h2
    linarith
  · intro h y
    refine ⟨_, _, wlls_R L y H W x0 J0 hH.le, ?_⟩
    rw [h]
    · ring
    · rw [mulVec_mulVec, mulVec_sub, mulVec_mulVec, hs, sub_self]

/-- both outcomes occur for the mean of two measurements: right with unit weights, wrong with weights two -/
example : (∀ ρ, (!![1; 1] : Matrix (Fin 2) (Fin 1) ℝ)ᵀ *ᵥ ((1 : Matrix (Fin 2) (Fin 2) ℝ) *ᵥ ρ) = 0 → quad 1 ρ = ρ ⬝ᵥ ρ)
    ∧ ¬ ∀ ρ, (!![1; 1] : Matrix (Fin 2) (Fin 1) ℝ)ᵀ *ᵥ (diagonal ![(2 : ℝ), 2] *ᵥ ρ) = 0 → quad (diagonal ![(2 : ℝ), 2]) ρ = ρ ⬝ᵥ ρ := by
  refine ⟨fun ρ _ => by simp [quad], fun h => ?_⟩
  have := h ![1, -1] (by ext i; fin_cases i; simp [mulVec, dotProduct, diagonal, Fin.sum_univ_two])
  simp [quad, mulVec, dotProduct, diagonal, Fin.sum_univ_two] at this
  norm_num at this

/-- C87, exactly: every lookup returns the interpolation of UT1-TAI between its two rows if and only if it is asked for the very start of a day or no leap
second lies between the rows. -/
theorem C87_characterised (obj : Obj ℝ) (hr : obj.eops.Rect) (mjd : ℝ) (e : EopVal ℝ) (h : getCurrentEop obj mjd = .ok (some e)) :
    ∃ i, ∃ u v : EopRow ℝ, IsRow obj.eops i u ∧ IsRow obj.eops (if i + 1 < obj.eops.mjd.length then i + 1 else i) v ∧ u.mjd = ⌊mjd⌋ ∧
      (e.ut1Utc - e.taiUtc = between (Int.fract mjd) (u.ut1Utc - u.taiUtc) (v.ut1Utc - v.taiUtc) ↔ Int.fract mjd = 0 ∨ u.taiUtc = v.taiUtc) := by
  obtain ⟨i, u, v, h1, h2, h3, h4, -⟩ := C87_ut1_tai_partial obj hr mjd e h
  refine ⟨i, u, v, h1, h2, h3, ?_⟩
  rw [h4, add_eq_left, mul_eq_zero, sub_eq_zero, eq_comm (a := v.taiUtc)]

/-- the lookup of `C87_leap_second_fails` is one on which both alternatives fail: noon of a day that ends with a leap second -/
example : ¬ (Int.fract (57753.5 : ℝ) = 0 ∨ (36 : ℝ) = 37) := by
  have : Int.fract (57753.5 : ℝ) = 0.5 := by
    rw [Int.fract, show ⌊(57753.5 : ℝ)⌋ = 57753 by rw [Int.floor_eq_iff]; norm_num]; norm_num
  rw [this]; norm_num

end NavFuse.Props
