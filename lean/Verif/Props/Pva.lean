import Verif.Lemmas.PvaEval
import Verif.Props.NavUtils

/-! # Properties C62, C63 and C65: error dynamics in the inertial and earth-fixed frames, and sizes -/

set_option linter.unusedSectionVars false

namespace NavFuse.Props.Pva
open Matrix NavFuse.Pva NavFuse.Spec NavFuse.XR

theorem skew_X (v : V3 ℝ) : (NavUtils.skewSymmetric (finV v)).2 = finM (NavUtils.skewSymmetric v).2 := by
  ext i j; fin_cases i <;> fin_cases j <;> simp [NavUtils.skewSymmetric, xsimp, rsimp]

/-- C62: for finite inputs the inertial error dynamics are finite, and for every error `x` (attitude, velocity, position) and disturbance `u` (rate, acceleration, gravity)
`F x + G u = (-R u₀, a × x₀ + Γ x₂ + R u₁ + u₂, x₁)`. -/
theorem C62_inertial (a : V3 ℝ) (Γ R : M3 ℝ) (F0 G0 : Matrix (Fin 9) (Fin 9) XR) :
    ∃ F G : Matrix (Fin 9) (Fin 9) ℝ,
      inertialErrorDynamics (finV a) (finM Γ) (finM R) ⟨9, 9, F0⟩ ⟨9, 9, G0⟩ = .ok (true, ⟨9, 9, finM F⟩, ⟨9, 9, finM G⟩) ∧
      ∀ x u, part 0 (F *ᵥ x + G *ᵥ u) = -(R *ᵥ part 0 u) ∧
        part 1 (F *ᵥ x + G *ᵥ u) = a ⨯₃ part 0 x + Γ *ᵥ part 2 x + R *ᵥ part 1 u + part 2 u ∧
        part 2 (F *ᵥ x + G *ᵥ u) = part 1 x := by
  refine ⟨blk (inertialF (NavUtils.skewSymmetric a).2 Γ), blk (forceG R R mid), ?_, fun x u => ?_⟩
  · rw [inertial_eval, skew_X, ← blk_X, ← blk_X]
    refine ok_congr (fun i j => ?_) (fun i j => ?_) <;> fin_cases i <;> fin_cases j <;> simp [inertialF, forceG, xsimp, rsimp]
  · simp only [part_add, blk_mulVec]
    simp [inertialF, forceG, rsimp, C39_cross_product, neg_mulVec, zero_mulVec, add_assoc]

/-- C63: the same in the earth-fixed frame with earth rotation `O`: `F x + G u = (-O x₀ - R u₀, a × x₀ - 2 O x₁ - (O² - Γ) x₂ + R u₁ + u₂, x₁)`. -/
theorem C63_ecef (a : V3 ℝ) (Γ R O : M3 ℝ) (F0 G0 : Matrix (Fin 9) (Fin 9) XR) :
    ∃ F G : Matrix (Fin 9) (Fin 9) ℝ,
      ecefErrorDynamics (finV a) (finM Γ) (finM R) (finM O) ⟨9, 9, F0⟩ ⟨9, 9, G0⟩ = .ok (true, ⟨9, 9, finM F⟩, ⟨9, 9, finM G⟩) ∧
      ∀ x u, part 0 (F *ᵥ x + G *ᵥ u) = -(O *ᵥ part 0 x) - R *ᵥ part 0 u ∧
        part 1 (F *ᵥ x + G *ᵥ u) =
          a ⨯₃ part 0 x - (2 : ℝ) • O *ᵥ part 1 x - (O *ᵥ (O *ᵥ part 2 x) - Γ *ᵥ part 2 x) + R *ᵥ part 1 u + part 2 u ∧
        part 2 (F *ᵥ x + G *ᵥ u) = part 1 x := by
  refine ⟨blk (ecefF (NavUtils.skewSymmetric a).2 Γ O), blk (forceG R R mid), ?_, fun x u => ?_⟩
  · rw [ecef_eval, skew_X, ← blk_X, ← blk_X]
    refine ok_congr (fun i j => ?_) (fun i j => ?_) <;> fin_cases i <;> fin_cases j <;> simp [ecefF, forceG, xsimp, rsimp]
  · simp only [part_add, blk_mulVec]
    simp [ecefF, forceG, rsimp, C39_cross_product, neg_mulVec, add_mulVec, smul_mulVec, mulVec_mulVec, zero_mulVec, add_assoc, sub_eq_add_neg]

/-- C63: without earth rotation the earth-fixed error dynamics are the inertial ones. -/
theorem C63_no_rotation (a : V3 ℝ) (Γ R : M3 ℝ) (F0 G0 : Matrix (Fin 9) (Fin 9) XR) :
    ecefErrorDynamics (finV a) (finM Γ) (finM R) (finM 0) ⟨9, 9, F0⟩ ⟨9, 9, G0⟩ =
      inertialErrorDynamics (finV a) (finM Γ) (finM R) ⟨9, 9, F0⟩ ⟨9, 9, G0⟩ := by
  rw [ecef_eval, inertial_eval]
  refine ok_congr (fun i j => ?_) (fun i j => rfl)
  fin_cases i <;> fin_cases j <;> simp [ecefF, inertialF, xsimp]

section generic
variable {α : Type} [Add α] [Sub α] [Mul α] [Div α] [Neg α] [Flt α]

/-- What C65 asks of a function of two output matrices. -/
structure SizeChecked (f : DMat α → DMat α → Out (Bool × DMat α × DMat α)) : Prop where
  /-- outputs that are not 9×9 are refused and left alone -/
  reject : ∀ F G, ¬ (F.r = 9 ∧ F.c = 9 ∧ G.r = 9 ∧ G.c = 9) → f F G = .ok (false, F, G)
  /-- otherwise the call succeeds, and the result does not depend on the previous contents -/
  accept : ∃ F' G' : Matrix (Fin 9) (Fin 9) α, ∀ F G, F.r = 9 ∧ F.c = 9 ∧ G.r = 9 ∧ G.c = 9 → f F G = .ok (true, ⟨9, 9, F'⟩, ⟨9, 9, G'⟩)

private theorem reject_aux {F G : DMat α} {X : Out (Bool × DMat α × DMat α)} (h : ¬ (F.r = 9 ∧ F.c = 9 ∧ G.r = 9 ∧ G.c = 9)) :
    (if F.r ≠ 9 ∨ F.c ≠ 9 then .ok (false, F, G) else if G.r ≠ 9 ∨ G.c ≠ 9 then .ok (false, F, G) else X) = .ok (false, F, G) := by
  split_ifs with h1 h2
  · rfl
  · rfl
  · exact absurd ⟨by tauto, by tauto, by tauto, by tauto⟩ h

private theorem accept_aux {f : DMat α → DMat α → Out (Bool × DMat α × DMat α)} {F' G' : Matrix (Fin 9) (Fin 9) α}
    (h : ∀ F0 G0 : Matrix (Fin 9) (Fin 9) α, f ⟨9, 9, F0⟩ ⟨9, 9, G0⟩ = .ok (true, ⟨9, 9, F'⟩, ⟨9, 9, G'⟩)) (F G : DMat α)
    (hs : F.r = 9 ∧ F.c = 9 ∧ G.r = 9 ∧ G.c = 9) : f F G = .ok (true, ⟨9, 9, F'⟩, ⟨9, 9, G'⟩) := by
  obtain ⟨r, c, m⟩ := F
  obtain ⟨r', c', m'⟩ := G
  obtain ⟨rfl, rfl, rfl, rfl⟩ := hs
  exact h m m'

/-- C65 for the inertial frame, in every arithmetic. -/
theorem C65_inertial_sizes (a : V3 α) (Γ R : M3 α) : SizeChecked (inertialErrorDynamics a Γ R) :=
  ⟨fun _ _ h => reject_aux h, _, _, accept_aux fun F0 G0 => inertial_eval a Γ R F0 G0⟩
/-- C65 for the earth-fixed frame. -/
theorem C65_ecef_sizes (a : V3 α) (Γ R O : M3 α) : SizeChecked (ecefErrorDynamics a Γ R O) :=
  ⟨fun _ _ h => reject_aux h, _, _, accept_aux fun F0 G0 => ecef_eval a Γ R O F0 G0⟩
/-- C65 for the north-east-down frame. -/
theorem C65_ned_sizes (a : V3 α) (Γ R : M3 α) (lla llaDot llaDDot : V3 α) : SizeChecked (nedErrorDynamics a Γ R lla llaDot llaDDot) :=
  ⟨fun _ _ h => reject_aux h, _, _, accept_aux fun F0 G0 => ned_eval a Γ R lla llaDot llaDDot F0 G0⟩

end generic

/-! Neither side of C65 is empty. -/
example : (DMat.zero 9 9 : DMat XR).r = 9 ∧ (DMat.zero 9 9 : DMat XR).c = 9 := ⟨rfl, rfl⟩
example : ¬ ((DMat.zero 9 8 : DMat XR).r = 9 ∧ (DMat.zero 9 8 : DMat XR).c = 9) := fun h => absurd h.2 (show ¬ (8 = 9) by omega)

end NavFuse.Props.Pva
