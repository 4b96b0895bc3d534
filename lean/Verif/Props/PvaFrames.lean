import Verif.Props.Pva
import Verif.Lemmas.Rot
import Mathlib.Analysis.Calculus.Deriv.Add
import Mathlib.Analysis.Calculus.Deriv.Mul
import Mathlib.Analysis.SpecialFunctions.Trigonometric.Deriv

/-! # Property C187: the earth-fixed and the inertial error model describe the same errors -/

namespace NavFuse.Props.Pva
open Matrix NavFuse.Pva NavFuse.Spec NavFuse.XR

/-- an error (attitude, velocity, position) from its three parts -/
def joinParts (ψ v p : V3 ℝ) : Fin 9 → ℝ := ![ψ 0, ψ 1, ψ 2, v 0, v 1, v 2, p 0, p 1, p 2]

theorem part_join (ψ v p : V3 ℝ) : part 0 (joinParts ψ v p) = ψ ∧ part 1 (joinParts ψ v p) = v ∧ part 2 (joinParts ψ v p) = p := by
  refine ⟨?_, ?_, ?_⟩ <;> funext i <;> fin_cases i <;> rfl

/-- an error given in earth-fixed axes, seen in inertial axes: `C` turns earth-fixed into inertial axes, `O` is the matrix of the earth's rotation, and the velocity is the
rate of change of the position in the respective axes -/
def inInertial (C O : M3 ℝ) (x : Fin 9 → ℝ) : Fin 9 → ℝ :=
  joinParts (C *ᵥ part 0 x) (C *ᵥ (part 1 x + O *ᵥ part 2 x)) (C *ᵥ part 2 x)

/-- a disturbance seen in inertial axes: the sensor errors are given in the axes of the sensors, the error of gravity is turned -/
def forceInertial (C : M3 ℝ) (u : Fin 9 → ℝ) : Fin 9 → ℝ := joinParts (part 0 u) (part 1 u) (C *ᵥ part 2 u)

theorem turned_deriv {C : ℝ → M3 ℝ} {C' : M3 ℝ} {z : ℝ → V3 ℝ} {z' : V3 ℝ} {t : ℝ} (hC : ∀ i j, HasDerivAt (fun τ => C τ i j) (C' i j) t)
    (hz : ∀ i, HasDerivAt (fun τ => z τ i) (z' i) t) (i : Fin 3) : HasDerivAt (fun τ => (C τ *ᵥ z τ) i) ((C' *ᵥ z t + C t *ᵥ z') i) t := by
  simp only [mulVec, dotProduct, Fin.sum_univ_three, Pi.add_apply]
  refine ((((hC i 0).mul (hz 0)).add ((hC i 1).mul (hz 1))).add ((hC i 2).mul (hz 2))).congr_deriv ?_
  ring

theorem join_deriv {ψ v p : ℝ → V3 ℝ} {y : Fin 9 → ℝ} {t : ℝ} :
    (∀ i, HasDerivAt (fun τ => joinParts (ψ τ) (v τ) (p τ) i) (y i) t) ↔
      (∀ i, HasDerivAt (fun τ => ψ τ i) (part 0 y i) t) ∧ (∀ i, HasDerivAt (fun τ => v τ i) (part 1 y i) t) ∧ ∀ i, HasDerivAt (fun τ => p τ i) (part 2 y i) t := by
  constructor
  · intro h
    refine ⟨fun i => ?_, fun i => ?_, fun i => ?_⟩ <;> fin_cases i
    exacts [h 0, h 1, h 2, h 3, h 4, h 5, h 6, h 7, h 8]
  · rintro ⟨h0, h1, h2⟩ i
    fin_cases i
    exacts [h0 0, h0 1, h0 2, h1 0, h1 1, h1 2, h2 0, h2 1, h2 2]

theorem parts_ext {x y : Fin 9 → ℝ} (h : ∀ k, part k x = part k y) : x = y := by
  funext i
  fin_cases i
  exacts [congrFun (h 0) 0, congrFun (h 0) 1, congrFun (h 0) 2, congrFun (h 1) 0, congrFun (h 1) 1, congrFun (h 1) 2, congrFun (h 2) 0, congrFun (h 2) 1, congrFun (h 2) 2]

/-- C187: let `C` turn earth-fixed into inertial axes and move with the earth's rotation `O` (`C' = C O`). A differentiable error obeys the matrices returned by
`ecefErrorDynamics` exactly if the same error seen in inertial axes obeys the matrices returned by `inertialErrorDynamics` for the turned specific force, gravity gradient and
sensor attitude. -/
theorem C187_same_errors (a : V3 ℝ) (Γ R O : M3 ℝ) (C : ℝ → M3 ℝ) (t : ℝ) (hR : IsRot (C t)) (hC : ∀ i j, HasDerivAt (fun τ => C τ i j) ((C t * O) i j) t)
    (F0 G0 F1 G1 : Matrix (Fin 9) (Fin 9) XR) :
    ∃ FE GE FI GI : Matrix (Fin 9) (Fin 9) ℝ,
      ecefErrorDynamics (finV a) (finM Γ) (finM R) (finM O) ⟨9, 9, F0⟩ ⟨9, 9, G0⟩ = .ok (true, ⟨9, 9, finM FE⟩, ⟨9, 9, finM GE⟩) ∧
      inertialErrorDynamics (finV (C t *ᵥ a)) (finM (C t * Γ * (C t)ᵀ)) (finM (C t * R)) ⟨9, 9, F1⟩ ⟨9, 9, G1⟩ = .ok (true, ⟨9, 9, finM FI⟩, ⟨9, 9, finM GI⟩) ∧
      ∀ (x : ℝ → Fin 9 → ℝ) (u : Fin 9 → ℝ), (∀ i, DifferentiableAt ℝ (fun τ => x τ i) t) →
        ((∀ i, HasDerivAt (fun τ => x τ i) ((FE *ᵥ x t + GE *ᵥ u) i) t) ↔
          ∀ i, HasDerivAt (fun τ => inInertial (C τ) O (x τ) i) ((FI *ᵥ inInertial (C t) O (x t) + GI *ᵥ forceInertial (C t) u) i) t) := by
  obtain ⟨FE, GE, e1, hE⟩ := C63_ecef a Γ R O F0 G0
  obtain ⟨FI, GI, e2, hI⟩ := C62_inertial (C t *ᵥ a) (C t * Γ * (C t)ᵀ) (C t * R) F1 G1
  refine ⟨FE, GE, FI, GI, e1, e2, fun x u hx => ?_⟩
  have hx' : ∀ i, HasDerivAt (fun τ => x τ i) ((fun j => deriv (fun τ => x τ j) t) i) t := fun i => (hx i).hasDerivAt
  generalize (fun j => deriv (fun τ => x τ j) t) = x' at hx'
  have hp : ∀ k i, HasDerivAt (fun τ => part k (x τ) i) (part k x' i) t := fun k i => hx' _
  have d0 := turned_deriv hC (hp 0)
  have d2 := turned_deriv hC (hp 2)
  have dO : ∀ i, HasDerivAt (fun τ => (part 1 (x τ) + O *ᵥ part 2 (x τ)) i) ((part 1 x' + O *ᵥ part 2 x') i) t := fun i => by
    have := turned_deriv (C := fun _ => O) (C' := 0) (fun i j => hasDerivAt_const t (O i j)) (hp 2) i
    rw [zero_mulVec, zero_add] at this
    exact (hp 1 i).add this
  have d1 := turned_deriv hC dO
  have inj : ∀ {y z : V3 ℝ}, C t *ᵥ y = C t *ᵥ z → y = z := fun {y z} h => by
    have := congrArg ((C t)ᵀ *ᵥ ·) h
    simpa only [mulVec_mulVec, mul_eq_one_comm.1 hR.1, one_mulVec] using this
  have l1 : (∀ i, HasDerivAt (fun τ => x τ i) ((FE *ᵥ x t + GE *ᵥ u) i) t) ↔ x' = FE *ᵥ x t + GE *ᵥ u :=
    ⟨fun h => funext fun i => (hx' i).unique (h i), fun h => h ▸ hx'⟩
  obtain ⟨E0, E1, E2⟩ := hE (x t) u
  obtain ⟨I0, I1, I2⟩ := hI (inInertial (C t) O (x t)) (forceInertial (C t) u)
  obtain ⟨P0, P1, P2⟩ := part_join (C t *ᵥ part 0 (x t)) (C t *ᵥ (part 1 (x t) + O *ᵥ part 2 (x t))) (C t *ᵥ part 2 (x t))
  obtain ⟨Q0, Q1, Q2⟩ := part_join (part 0 u) (part 1 u) (C t *ᵥ part 2 u)
  have back : ∀ z, (C t * Γ * (C t)ᵀ) *ᵥ (C t *ᵥ z) = C t *ᵥ (Γ *ᵥ z) := fun z => by
    rw [mulVec_mulVec, Matrix.mul_assoc, mul_eq_one_comm.1 hR.1, Matrix.mul_one, mulVec_mulVec]
  simp only [inInertial, forceInertial, P0, P1, P2, Q0, Q1, Q2, hR.cross, back, ← mulVec_mulVec] at I0 I1 I2
  rw [l1]
  simp only [inInertial] at I0 I1 I2 ⊢
  rw [join_deriv]
  simp only [forceInertial]
  constructor
  · rintro rfl
    refine ⟨fun i => (d0 i).congr_deriv ?_, fun i => (d1 i).congr_deriv ?_, fun i => (d2 i).congr_deriv ?_⟩
    · rw [I0, E0]; refine congrFun ?_ i; simp only [← mulVec_mulVec, mulVec_sub, mulVec_neg]; abel
    · rw [I1, E1, E2]; refine congrFun ?_ i; simp only [← mulVec_mulVec, mulVec_add, mulVec_sub, two_smul]; abel
    · rw [I2, E2]; simp only [← mulVec_mulVec, ← mulVec_add]; rw [add_comm (O *ᵥ _)]
  · rintro ⟨h0, h1, h2⟩
    have u0 := funext fun i => (d0 i).unique (h0 i)
    have u1 := funext fun i => (d1 i).unique (h1 i)
    have u2 := funext fun i => (d2 i).unique (h2 i)
    rw [I0] at u0; rw [I1] at u1; rw [I2] at u2
    rw [← mulVec_neg] at u0
    simp only [← mulVec_mulVec, ← mulVec_add] at u0 u1 u2
    have v0 := inj u0
    have v1 := inj u1
    have v2 := inj u2
    have w2 : part 2 x' = part 1 (x t) := by
      have : part 2 x' = (O *ᵥ part 2 (x t) + part 2 x') - O *ᵥ part 2 (x t) := by abel
      rw [this, v2]; abel
    refine parts_ext fun k => ?_
    fin_cases k
    · change part 0 x' = part 0 (FE *ᵥ x t + GE *ᵥ u)
      have : part 0 x' = (O *ᵥ part 0 (x t) + part 0 x') - O *ᵥ part 0 (x t) := by abel
      rw [E0, this, v0]; abel
    · change part 1 x' = part 1 (FE *ᵥ x t + GE *ᵥ u)
      rw [w2] at v1
      have : part 1 x' = (O *ᵥ (part 1 (x t) + O *ᵥ part 2 (x t)) + (part 1 x' + O *ᵥ part 1 (x t))) - O *ᵥ part 1 (x t) - O *ᵥ (part 1 (x t) + O *ᵥ part 2 (x t)) := by abel
      rw [E1, this, v1]; simp only [mulVec_add, two_smul]; abel
    · change part 2 x' = part 2 (FE *ᵥ x t + GE *ᵥ u)
      rw [E2, w2]

/-- such axes: the inertial axes seen from an earth that turns about its third axis at the rate `w` -/
example (w t : ℝ) : IsRot (rotZ (w * t)) ∧ ∀ i j, HasDerivAt (fun τ => rotZ (w * τ) i j) ((rotZ (w * t) * !![0, -w, 0; w, 0, 0; 0, 0, 0]) i j) t := by
  have hc : HasDerivAt (fun τ => Real.cos (w * τ)) (-(w * Real.sin (w * t))) t := by
    have := (Real.hasDerivAt_cos (w * t)).comp t ((hasDerivAt_id t).const_mul w)
    exact this.congr_deriv (by simp; ring)
  have hs : HasDerivAt (fun τ => Real.sin (w * τ)) (w * Real.cos (w * t)) t := by
    have := (Real.hasDerivAt_sin (w * t)).comp t ((hasDerivAt_id t).const_mul w)
    exact this.congr_deriv (by simp; ring)
  refine ⟨isRot_rotZ _, fun i j => ?_⟩
  fin_cases i <;> fin_cases j <;> simp [rotZ, mul_apply, Fin.sum_univ_three]
  · exact hc.congr_deriv (by ring)
  · exact hs.neg.congr_deriv (by ring)
  · exact hasDerivAt_const _ _
  · exact hs.congr_deriv (by ring)
  · exact hc.congr_deriv (by ring)
  · exact hasDerivAt_const _ _
  · exact hasDerivAt_const _ _
  · exact hasDerivAt_const _ _
  · exact hasDerivAt_const _ _

end NavFuse.Props.Pva
