import Verif.Spec.Estimation
import Mathlib.MeasureTheory.Function.L1Space.Integrable
import Mathlib.MeasureTheory.Integral.Bochner.Basic

/-! # Specification vocabulary for filtering in a noisy world

Independent of the model: square-integrable random vectors on an arbitrary probability space, second moments, a linear system driven by
white noise, what has been observed of it, and estimators that are affine in the observations. -/

namespace NavFuse.Spec
open Matrix MeasureTheory

variable {Ω : Type} [MeasurableSpace Ω] (μ : Measure Ω) {n m : ℕ}

/-- the expectation of the product of two random variables -/
noncomputable def corr (f g : Ω → ℝ) : ℝ := ∫ ω, f ω * g ω ∂μ

/-- the second moment `E[a bᵀ]` of two random vectors -/
noncomputable def secondMoment (a : Ω → Fin n → ℝ) (b : Ω → Fin m → ℝ) : Matrix (Fin n) (Fin m) ℝ :=
  of fun i j => corr μ (fun ω => a ω i) (fun ω => b ω j)

/-- the scalar components of a random vector -/
def comps (a : Ω → Fin n → ℝ) : Set (Ω → ℝ) := Set.range fun i ω => a ω i

/-- What happens in the world between two filter calls. -/
inductive Stage (Ω : Type) (n : ℕ) : Type
  /-- the state `x` becomes `F x + w`, with `E[w wᵀ] = Q` -/
  | move (F Q : Matrix (Fin n) (Fin n) ℝ) (w : Ω → Fin n → ℝ)
  /-- `H x + v` is measured, with `E[v vᵀ] = R` -/
  | sense (m : ℕ) (H : Matrix (Fin m) (Fin n) ℝ) (R : Matrix (Fin m) (Fin m) ℝ) (v : Ω → Fin m → ℝ)

/-- A random vector that is square integrable and uncorrelated with everything in `past`. -/
def Fresh (past : Set (Ω → ℝ)) (u : Ω → Fin m → ℝ) : Prop :=
  ∀ f ∈ comps u, MemLp f 2 μ ∧ ∀ g ∈ past, corr μ f g = 0

/-- White noise: every noise has the second moment the filter is told, and is uncorrelated with all that came before it (the constant 1, so
that its mean is zero; the initial error; the earlier noises). Measurement noise is regular. -/
def White : Set (Ω → ℝ) → List (Stage Ω n) → Prop
  | _, [] => True
  | past, .move _ Q w :: rest => Fresh μ past w ∧ secondMoment μ w w = Q ∧ White (past ∪ comps w) rest
  | past, .sense _ _ R v :: rest => Fresh μ past v ∧ secondMoment μ v v = R ∧ IsPosCov R ∧ White (past ∪ comps v) rest

/-- the state of the world after some stages -/
def worldAfter : List (Stage Ω n) → (Ω → Fin n → ℝ) → Ω → Fin n → ℝ
  | [], x => x
  | .move F _ w :: rest, x => worldAfter rest fun ω => F *ᵥ x ω + w ω
  | .sense _ _ _ _ :: rest, x => worldAfter rest x

/-- the scalar measurements made during some stages, and the constant 1 -/
def observed : List (Stage Ω n) → (Ω → Fin n → ℝ) → Set (Ω → ℝ)
  | [], _ => {fun _ => 1}
  | .move F _ w :: rest, x => observed rest fun ω => F *ᵥ x ω + w ω
  | .sense _ H _ v :: rest, x => comps (fun ω => H *ᵥ x ω + v ω) ∪ observed rest x

/-- an estimator that is an affine function of the observations `obs` (which contain the constant 1) -/
def AffineIn (obs : Set (Ω → ℝ)) (ψ : Ω → Fin n → ℝ) : Prop := ∀ f ∈ comps ψ, f ∈ Submodule.span ℝ obs

end NavFuse.Spec
