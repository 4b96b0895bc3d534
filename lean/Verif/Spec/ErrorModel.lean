import Verif.Spec.Earth

/-! # Error equations of inertial navigation, independent of the model

The north-east-down equations are written in the coordinates (latitude, longitude, height) on a sphere of radius `R`, which the code takes to be the Gaussian radius of the
ellipsoid at the current latitude and holds fixed. -/

namespace NavFuse.Spec
open Matrix

/-- Gaussian mean radius of curvature -/
noncomputable def gaussRadius (φ : ℝ) : ℝ := Real.sqrt (primeVertical φ * meridian φ)

/-- components `3k, 3k+1, 3k+2` of a vector of nine: for `k = 0, 1, 2` the attitude, velocity and position errors, or the rate, acceleration and gravity errors -/
def part (k : Fin 3) (x : Fin 9 → ℝ) : Fin 3 → ℝ := fun i => x ⟨3 * k.val + i.val, by omega⟩

/-- angular velocity of the north-east-down frame relative to inertial space -/
noncomputable def nedRate (φ : ℝ) (rate : Fin 3 → ℝ) : Fin 3 → ℝ := earthVec φ + transportVec φ (rate 0) (rate 1)

/-- velocity in north-east-down axes from the rates of latitude, longitude and height -/
noncomputable def sphVel (R φ h : ℝ) (rate : Fin 3 → ℝ) : Fin 3 → ℝ := ![(R + h) * rate 0, (R + h) * Real.cos φ * rate 1, -rate 2]

/-- second derivatives of latitude, longitude and height of a vehicle with specific force `s` and gravity `g`; `sphAcc_iff` shows that this is the usual equation
`dv/dt = s + g - (2 Ω + ω) × v` -/
noncomputable def sphAcc (R : ℝ) (s g rate : Fin 3 → ℝ) (φ h : ℝ) : Fin 3 → ℝ :=
  ![(s 0 + g 0) / (R + h) - 2 * rate 2 * rate 0 / (R + h) - rate 1 * (rate 1 + 2 * earthRate) * (Real.sin φ * Real.cos φ),
    (s 1 + g 1) / ((R + h) * Real.cos φ) + 2 * (rate 1 + earthRate) * rate 0 * Real.tan φ - 2 * (rate 1 + earthRate) * rate 2 / (R + h),
    -(s 2 + g 2) + (R + h) * rate 0 ^ 2 + (R + h) * rate 1 * (rate 1 + 2 * earthRate) * Real.cos φ ^ 2]

/-- Error equations: the rates of the attitude error `ψ`, of the errors of the rates of (latitude, longitude, height), and of the position errors, for errors `δ` about a nominal
point. Attitude: `ψ' = -ω × ψ + δω`. Velocity: the difference of the navigation equations with perturbed arguments, where the specific force seems to be `s + s × ψ`. `gD` is gravity
downwards as a function of height; the other gravity components are constant. -/
noncomputable def errorRate (R : ℝ) (s : Fin 3 → ℝ) (gN gE : ℝ) (gD : ℝ → ℝ) (rate : Fin 3 → ℝ) (φ h : ℝ) (δ : Fin 9 → ℝ) : Fin 3 → Fin 3 → ℝ :=
  ![-(nedRate φ rate ⨯₃ part 0 δ) + (nedRate (φ + part 2 δ 0) (rate + part 1 δ) - nedRate φ rate),
    sphAcc R (s + s ⨯₃ part 0 δ) ![gN, gE, gD (h + part 2 δ 2)] (rate + part 1 δ) (φ + part 2 δ 0) (h + part 2 δ 2)
      - sphAcc R s ![gN, gE, gD h] rate φ h,
    part 1 δ]

end NavFuse.Spec
