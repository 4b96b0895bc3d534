import Verif.Lemmas.EntryDeriv
import Verif.Lemmas.Rot
import Verif.Props.Pva

/-! # Property C156: the error models describe the errors of an inertial navigator

C62 and C63 say what the matrices returned by `inertialErrorDynamics` and `ecefErrorDynamics` are.  Here they are held against the nonlinear equations of motion:
a navigator that integrates these equations with slightly wrong measurements, gravity and initial values is off by the solution of `x' = F x + G u`, up to an
error that is quadratic in the size of the disturbances. -/

namespace NavFuse.Props.Pva
open Matrix NavFuse.Pva NavFuse.Spec NavFuse.XR NavFuse.EntryDeriv

theorem mm_le {A B : M3 ℝ} {x y : ℝ} (hx : 0 ≤ x) (hA : ∀ i j, |A i j| ≤ x) (hB : ∀ i j, |B i j| ≤ y) (i j : Fin 3) : |(A * B) i j| ≤ 3 * (x * y) := by
  rw [mul_apply]
  calc _ ≤ ∑ l : Fin 3, |A i l * B l j| := Finset.abs_sum_le_sum_abs _ _
    _ ≤ ∑ _l : Fin 3, x * y := Finset.sum_le_sum fun l _ => by rw [abs_mul]; exact mul_le_mul (hA i l) (hB l j) (abs_nonneg _) hx
    _ = _ := by simp

theorem mv_le {A : M3 ℝ} {v : V3 ℝ} {x y : ℝ} (hx : 0 ≤ x) (hA : ∀ i j, |A i j| ≤ x) (hv : ∀ i, |v i| ≤ y) (i : Fin 3) : |(A *ᵥ v) i| ≤ 3 * (x * y) := by
  rw [mulVec, dotProduct]
  calc _ ≤ ∑ l : Fin 3, |A i l * v l| := Finset.abs_sum_le_sum_abs _ _
    _ ≤ ∑ _l : Fin 3, x * y := Finset.sum_le_sum fun l _ => by rw [abs_mul]; exact mul_le_mul (hA i l) (hv l) (abs_nonneg _) hx
    _ = _ := by simp

theorem crossMat_le {o : V3 ℝ} {η : ℝ} (h0 : 0 ≤ η) (h : ∀ i, |o i| ≤ η) (i j : Fin 3) : |crossMat o i j| ≤ η := by
  have a := h 0
  have b := h 1
  have c := h 2
  fin_cases i <;> fin_cases j <;> simp [crossMat, abs_neg, *]

theorem crossMat_cross (o ψ : V3 ℝ) : crossMat (o ⨯₃ ψ) = crossMat o * crossMat ψ - crossMat ψ * crossMat o := by
  ext i j
  fin_cases i <;> fin_cases j <;> simp [crossMat, cross_apply] <;> ring

theorem crossMat_add (a b : V3 ℝ) : crossMat (a + b) = crossMat a + crossMat b := by
  ext i j
  fin_cases i <;> fin_cases j <;> simp [crossMat] <;> ring

theorem crossMat_neg (a : V3 ℝ) : crossMat (-a) = -crossMat a := by
  ext i j
  fin_cases i <;> fin_cases j <;> simp [crossMat]

theorem crossMat_rot {R : M3 ℝ} (h : IsRot R) (d : V3 ℝ) : crossMat (R *ᵥ d) * R = R * crossMat d := by
  have : ∀ u, (crossMat (R *ᵥ d) * R) *ᵥ u = (R * crossMat d) *ᵥ u := fun u => by
    rw [← mulVec_mulVec, ← mulVec_mulVec, crossMat_mulVec, crossMat_mulVec, h.cross]
  ext i j
  simpa using congrFun (this (Pi.single j 1)) i

/-- gravitation `g` with gradient `Γ` in a region: `g` changes by at most `ℓ` per metre, the gradient is at most `ℓ`, and `g` is linear up to `M` times the square of
the distance -/
structure Field (S : Set (V3 ℝ)) (g : V3 ℝ → V3 ℝ) (Γ : V3 ℝ → M3 ℝ) (ℓ M : ℝ) : Prop where
  lip : ∀ x ∈ S, ∀ y ∈ S, ∀ D, (∀ i, |y i - x i| ≤ D) → ∀ i, |g y i - g x i| ≤ ℓ * D
  grad : ∀ x ∈ S, ∀ i j, |Γ x i j| ≤ ℓ
  second : ∀ x ∈ S, ∀ y ∈ S, ∀ D, (∀ i, |y i - x i| ≤ D) → ∀ i, |(g y - g x - Γ x *ᵥ (y - x)) i| ≤ M * D ^ 2

/-- The true motion `(R, v, p)` with rates up to `W` and specific forces up to `A`, and what a navigator `(R₁, v₁, p₁)` makes of it that has the errors `u` in
rate, specific force and gravity, all at most `s`, and initial errors of at most `s` -/
structure Excursion (o : V3 ℝ) (T : ℝ) (S : Set (V3 ℝ)) (g : V3 ℝ → V3 ℝ) (W A s : ℝ) (ω a : ℝ → V3 ℝ) (u : ℝ → Fin 9 → ℝ) (R R₁ : ℝ → M3 ℝ) (v v₁ p p₁ : ℝ → V3 ℝ) : Prop where
  true_motion : Motion o T g ω a (fun _ => 0) R v p
  computed : Motion o T g (fun t => ω t + part 0 (u t)) (fun t => a t + part 1 (u t)) (fun t => part 2 (u t)) R₁ v₁ p₁
  rot : ∀ t ∈ Set.Icc 0 T, IsRot (R t)
  rate : ∀ t ∈ Set.Icc 0 T, ∀ i, |ω t i| ≤ W
  force : ∀ t ∈ Set.Icc 0 T, ∀ i, |a t i| ≤ A
  place : ∀ t ∈ Set.Icc 0 T, p t ∈ S ∧ p₁ t ∈ S
  wrong : ∀ t ∈ Set.Icc 0 T, ∀ i, |u t i| ≤ s
  start : Within s (R₁ 0 - R 0) (v₁ 0 - v 0) (p₁ 0 - p 0)

/-- growth rate of the errors -/
noncomputable def driftRate (W A η ℓ : ℝ) : ℝ := 3 * W + 3 * A + 4 + 9 * η + 9 * η ^ 2 + 3 * ℓ

/-- constant of the quadratic error -/
noncomputable def driftConst (W A η ℓ M T : ℝ) : ℝ :=
  let κ := 5 * Real.exp (driftRate W A η ℓ * T)
  (1 + (3 * κ + M * κ ^ 2)) * Real.exp (driftRate W A η ℓ * T)

theorem rot_le {R : M3 ℝ} (h : IsRot R) (i j : Fin 3) : |R i j| ≤ 1 := by
  have e := congrFun (congrFun h.1 i) i
  rw [mul_apply, one_apply_eq, Fin.sum_univ_three] at e
  simp only [transpose_apply] at e
  rw [abs_le_one_iff_mul_self_le_one]
  fin_cases j <;> simp <;> nlinarith [mul_self_nonneg (R i 0), mul_self_nonneg (R i 1), mul_self_nonneg (R i 2)]

section
variable {o : V3 ℝ} {T W A η ℓ M s : ℝ} {S : Set (V3 ℝ)} {g : V3 ℝ → V3 ℝ} {Γ : V3 ℝ → M3 ℝ} {ω a : ℝ → V3 ℝ} {u x : ℝ → Fin 9 → ℝ} {R R₁ : ℝ → M3 ℝ} {v v₁ p p₁ : ℝ → V3 ℝ}

/-- the errors themselves grow at most exponentially -/
theorem Excursion.drift (F : Field S g Γ ℓ M) (fl : Excursion o T S g W A s ω a u R R₁ v v₁ p p₁) (hη : 0 ≤ η) (ho : ∀ i, |o i| ≤ η) (hW : 0 ≤ W) (hA : 0 ≤ A) (hℓ : 0 ≤ ℓ)
    (s0 : 0 ≤ s) (s1 : s ≤ 1) :
    ∀ t ∈ Set.Icc 0 T, Within (5 * Real.exp (driftRate W A η ℓ * T) * s) (R₁ t - R t) (v₁ t - v t) (p₁ t - p t) := by
  have hK : 1 ≤ driftRate W A η ℓ := by unfold driftRate; nlinarith [sq_nonneg η]
  have key := grow (T := T) (δ := s) (K := driftRate W A η ℓ) (ε := 4 * s) hK s0 (by linarith)
    (A := fun t => R₁ t - R t) (v := fun t => v₁ t - v t) (p := fun t => p₁ t - p t)
    (fun t ht => DM.sub (fl.computed.attitude t ht) (fl.true_motion.attitude t ht)) (fun t ht => DV.sub (fl.computed.velocity t ht) (fl.true_motion.velocity t ht))
    (fun t ht => DV.sub (fl.computed.position t ht) (fl.true_motion.position t ht)) fl.start ?_
  · intro t ht
    have := key t ht
    rwa [show (s + 4 * s) * Real.exp (driftRate W A η ℓ * T) = 5 * Real.exp (driftRate W A η ℓ * T) * s by ring] at this
  intro t ht N hN ⟨b1, b2, b3⟩
  have hO := crossMat_le hη ho
  have hω := crossMat_le hW (fl.rate t ht)
  have hR := rot_le (fl.rot t ht)
  have hu : ∀ k i, |part k (u t) i| ≤ s := fun k i => fl.wrong t ht _
  have hdω := crossMat_le s0 (hu 0)
  have hR1 : ∀ i j, |R₁ t i j| ≤ 1 + N := fun i j => by
    have e : R₁ t i j = R t i j + (R₁ t - R t) i j := by simp
    rw [e]; exact (abs_add_le _ _).trans (add_le_add (hR i j) (b1 i j))
  have Ns : N * s ≤ N := by nlinarith
  have ηη : 0 ≤ η ^ 2 * N := by positivity
  have ηN := mul_nonneg hη hN
  have WN := mul_nonneg hW hN
  have AN := mul_nonneg hA hN
  have ℓN := mul_nonneg hℓ hN
  refine ⟨fun i j => ?_, fun i => ?_, fun i => ?_⟩
  · have e : R₁ t * crossMat (ω t + part 0 (u t)) - crossMat o * R₁ t - (R t * crossMat (ω t) - crossMat o * R t)
        = (R₁ t - R t) * crossMat (ω t) + R₁ t * crossMat (part 0 (u t)) - crossMat o * (R₁ t - R t) := by
      rw [crossMat_add]; noncomm_ring
    rw [e, Matrix.sub_apply, Matrix.add_apply]
    have c1 := mm_le hN b1 hω i j
    have c2 := mm_le (by linarith) hR1 hdω i j
    have c3 := mm_le hη hO b1 i j
    refine (abs_sub _ _).trans ((add_le_add (abs_add_le _ _) le_rfl).trans ?_)
    unfold driftRate
    nlinarith
  · have e : R₁ t *ᵥ (a t + part 1 (u t)) - (2 : ℝ) • (o ⨯₃ v₁ t) - o ⨯₃ (o ⨯₃ p₁ t) + g (p₁ t) + part 2 (u t)
          - (R t *ᵥ a t - (2 : ℝ) • (o ⨯₃ v t) - o ⨯₃ (o ⨯₃ p t) + g (p t) + 0)
        = (R₁ t - R t) *ᵥ a t + R₁ t *ᵥ part 1 (u t) - (2 : ℝ) • (crossMat o *ᵥ (v₁ t - v t)) - crossMat o *ᵥ (crossMat o *ᵥ (p₁ t - p t))
          + (g (p₁ t) - g (p t)) + part 2 (u t) := by
      simp only [crossMat_mulVec, sub_mulVec, mulVec_add, map_sub, smul_sub]
      abel
    show |(_ : V3 ℝ) i| ≤ _
    rw [e]
    have c1 := mv_le hN b1 (fl.force t ht) i
    have c2 := mv_le (by linarith) hR1 (hu 1) i
    have c3 := mv_le hη hO b2 i
    have c4 := mv_le hη hO (mv_le hη hO b3) i
    have c5 := F.lip _ (fl.place t ht).1 _ (fl.place t ht).2 N b3 i
    have c6 := hu 2 i
    simp only [Pi.add_apply, Pi.sub_apply, Pi.smul_apply, smul_eq_mul]
    rw [abs_le] at *
    unfold driftRate
    constructor <;> nlinarith
  · refine (b2 i).trans ?_
    unfold driftRate
    nlinarith

/-- C156: the errors of an inertial navigator in the earth-fixed frame are the solution of the equation whose matrices `ecefErrorDynamics` returns along the true motion,
up to a constant times the square of the size `s` of the disturbances.  `R₁ ≈ (1 - ψ×) R`, with `ψ`, the velocity and the position errors the parts of `x`. -/
theorem C156_ecef (F : Field S g Γ ℓ M) (fl : Excursion o T S g W A s ω a u R R₁ v v₁ p p₁) (hη : 0 ≤ η) (ho : ∀ i, |o i| ≤ η) (hW : 0 ≤ W) (hA : 0 ≤ A) (hℓ : 0 ≤ ℓ)
    (hM : 0 ≤ M) (s0 : 0 ≤ s) (s1 : s ≤ 1)
    (hx : ∀ t ∈ Set.Icc 0 T, ∀ F G : Matrix (Fin 9) (Fin 9) ℝ, ecefErrorDynamics (finV (R t *ᵥ a t)) (finM (Γ (p t))) (finM (R t)) (finM (crossMat o)) (DMat.zero 9 9) (DMat.zero 9 9)
      = .ok (true, ⟨9, 9, finM F⟩, ⟨9, 9, finM G⟩) → ∀ i, HasDerivAt (fun τ => x τ i) ((F *ᵥ x t + G *ᵥ u t) i) t)
    (h0 : Within (s ^ 2) (R₁ 0 - (1 - crossMat (part 0 (x 0))) * R 0) (v₁ 0 - v 0 - part 1 (x 0)) (p₁ 0 - p 0 - part 2 (x 0))) :
    ∀ t ∈ Set.Icc 0 T, Within (driftConst W A η ℓ M T * s ^ 2) (R₁ t - (1 - crossMat (part 0 (x t))) * R t) (v₁ t - v t - part 1 (x t)) (p₁ t - p t - part 2 (x t)) := by
  have hK : 1 ≤ driftRate W A η ℓ := by unfold driftRate; nlinarith [sq_nonneg η]
  set κ := 5 * Real.exp (driftRate W A η ℓ * T) with hκ
  have κ0 : 0 ≤ κ := by positivity
  have dr := fl.drift F hη ho hW hA hℓ s0 s1
  rw [← hκ] at dr
  have hx' : ∀ t ∈ Set.Icc 0 T, DV (fun τ => part 0 (x τ)) (-(o ⨯₃ part 0 (x t)) - R t *ᵥ part 0 (u t)) t
      ∧ DV (fun τ => part 1 (x τ)) ((R t *ᵥ a t) ⨯₃ part 0 (x t) - (2 : ℝ) • (o ⨯₃ part 1 (x t)) - (o ⨯₃ (o ⨯₃ part 2 (x t)) - Γ (p t) *ᵥ part 2 (x t))
        + R t *ᵥ part 1 (u t) + part 2 (u t)) t ∧ DV (fun τ => part 2 (x τ)) (part 1 (x t)) t := by
    intro t ht
    obtain ⟨Fm, Gm, e, h⟩ := C63_ecef (R t *ᵥ a t) (Γ (p t)) (R t) (crossMat o) (DMat.zero 9 9 : DMat XR).m (DMat.zero 9 9 : DMat XR).m
    obtain ⟨e0, e1, e2⟩ := h (x t) (u t)
    simp only [crossMat_mulVec] at e0 e1
    have d := hx t ht Fm Gm e
    refine ⟨fun i => ?_, fun i => ?_, fun i => ?_⟩
    · rw [← e0]; exact d _
    · rw [← e1]; exact d _
    · rw [← e2]; exact d _
  have key := grow (T := T) (δ := s ^ 2) (K := driftRate W A η ℓ) (ε := (3 * κ + M * κ ^ 2) * s ^ 2) hK (by positivity) (by positivity)
    (A := fun t => R₁ t - R t + crossMat (part 0 (x t)) * R t) (v := fun t => v₁ t - v t - part 1 (x t)) (p := fun t => p₁ t - p t - part 2 (x t))
    (fun t ht => DM.add (DM.sub (fl.computed.attitude t ht) (fl.true_motion.attitude t ht)) (DM.mul (hx' t ht).1.cross (fl.true_motion.attitude t ht)))
    (fun t ht => DV.sub (DV.sub (fl.computed.velocity t ht) (fl.true_motion.velocity t ht)) (hx' t ht).2.1)
    (fun t ht => DV.sub (DV.sub (fl.computed.position t ht) (fl.true_motion.position t ht)) (hx' t ht).2.2) ?_ ?_
  · intro t ht
    have := key t ht
    rw [show (s ^ 2 + (3 * κ + M * κ ^ 2) * s ^ 2) * Real.exp (driftRate W A η ℓ * T) = driftConst W A η ℓ M T * s ^ 2 by rw [driftConst]; ring] at this
    have e : R₁ t - (1 - crossMat (part 0 (x t))) * R t = R₁ t - R t + crossMat (part 0 (x t)) * R t := by noncomm_ring
    rwa [e]
  · have e : R₁ 0 - (1 - crossMat (part 0 (x 0))) * R 0 = R₁ 0 - R 0 + crossMat (part 0 (x 0)) * R 0 := by noncomm_ring
    rwa [e] at h0
  intro t ht N hN ⟨b1, b2, b3⟩
  obtain ⟨d1, d2, d3⟩ := dr t ht
  have hO := crossMat_le hη ho
  have hω := crossMat_le hW (fl.rate t ht)
  have hu : ∀ k i, |part k (u t) i| ≤ s := fun k i => fl.wrong t ht _
  have hdω := crossMat_le s0 (hu 0)
  have ηη : 0 ≤ η ^ 2 * N := by positivity
  have ηN := mul_nonneg hη hN
  have WN := mul_nonneg hW hN
  have AN := mul_nonneg hA hN
  have ℓN := mul_nonneg hℓ hN
  have q0 : 0 ≤ M * κ ^ 2 * s ^ 2 := by positivity
  have q1 : 0 ≤ κ * s ^ 2 := by positivity
  refine ⟨fun i j => ?_, fun i => ?_, fun i => ?_⟩
  · have hr := crossMat_rot (fl.rot t ht) (part 0 (u t))
    have e : R₁ t * crossMat (ω t + part 0 (u t)) - crossMat o * R₁ t - (R t * crossMat (ω t) - crossMat o * R t)
          + (crossMat (-(o ⨯₃ part 0 (x t)) - R t *ᵥ part 0 (u t)) * R t + crossMat (part 0 (x t)) * (R t * crossMat (ω t) - crossMat o * R t))
        = (R₁ t - R t + crossMat (part 0 (x t)) * R t) * crossMat (ω t) - crossMat o * (R₁ t - R t + crossMat (part 0 (x t)) * R t)
          + (R₁ t - R t) * crossMat (part 0 (u t)) := by
      rw [sub_eq_add_neg (-(o ⨯₃ part 0 (x t))), crossMat_add, crossMat_add, crossMat_neg, crossMat_neg, crossMat_cross, Matrix.add_mul _ _ (R t), Matrix.neg_mul (crossMat (R t *ᵥ _)), hr]
      noncomm_ring
    rw [e, Matrix.add_apply, Matrix.sub_apply]
    have c1 := mm_le hN b1 hω i j
    have c2 := mm_le hη hO b1 i j
    have c3 := mm_le (by positivity) d1 hdω i j
    refine (abs_add_le _ _).trans ((add_le_add (abs_sub _ _) le_rfl).trans ?_)
    unfold driftRate
    nlinarith
  · have e : R₁ t *ᵥ (a t + part 1 (u t)) - (2 : ℝ) • (o ⨯₃ v₁ t) - o ⨯₃ (o ⨯₃ p₁ t) + g (p₁ t) + part 2 (u t)
          - (R t *ᵥ a t - (2 : ℝ) • (o ⨯₃ v t) - o ⨯₃ (o ⨯₃ p t) + g (p t) + 0)
          - ((R t *ᵥ a t) ⨯₃ part 0 (x t) - (2 : ℝ) • (o ⨯₃ part 1 (x t)) - (o ⨯₃ (o ⨯₃ part 2 (x t)) - Γ (p t) *ᵥ part 2 (x t))
            + R t *ᵥ part 1 (u t) + part 2 (u t))
        = (R₁ t - R t + crossMat (part 0 (x t)) * R t) *ᵥ a t + (R₁ t - R t) *ᵥ part 1 (u t) - (2 : ℝ) • (crossMat o *ᵥ (v₁ t - v t - part 1 (x t)))
          - crossMat o *ᵥ (crossMat o *ᵥ (p₁ t - p t - part 2 (x t))) + (g (p₁ t) - g (p t) - Γ (p t) *ᵥ (p₁ t - p t))
          + Γ (p t) *ᵥ (p₁ t - p t - part 2 (x t)) := by
      rw [← neg_cross (part 0 (x t)) (R t *ᵥ a t)]
      simp only [crossMat_mulVec, sub_mulVec, add_mulVec, mulVec_add, mulVec_sub, smul_sub, ← mulVec_mulVec]
      abel
    show |(_ : V3 ℝ) i| ≤ _
    rw [e]
    have c1 := mv_le hN b1 (fl.force t ht) i
    have c2 := mv_le (by positivity) d1 (hu 1) i
    have c3 := mv_le hη hO b2 i
    have c4 := mv_le hη hO (mv_le hη hO b3) i
    have c5 := F.second _ (fl.place t ht).1 _ (fl.place t ht).2 _ d3 i
    have c6 := mv_le hℓ (F.grad _ (fl.place t ht).1) b3 i
    rw [Pi.add_apply, Pi.add_apply, Pi.sub_apply, Pi.sub_apply, Pi.add_apply, Pi.smul_apply, smul_eq_mul]
    rw [abs_le] at *
    unfold driftRate
    constructor <;> nlinarith
  · refine (b2 i).trans ?_
    unfold driftRate
    nlinarith [mul_nonneg κ0 (sq_nonneg s)]

/-- C156 for the inertial frame and `inertialErrorDynamics` -/
theorem C156_inertial (F : Field S g Γ ℓ M) (fl : Excursion 0 T S g W A s ω a u R R₁ v v₁ p p₁) (hW : 0 ≤ W) (hA : 0 ≤ A) (hℓ : 0 ≤ ℓ) (hM : 0 ≤ M) (s0 : 0 ≤ s) (s1 : s ≤ 1)
    (hx : ∀ t ∈ Set.Icc 0 T, ∀ F G : Matrix (Fin 9) (Fin 9) ℝ, inertialErrorDynamics (finV (R t *ᵥ a t)) (finM (Γ (p t))) (finM (R t)) (DMat.zero 9 9) (DMat.zero 9 9)
      = .ok (true, ⟨9, 9, finM F⟩, ⟨9, 9, finM G⟩) → ∀ i, HasDerivAt (fun τ => x τ i) ((F *ᵥ x t + G *ᵥ u t) i) t)
    (h0 : Within (s ^ 2) (R₁ 0 - (1 - crossMat (part 0 (x 0))) * R 0) (v₁ 0 - v 0 - part 1 (x 0)) (p₁ 0 - p 0 - part 2 (x 0))) :
    ∀ t ∈ Set.Icc 0 T, Within (driftConst W A 0 ℓ M T * s ^ 2) (R₁ t - (1 - crossMat (part 0 (x t))) * R t) (v₁ t - v t - part 1 (x t)) (p₁ t - p t - part 2 (x t)) := by
  refine C156_ecef F fl le_rfl (fun i => by simp) hW hA hℓ hM s0 s1 (fun t ht Fm Gm e => hx t ht Fm Gm ?_) h0
  have c0 : crossMat 0 = 0 := by ext i j; fin_cases i <;> fin_cases j <;> simp [crossMat]
  rw [c0] at e
  exact (C63_no_rotation (R t *ᵥ a t) (Γ (p t)) (R t) (DMat.zero 9 9 : DMat XR).m (DMat.zero 9 9 : DMat XR).m).symm.trans e

end

/-! ## A case: at rest, with an accelerometer that is off by `s` -/

/-- gravity that is the same everywhere -/
theorem uniform_field (c : V3 ℝ) : Field Set.univ (fun _ => c) (fun _ => 0) 0 0 :=
  ⟨fun _ _ _ _ _ _ i => by simp, fun _ _ i j => by simp, fun _ _ _ _ _ _ i => by simp⟩

theorem resting_excursion {s T : ℝ} (s0 : 0 ≤ s) : Excursion 0 T Set.univ (fun _ => ![0, 0, 10]) 0 10 s (fun _ => 0) (fun _ => ![0, 0, -10]) (fun _ => ![0, 0, 0, s, 0, 0, 0, 0, 0])
    (fun _ => 1) (fun _ => 1) (fun _ => 0) (fun t => ![s * t, 0, 0]) (fun _ => 0) (fun t => ![s * t ^ 2 / 2, 0, 0]) := by
  have c0 : crossMat 0 = 0 := by ext i j; fin_cases i <;> fin_cases j <;> simp [crossMat]
  have p0 : part 0 (![0, 0, 0, s, 0, 0, 0, 0, 0] : Fin 9 → ℝ) = 0 := by ext i; fin_cases i <;> rfl
  have p1 : part 1 (![0, 0, 0, s, 0, 0, 0, 0, 0] : Fin 9 → ℝ) = ![s, 0, 0] := by ext i; fin_cases i <;> rfl
  have p2 : part 2 (![0, 0, 0, s, 0, 0, 0, 0, 0] : Fin 9 → ℝ) = 0 := by ext i; fin_cases i <;> rfl
  refine ⟨⟨fun t _ i j => ?_, fun t _ i => ?_, fun t _ i => ?_⟩, ⟨fun t _ i j => ?_, fun t _ i => ?_, fun t _ i => ?_⟩, fun t _ => ⟨by simp, by simp⟩, fun t _ i => by simp,
    fun t _ i => ?_, fun _ _ => ⟨trivial, trivial⟩, fun t _ i => ?_, ?_⟩
  · simpa [c0] using hasDerivAt_const t ((1 : M3 ℝ) i j)
  · have : HasDerivAt (fun _ : ℝ => (0 : V3 ℝ) i) 0 t := hasDerivAt_const t _
    refine this.congr_deriv ?_
    fin_cases i <;> simp
  · exact hasDerivAt_const t _
  · simpa [c0, p0] using hasDerivAt_const t ((1 : M3 ℝ) i j)
  · have h1 : HasDerivAt (fun τ : ℝ => s * τ) s t := by simpa using (hasDerivAt_id t).const_mul s
    fin_cases i
    · exact h1.congr_deriv (by simp [p1, p2])
    · exact (hasDerivAt_const t (0 : ℝ)).congr_deriv (by simp [p1, p2])
    · exact (hasDerivAt_const t (0 : ℝ)).congr_deriv (by simp [p1, p2])
  · have h1 : HasDerivAt (fun τ : ℝ => s * τ ^ 2 / 2) (s * t) t := by
      have := (((hasDerivAt_id t).pow 2).const_mul s).div_const 2
      exact this.congr_deriv (by simp; ring)
    fin_cases i
    · exact h1
    · exact hasDerivAt_const t (0 : ℝ)
    · exact hasDerivAt_const t (0 : ℝ)
  · fin_cases i <;> simp
  · fin_cases i <;> simp [s0, abs_of_nonneg s0]
  · exact ⟨fun i j => by simp [s0], fun i => by fin_cases i <;> simp [s0], fun i => by fin_cases i <;> simp [s0]⟩

/-- the error model predicts velocity `s t` and position `s t² / 2` -/
example {s T : ℝ} : let x : ℝ → Fin 9 → ℝ := fun t => ![0, 0, 0, s * t, 0, 0, s * t ^ 2 / 2, 0, 0]
    Within (s ^ 2) ((1 : M3 ℝ) - (1 - crossMat (part 0 (x 0))) * 1) (![s * 0, 0, 0] - 0 - part 1 (x 0)) (![s * 0 ^ 2 / 2, 0, 0] - 0 - part 2 (x 0))
    ∧ ∀ t ∈ Set.Icc 0 T, ∀ F G : Matrix (Fin 9) (Fin 9) ℝ, inertialErrorDynamics (finV ((1 : M3 ℝ) *ᵥ ![0, 0, -10])) (finM 0) (finM 1) (DMat.zero 9 9) (DMat.zero 9 9)
      = .ok (true, ⟨9, 9, finM F⟩, ⟨9, 9, finM G⟩) → ∀ i, HasDerivAt (fun τ => x τ i) ((F *ᵥ x t + G *ᵥ ![0, 0, 0, s, 0, 0, 0, 0, 0]) i) t := by
  intro x
  have p0 : ∀ t, part 0 (x t) = 0 := fun t => by ext i; fin_cases i <;> rfl
  have p1 : ∀ t, part 1 (x t) = ![s * t, 0, 0] := fun t => by ext i; fin_cases i <;> rfl
  have p2 : ∀ t, part 2 (x t) = ![s * t ^ 2 / 2, 0, 0] := fun t => by ext i; fin_cases i <;> rfl
  have c0 : crossMat 0 = 0 := by ext i j; fin_cases i <;> fin_cases j <;> simp [crossMat]
  refine ⟨⟨fun i j => by simp [p0, c0, sq_nonneg], fun i => by fin_cases i <;> simp [p1, sq_nonneg], fun i => by fin_cases i <;> simp [p2, sq_nonneg]⟩, fun t _ F G e => ?_⟩
  obtain ⟨F', G', e', h⟩ := C62_inertial ((1 : M3 ℝ) *ᵥ ![0, 0, -10]) 0 1 (DMat.zero 9 9 : DMat XR).m (DMat.zero 9 9 : DMat XR).m
  have e2 := e.symm.trans e'
  obtain ⟨rfl, rfl⟩ : F = F' ∧ G = G' := by
    injection e2 with e2; injection e2 with _ e2; injection e2 with e3 e4; injection e3 with _ _ e3; injection e4 with _ _ e4
    refine ⟨?_, ?_⟩
    · ext i j; have := congrFun (congrFun e3 i) j; simpa [finM] using this
    · ext i j; have := congrFun (congrFun e4 i) j; simpa [finM] using this
  obtain ⟨e0, e1, e2⟩ := h (x t) ![0, 0, 0, s, 0, 0, 0, 0, 0]
  have u0 : part 0 (![0, 0, 0, s, 0, 0, 0, 0, 0] : Fin 9 → ℝ) = 0 := by ext i; fin_cases i <;> rfl
  have u1 : part 1 (![0, 0, 0, s, 0, 0, 0, 0, 0] : Fin 9 → ℝ) = ![s, 0, 0] := by ext i; fin_cases i <;> rfl
  have u2 : part 2 (![0, 0, 0, s, 0, 0, 0, 0, 0] : Fin 9 → ℝ) = 0 := by ext i; fin_cases i <;> rfl
  rw [p0, p2, u1, u2] at e1
  rw [u0] at e0
  rw [p1] at e2
  simp at e0 e1
  have h1 : HasDerivAt (fun τ : ℝ => s * τ) s t := by simpa using (hasDerivAt_id t).const_mul s
  have h2 : HasDerivAt (fun τ : ℝ => s * τ ^ 2 / 2) (s * t) t := by
    have := (((hasDerivAt_id t).pow 2).const_mul s).div_const 2
    exact this.congr_deriv (by simp; ring)
  have hc := hasDerivAt_const t (0 : ℝ)
  intro i
  fin_cases i
  · exact hc.congr_deriv (congrFun e0 0).symm
  · exact hc.congr_deriv (congrFun e0 1).symm
  · exact hc.congr_deriv (congrFun e0 2).symm
  · exact h1.congr_deriv (congrFun e1 0).symm
  · exact hc.congr_deriv (congrFun e1 1).symm
  · exact hc.congr_deriv (congrFun e1 2).symm
  · exact h2.congr_deriv (congrFun e2 0).symm
  · exact hc.congr_deriv (congrFun e2 1).symm
  · exact hc.congr_deriv (congrFun e2 2).symm

end NavFuse.Props.Pva
