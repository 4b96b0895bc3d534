import Verif.Props.Gravity
import Verif.Props.Pva
import Mathlib.Analysis.Calculus.MeanValue
import Mathlib.Analysis.SpecialFunctions.Trigonometric.Deriv
import Mathlib.Analysis.SpecialFunctions.Sqrt
import Mathlib.Analysis.SpecialFunctions.Trigonometric.DerivHyp
import Mathlib.Analysis.Real.Pi.Bounds

/-! # The Schuler oscillation: C182

`inertialErrorDynamics` is given the gradient of gravity.  With the gradient of the code's own `simpleGravity` the error model must show what every inertial
navigator shows: horizontal errors oscillate with a period of 84 minutes, vertical errors grow. -/

namespace NavFuse.Props.Pva
open Matrix NavFuse.Pva NavFuse.Spec NavFuse.XR NavFuse.Gravity

/-- the gradient of a field that falls off with the square of the distance -/
noncomputable def gravityGradient (r : V3 ℝ) : M3 ℝ :=
  fun i j => -simpleGM / len3 r ^ 3 * ((if i = j then 1 else 0) - 3 * r i * r j / len3 r ^ 2)

/-- the Schuler frequency -/
noncomputable def schuler (r : V3 ℝ) : ℝ := Real.sqrt (simpleGM / len3 r ^ 3)

theorem len3_pos {r : V3 ℝ} (h : r ≠ 0) : 0 < len3 r := by
  unfold len3
  refine Real.sqrt_pos.2 ?_
  by_contra hc
  have h0 := sq_nonneg (r 0); have h1 := sq_nonneg (r 1); have h2 := sq_nonneg (r 2)
  refine h (funext fun i => ?_)
  have : r i ^ 2 = 0 := by fin_cases i <;> simp <;> nlinarith
  simpa using this

/-- C182, the gradient: it is the derivative of `simpleGravity` in every direction -/
theorem C182_gravity_gradient (r e : V3 ℝ) (h : r ≠ 0) (i : Fin 3) :
    HasDerivAt (fun s : ℝ => (simpleGravity (r + s • e)).2 i) ((gravityGradient r *ᵥ e) i) 0 := by
  have lp := len3_pos h
  have hq : HasDerivAt (fun s : ℝ => (r 0 + s * e 0) ^ 2 + (r 1 + s * e 1) ^ 2 + (r 2 + s * e 2) ^ 2) (2 * (r 0 * e 0 + r 1 * e 1 + r 2 * e 2)) 0 := by
    have l : ∀ k, HasDerivAt (fun s : ℝ => r k + s * e k) (e k) 0 := fun k => by
      simpa using ((hasDerivAt_id (0 : ℝ)).mul_const (e k)).const_add (r k)
    have := (((l 0).pow 2).add ((l 1).pow 2)).add ((l 2).pow 2)
    refine this.congr_deriv ?_
    norm_num; ring
  have hl : HasDerivAt (fun s : ℝ => len3 (r + s • e)) ((r 0 * e 0 + r 1 * e 1 + r 2 * e 2) / len3 r) 0 := by
    have q0 : (r 0 + 0 * e 0) ^ 2 + (r 1 + 0 * e 1) ^ 2 + (r 2 + 0 * e 2) ^ 2 ≠ 0 := by
      have : 0 < r 0 ^ 2 + r 1 ^ 2 + r 2 ^ 2 := Real.sqrt_pos.1 lp
      simpa using this.ne'
    have := hq.sqrt q0
    refine this.congr_deriv ?_
    unfold len3
    simp only [zero_mul, add_zero]
    rw [mul_div_mul_left _ _ two_ne_zero]
  have l0 : len3 (r + (0 : ℝ) • e) = len3 r := by simp
  have hi : HasDerivAt (fun s : ℝ => r i + s * e i) (e i) 0 := by simpa using ((hasDerivAt_id (0 : ℝ)).mul_const (e i)).const_add (r i)
  have hd := ((hasDerivAt_const (0 : ℝ) (-simpleGM)).div (hl.pow 3) (by simp [lp.ne'])).mul hi
  have ev : (fun s : ℝ => (simpleGravity (r + s • e)).2 i) =ᶠ[nhds 0] fun s => -simpleGM / len3 (r + s • e) ^ 3 * (r i + s * e i) := by
    have : ∀ᶠ s in nhds (0 : ℝ), 0 < len3 (r + s • e) := hl.continuousAt.eventually_const_lt (by simpa using lp)
    filter_upwards [this] with s hs
    have hne : r + s • e ≠ 0 := by
      intro h0; rw [h0] at hs; simp [len3] at hs
    rw [(C45_inverse_square _ hne).1]
    simp
  refine (hd.congr_of_eventuallyEq ev).congr_deriv ?_
  simp only [Pi.pow_apply, l0]
  have hs : ∑ j, gravityGradient r i j * e j = -simpleGM / len3 r ^ 3 * (e i - 3 * r i * (r 0 * e 0 + r 1 * e 1 + r 2 * e 2) / len3 r ^ 2) := by
    rw [Fin.sum_univ_three]; unfold gravityGradient
    fin_cases i <;> simp <;> ring
  show _ = ∑ j, gravityGradient r i j * e j
  rw [hs]
  norm_num
  field_simp
  ring

/-- an oscillator under constant force -/
theorem oscillator {p v : ℝ → ℝ} {w k : ℝ} (hw : 0 < w) (hp : ∀ t, HasDerivAt p (v t) t) (hv : ∀ t, HasDerivAt v (k - w ^ 2 * p t) t) (t : ℝ) :
    p t = k / w ^ 2 + (p 0 - k / w ^ 2) * Real.cos (w * t) + v 0 / w * Real.sin (w * t) := by
  have hc : ∀ t, HasDerivAt (fun t => Real.cos (w * t)) (-(w * Real.sin (w * t))) t := fun t => by
    have := (Real.hasDerivAt_cos (w * t)).comp t ((hasDerivAt_id t).const_mul w)
    exact this.congr_deriv (by simp; ring)
  have hs : ∀ t, HasDerivAt (fun t => Real.sin (w * t)) (w * Real.cos (w * t)) t := fun t => by
    have := (Real.hasDerivAt_sin (w * t)).comp t ((hasDerivAt_id t).const_mul w)
    exact this.congr_deriv (by simp; ring)
  have A : ∀ t, (p t - k / w ^ 2) * Real.cos (w * t) - v t / w * Real.sin (w * t) = p 0 - k / w ^ 2 := fun t => by
    have := is_const_of_deriv_eq_zero (f := fun t => (p t - k / w ^ 2) * Real.cos (w * t) - v t / w * Real.sin (w * t))
      (fun t => ((((hp t).sub_const _).mul (hc t)).sub (((hv t).div_const w).mul (hs t))).differentiableAt) (fun t => by
        refine ((((hp t).sub_const _).mul (hc t)).sub (((hv t).div_const w).mul (hs t))).deriv.trans ?_
        field_simp; ring) t 0
    simpa using this
  have B : ∀ t, (p t - k / w ^ 2) * Real.sin (w * t) + v t / w * Real.cos (w * t) = v 0 / w := fun t => by
    have := is_const_of_deriv_eq_zero (f := fun t => (p t - k / w ^ 2) * Real.sin (w * t) + v t / w * Real.cos (w * t))
      (fun t => ((((hp t).sub_const _).mul (hs t)).add (((hv t).div_const w).mul (hc t))).differentiableAt) (fun t => by
        refine ((((hp t).sub_const _).mul (hs t)).add (((hv t).div_const w).mul (hc t))).deriv.trans ?_
        field_simp; ring) t 0
    simpa using this
  have a := A t
  have b := B t
  have cs := Real.sin_sq_add_cos_sq (w * t)
  rw [← a, ← b]
  linear_combination (-(p t - k / w ^ 2)) * cs

/-- the unstable counterpart -/
theorem repeller {p v : ℝ → ℝ} {w k : ℝ} (hw : 0 < w) (hp : ∀ t, HasDerivAt p (v t) t) (hv : ∀ t, HasDerivAt v (k + w ^ 2 * p t) t) (t : ℝ) :
    p t = -(k / w ^ 2) + (p 0 + k / w ^ 2) * Real.cosh (w * t) + v 0 / w * Real.sinh (w * t) := by
  have hc : ∀ t, HasDerivAt (fun t => Real.cosh (w * t)) (w * Real.sinh (w * t)) t := fun t => by
    have := (Real.hasDerivAt_cosh (w * t)).comp t ((hasDerivAt_id t).const_mul w)
    exact this.congr_deriv (by simp; ring)
  have hs : ∀ t, HasDerivAt (fun t => Real.sinh (w * t)) (w * Real.cosh (w * t)) t := fun t => by
    have := (Real.hasDerivAt_sinh (w * t)).comp t ((hasDerivAt_id t).const_mul w)
    exact this.congr_deriv (by simp; ring)
  have A : ∀ t, (p t + k / w ^ 2) * Real.cosh (w * t) - v t / w * Real.sinh (w * t) = p 0 + k / w ^ 2 := fun t => by
    have := is_const_of_deriv_eq_zero (f := fun t => (p t + k / w ^ 2) * Real.cosh (w * t) - v t / w * Real.sinh (w * t))
      (fun t => ((((hp t).add_const _).mul (hc t)).sub (((hv t).div_const w).mul (hs t))).differentiableAt) (fun t => by
        refine ((((hp t).add_const _).mul (hc t)).sub (((hv t).div_const w).mul (hs t))).deriv.trans ?_
        field_simp; ring) t 0
    simpa using this
  have B : ∀ t, v t / w * Real.cosh (w * t) - (p t + k / w ^ 2) * Real.sinh (w * t) = v 0 / w := fun t => by
    have := is_const_of_deriv_eq_zero (f := fun t => v t / w * Real.cosh (w * t) - (p t + k / w ^ 2) * Real.sinh (w * t))
      (fun t => ((((hv t).div_const w).mul (hc t)).sub (((hp t).add_const _).mul (hs t))).differentiableAt) (fun t => by
        refine ((((hv t).div_const w).mul (hc t)).sub (((hp t).add_const _).mul (hs t))).deriv.trans ?_
        field_simp; ring) t 0
    simpa using this
  have a := A t
  have b := B t
  have cs := Real.cosh_sq (w * t)
  rw [← a, ← b]
  linear_combination (-(p t + k / w ^ 2)) * cs

theorem schuler_sq {r : V3 ℝ} (h : r ≠ 0) : 0 < schuler r ∧ schuler r ^ 2 = simpleGM / len3 r ^ 3 := by
  have lp := len3_pos h
  have : 0 < simpleGM / len3 r ^ 3 := div_pos (by norm_num [simpleGM]) (by positivity)
  exact ⟨Real.sqrt_pos.2 this, Real.sq_sqrt this.le⟩

theorem gradient_dot (r p n : V3 ℝ) : n ⬝ᵥ (gravityGradient r *ᵥ p) = -simpleGM / len3 r ^ 3 * (n ⬝ᵥ p - 3 * (n ⬝ᵥ r) * (r ⬝ᵥ p) / len3 r ^ 2) := by
  simp only [dotProduct, mulVec, Fin.sum_univ_three, gravityGradient]
  simp
  ring

theorem dot_deriv {x : ℝ → Fin 9 → ℝ} {y : Fin 9 → ℝ} {t : ℝ} (h : ∀ i, HasDerivAt (fun τ => x τ i) (y i) t) (n : V3 ℝ) (k : Fin 3) :
    HasDerivAt (fun τ => n ⬝ᵥ part k (x τ)) (n ⬝ᵥ part k y) t := by
  simp only [dotProduct, Fin.sum_univ_three, part]
  exact (((h _).const_mul _).add ((h _).const_mul _)).add ((h _).const_mul _)

/-- C182: errors that obey the inertial error model of the code, with the gradient of the code's gravity at `r` and a constant specific force `a`: with
`Ω = sqrt (GM / |r|³)` the component along any horizontal direction `n` swings with the frequency Ω about `n · (a × ψ) / Ω²`, the radial component grows
like `cosh (√2 Ω t)`. -/
theorem C182_schuler (a r : V3 ℝ) (R : M3 ℝ) (hr : r ≠ 0) (x : ℝ → Fin 9 → ℝ)
    (hx : ∀ t, ∀ F G : Matrix (Fin 9) (Fin 9) ℝ, inertialErrorDynamics (finV a) (finM (gravityGradient r)) (finM R) (DMat.zero 9 9) (DMat.zero 9 9)
      = .ok (true, ⟨9, 9, finM F⟩, ⟨9, 9, finM G⟩) → ∀ i, HasDerivAt (fun τ => x τ i) ((F *ᵥ x t) i) t) (n : V3 ℝ) (t : ℝ) :
    (n ⬝ᵥ r = 0 →
      n ⬝ᵥ part 2 (x t) = n ⬝ᵥ (a ⨯₃ part 0 (x 0)) / schuler r ^ 2 + (n ⬝ᵥ part 2 (x 0) - n ⬝ᵥ (a ⨯₃ part 0 (x 0)) / schuler r ^ 2) * Real.cos (schuler r * t)
        + n ⬝ᵥ part 1 (x 0) / schuler r * Real.sin (schuler r * t)) ∧
    r ⬝ᵥ part 2 (x t) = -(r ⬝ᵥ (a ⨯₃ part 0 (x 0)) / (2 * schuler r ^ 2)) + (r ⬝ᵥ part 2 (x 0) + r ⬝ᵥ (a ⨯₃ part 0 (x 0)) / (2 * schuler r ^ 2)) * Real.cosh (Real.sqrt 2 * schuler r * t)
        + r ⬝ᵥ part 1 (x 0) / (Real.sqrt 2 * schuler r) * Real.sinh (Real.sqrt 2 * schuler r * t) := by
  obtain ⟨F, G, e, hF⟩ := C62_inertial a (gravityGradient r) R (DMat.zero 9 9 : DMat XR).m (DMat.zero 9 9 : DMat XR).m
  have D : ∀ t i, HasDerivAt (fun τ => x τ i) ((F *ᵥ x t) i) t := fun t => hx t F G e
  have P : ∀ y, part 0 (F *ᵥ y) = 0 ∧ part 1 (F *ᵥ y) = a ⨯₃ part 0 y + gravityGradient r *ᵥ part 2 y ∧ part 2 (F *ᵥ y) = part 1 y := fun y => by
    have z : ∀ k, part k (0 : Fin 9 → ℝ) = 0 := fun k => rfl
    obtain ⟨h0, h1, h2⟩ := hF y 0
    simp only [mulVec_zero, add_zero, z, neg_zero] at h0 h1 h2
    exact ⟨h0, h1, h2⟩
  have att : ∀ t, part 0 (x t) = part 0 (x 0) := fun t => by
    funext i
    have d : ∀ t, HasDerivAt (fun τ => part 0 (x τ) i) 0 t := fun t => by
      have := D t ⟨3 * 0 + i.val, by omega⟩
      refine this.congr_deriv (congrFun (P (x t)).1 i)
    exact is_const_of_deriv_eq_zero (fun t => (d t).differentiableAt) (fun t => (d t).deriv) t 0
  obtain ⟨w0, w2⟩ := schuler_sq hr
  have lp := len3_pos hr
  have dp : ∀ m : V3 ℝ, ∀ t, HasDerivAt (fun τ => m ⬝ᵥ part 2 (x τ)) (m ⬝ᵥ part 1 (x t)) t := fun m t => by
    have := dot_deriv (D t) m 2
    rwa [(P (x t)).2.2] at this
  have dv : ∀ m : V3 ℝ, ∀ t, HasDerivAt (fun τ => m ⬝ᵥ part 1 (x τ)) (m ⬝ᵥ (a ⨯₃ part 0 (x 0)) + m ⬝ᵥ (gravityGradient r *ᵥ part 2 (x t))) t := fun m t => by
    have := dot_deriv (D t) m 1
    rwa [(P (x t)).2.1, dotProduct_add, att t] at this
  constructor
  · intro hn
    refine oscillator w0 (dp n) (fun t => (dv n t).congr_deriv ?_) t
    rw [gradient_dot, hn, w2]; ring
  · have s2 : (Real.sqrt 2 * schuler r) ^ 2 = 2 * schuler r ^ 2 := by rw [mul_pow, Real.sq_sqrt (by norm_num)]
    have := repeller (w := Real.sqrt 2 * schuler r) (k := r ⬝ᵥ (a ⨯₃ part 0 (x 0))) (by positivity) (dp r) (fun t => (dv r t).congr_deriv ?_) t
    · rw [s2] at this; exact this
    · have rr : r ⬝ᵥ r = len3 r ^ 2 := by
        unfold len3; rw [Real.sq_sqrt (by positivity)]; simp only [dotProduct, Fin.sum_univ_three]; ring
      rw [gradient_dot, rr, s2, w2]; field_simp; ring

/-- C182, the period: between 84 and 84.5 minutes at the surface of the Earth -/
theorem C182_period (r : V3 ℝ) (h1 : 6356752 ≤ len3 r) (h2 : len3 r ≤ 6378137) : 84 * 60 < 2 * Real.pi / schuler r ∧ 2 * Real.pi / schuler r < 84.5 * 60 := by
  have hr : r ≠ 0 := by rintro rfl; simp [len3] at h1; norm_num at h1
  obtain ⟨w0, w2⟩ := schuler_sq hr
  have lp := len3_pos hr
  have a1 : (6356752 : ℝ) ^ 3 ≤ len3 r ^ 3 := pow_le_pow_left₀ (by norm_num) h1 3
  have a2 : len3 r ^ 3 ≤ (6378137 : ℝ) ^ 3 := pow_le_pow_left₀ lp.le h2 3
  have b1 : schuler r ^ 2 ≤ (simpleGM / 6356752 ^ 3 : ℝ) := by rw [w2]; exact div_le_div_of_nonneg_left (by norm_num [simpleGM]) (by norm_num) a1
  have b2 : (simpleGM / 6378137 ^ 3 : ℝ) ≤ schuler r ^ 2 := by rw [w2]; exact div_le_div_of_nonneg_left (by norm_num [simpleGM]) (by positivity) a2
  have c1 : schuler r < 1.2458e-3 := by
    refine lt_of_pow_lt_pow_left₀ 2 (by norm_num) (b1.trans_lt ?_)
    norm_num [simpleGM]
  have c2 : 1.2393e-3 < schuler r := by
    refine lt_of_pow_lt_pow_left₀ 2 w0.le (lt_of_lt_of_le ?_ b2)
    norm_num [simpleGM]
  have p1 := Real.pi_gt_d4
  have p2 := Real.pi_lt_d4
  constructor
  · rw [lt_div_iff₀ w0]; norm_num at *; linarith
  · rw [div_lt_iff₀ w0]; norm_num at *; linarith

/-- hypotheses met: the platform is at rest above the equator, the position is wrong by one metre to the east -/
example : let r : V3 ℝ := ![6378137, 0, 0]
    let x : ℝ → Fin 9 → ℝ := fun t => ![0, 0, 0, 0, -(schuler r * Real.sin (schuler r * t)), 0, 0, Real.cos (schuler r * t), 0]
    r ≠ 0 ∧ ∀ t, ∀ F G : Matrix (Fin 9) (Fin 9) ℝ, inertialErrorDynamics (finV ![9.8, 0, 0]) (finM (gravityGradient r)) (finM 1) (DMat.zero 9 9) (DMat.zero 9 9)
      = .ok (true, ⟨9, 9, finM F⟩, ⟨9, 9, finM G⟩) → ∀ i, HasDerivAt (fun τ => x τ i) ((F *ᵥ x t) i) t := by
  intro r x
  have hr : r ≠ 0 := fun h => by have := congrFun h 0; simp [r] at this
  refine ⟨hr, fun t F G e => ?_⟩
  obtain ⟨w0, w2⟩ := schuler_sq hr
  have p0 : part 0 (x t) = 0 := by ext i; fin_cases i <;> rfl
  have p1 : part 1 (x t) = ![0, -(schuler r * Real.sin (schuler r * t)), 0] := by ext i; fin_cases i <;> rfl
  have p2 : part 2 (x t) = ![0, Real.cos (schuler r * t), 0] := by ext i; fin_cases i <;> rfl
  obtain ⟨F', G', e', h⟩ := C62_inertial ![9.8, 0, 0] (gravityGradient r) 1 (DMat.zero 9 9 : DMat XR).m (DMat.zero 9 9 : DMat XR).m
  have e2 := e.symm.trans e'
  obtain rfl : F = F' := by
    injection e2 with e2; injection e2 with _ e2; injection e2 with e3 e4; injection e3 with _ _ e3
    ext i j; have := congrFun (congrFun e3 i) j; simpa [finM] using this
  obtain ⟨e0, e1, e2⟩ := h (x t) 0
  have z : ∀ k, part k (0 : Fin 9 → ℝ) = 0 := fun k => rfl
  simp only [mulVec_zero, add_zero, z, neg_zero, p0, p1, p2, map_zero, zero_add] at e0 e1 e2
  have g1 : gravityGradient r *ᵥ ![0, Real.cos (schuler r * t), 0] = ![0, -(schuler r ^ 2 * Real.cos (schuler r * t)), 0] := by
    rw [w2]
    ext i; fin_cases i <;> simp [mulVec, dotProduct, Fin.sum_univ_three, gravityGradient, r]
    ring
  rw [g1] at e1
  have hc : HasDerivAt (fun t => Real.cos (schuler r * t)) (-(schuler r * Real.sin (schuler r * t))) t := by
    have := (Real.hasDerivAt_cos (schuler r * t)).comp t ((hasDerivAt_id t).const_mul (schuler r))
    exact this.congr_deriv (by simp; ring)
  have hs : HasDerivAt (fun t => -(schuler r * Real.sin (schuler r * t))) (-(schuler r ^ 2 * Real.cos (schuler r * t))) t := by
    have := (((Real.hasDerivAt_sin (schuler r * t)).comp t ((hasDerivAt_id t).const_mul (schuler r))).const_mul (schuler r)).neg
    exact this.congr_deriv (by simp; ring)
  have q0 := fun i => congrFun e0 i
  have q1 := fun i => congrFun e1 i
  have q2 := fun i => congrFun e2 i
  intro i
  have k : ∀ (y : ℝ), y = 0 → HasDerivAt (fun _ : ℝ => (0 : ℝ)) y t := fun y hy => (hasDerivAt_const t (0 : ℝ)).congr_deriv hy.symm
  fin_cases i
  · exact k _ (q0 0)
  · exact k _ (q0 1)
  · exact k _ (q0 2)
  · exact k _ (q1 0)
  · exact hs.congr_deriv (q1 1).symm
  · exact k _ (q1 2)
  · exact k _ (q2 0)
  · exact hc.congr_deriv (q2 1).symm
  · exact k _ (q2 2)

end NavFuse.Props.Pva
