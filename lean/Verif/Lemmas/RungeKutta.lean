import Verif.Spec.Earth
import Mathlib.Analysis.Analytic.Basic
import Mathlib.Analysis.Calculus.MeanValue
import Mathlib.Analysis.Calculus.Deriv.Pow
import Mathlib.Analysis.Calculus.Deriv.Mul
import Mathlib.Analysis.Normed.Module.Multilinear.Curry
import Mathlib.Analysis.Calculus.FDeriv.Analytic
import Mathlib.Analysis.Calculus.ContDiff.Defs

/-! # Order of the classical Runge-Kutta method -/

namespace NavFuse.Rk
open Filter Topology Asymptotics

variable {E : Type*} [NormedAddCommGroup E] [NormedSpace ℝ E]

/-- a power times something continuous -/
theorem bo (n : ℕ) {g : ℝ → E} (hg : ContinuousAt g 0) : (fun h : ℝ => h ^ n • g h) =O[𝓝 0] (fun h : ℝ => h ^ n) := by
  have h1 : g =O[𝓝 0] (fun _ => (1 : ℝ)) := hg.norm.isBoundedUnder_le.isBigO_one ℝ
  simpa using (isBigO_refl (fun h : ℝ => h ^ n) (𝓝 0)).smul h1

theorem pow_le {m n : ℕ} (h : n ≤ m) : (fun h : ℝ => h ^ m) =O[𝓝 0] (fun h : ℝ => h ^ n) :=
  (bo n (g := fun h : ℝ => h ^ (m - n)) (by fun_prop)).congr_left fun x => by rw [smul_eq_mul, ← pow_add, Nat.add_sub_cancel' h]

theorem clm {V W : Type*} [NormedAddCommGroup V] [NormedSpace ℝ V] [NormedAddCommGroup W] [NormedSpace ℝ W] {L : ℝ → V →L[ℝ] W} {g : ℝ → V} {a b : ℝ → ℝ}
    (hL : L =O[𝓝 0] a) (hg : g =O[𝓝 0] b) : (fun h => L h (g h)) =O[𝓝 0] (fun h => a h * b h) := by
  refine (IsBigO.of_bound 1 (Eventually.of_forall fun h => ?_)).trans (hL.norm_left.mul hg.norm_left)
  rw [one_mul, Real.norm_of_nonneg (by positivity)]
  exact (L h).le_opNorm _

theorem cst {V : Type*} [NormedAddCommGroup V] (L : V) : (fun _ : ℝ => L) =O[𝓝 0] (fun _ : ℝ => (1 : ℝ)) := isBigO_const_const _ one_ne_zero _

theorem expandB (B : E →L[ℝ] E →L[ℝ] E) (h : ℝ) (u1 u2 u3 : E) : B (h • u1 + h ^ 2 • u2 + h ^ 3 • u3) (h • u1 + h ^ 2 • u2 + h ^ 3 • u3)
    = h ^ 2 • B u1 u1 + h ^ 3 • (B u1 u2 + B u2 u1) + h ^ 4 • ((B u1 u3 + B u2 u2 + B u3 u1) + h • (B u2 u3 + B u3 u2) + h ^ 2 • B u3 u3) := by
  simp only [map_add, map_smul, add_apply, smul_apply]
  module

theorem expandC (C : E →L[ℝ] E →L[ℝ] E →L[ℝ] E) (h : ℝ) (u1 w : E) : C (h • u1 + h ^ 2 • w) (h • u1 + h ^ 2 • w) (h • u1 + h ^ 2 • w)
    = h ^ 3 • C u1 u1 u1 + h ^ 4 • ((C u1 u1 w + C u1 w u1 + C w u1 u1) + h • (C u1 w w + C w u1 w + C w w u1) + h ^ 2 • C w w w) := by
  simp only [map_add, map_smul, add_apply, smul_apply]
  module

/-- three-term Taylor expansion of a vector field -/
structure Taylor (F : E → E) (y0 : E) (A : E →L[ℝ] E) (B : E →L[ℝ] E →L[ℝ] E) (C : E →L[ℝ] E →L[ℝ] E →L[ℝ] E) : Prop where
  rem : (fun u => F (y0 + u) - (F y0 + A u + B u u + C u u u)) =O[𝓝 0] fun u => ‖u‖ ^ 4
  lip : (fun p : E × E => F p.1 - F p.2) =O[𝓝 (y0, y0)] fun p => p.1 - p.2

/-- expansion of a curve up to third powers -/
def Jet (f : ℝ → E) (c0 c1 c2 c3 : E) : Prop :=
  (fun h : ℝ => f h - (c0 + h • c1 + h ^ 2 • c2 + h ^ 3 • c3)) =O[𝓝 0] (fun h : ℝ => h ^ 4)

theorem Jet.small {f : ℝ → E} {c1 c2 c3 : E} (h : Jet f 0 c1 c2 c3) : f =O[𝓝 0] (fun h : ℝ => h) := by
  have h1 : (fun h : ℝ => h ^ 1 • (c1 + h • c2 + h ^ 2 • c3)) =O[𝓝 0] (fun h : ℝ => h ^ 1) := bo 1 (by fun_prop)
  have h2 := (h.trans (pow_le (by norm_num : 1 ≤ 4))).add h1
  simp only [pow_one] at h2
  refine h2.congr_left fun h => ?_
  module

theorem Taylor.comp {F : E → E} {y0 : E} {A : E →L[ℝ] E} {B : E →L[ℝ] E →L[ℝ] E} {C : E →L[ℝ] E →L[ℝ] E →L[ℝ] E} (T : Taylor F y0 A B C)
    {u : ℝ → E} {u1 u2 u3 : E} (hu : Jet u 0 u1 u2 u3) :
    Jet (fun h => F (y0 + u h)) (F y0) (A u1) (A u2 + B u1 u1) (A u3 + (B u1 u2 + B u2 u1) + C u1 u1 u1) := by
  have hs := hu.small
  have hu0 : Tendsto u (𝓝 0) (𝓝 0) := hs.trans_tendsto tendsto_id
  have hF := (T.rem.comp_tendsto hu0).trans (hs.norm_left.pow 4)
  let P : ℝ → E := fun h => h • u1 + h ^ 2 • u2 + h ^ 3 • u3
  let r : ℝ → E := fun h => u h - P h
  have hr : r =O[𝓝 0] (fun h : ℝ => h ^ 4) := hu.congr_left fun h => by simp only [r, P]; module
  have hPr : ∀ h, u h = P h + r h := fun h => by simp [r]
  have hb1 : ∀ {g : ℝ → E}, g =O[𝓝 0] (fun h : ℝ => h) → g =O[𝓝 0] (fun _ => (1 : ℝ)) := fun hg =>
    hg.trans ((continuousAt_id (x := (0 : ℝ))).norm.isBoundedUnder_le.isBigO_one ℝ)
  have hP : P =O[𝓝 0] (fun _ => (1 : ℝ)) := (by fun_prop : ContinuousAt P 0).norm.isBoundedUnder_le.isBigO_one ℝ
  have hu1 := hb1 hs
  have hA : (fun h => A (r h)) =O[𝓝 0] (fun h : ℝ => h ^ 4) := by simpa using clm (cst A) hr
  have hB : (fun h => B (r h) (u h) + B (P h) (r h)) =O[𝓝 0] (fun h : ℝ => h ^ 4) := by
    have e1 := clm (clm (cst B) hr) hu1
    have e2 := clm (clm (cst B) hP) hr
    simp only [one_mul, mul_one] at e1 e2
    exact e1.add e2
  have hC : (fun h => C (r h) (u h) (u h) + C (P h) (r h) (u h) + C (P h) (P h) (r h)) =O[𝓝 0] (fun h : ℝ => h ^ 4) := by
    have e1 := clm (clm ((C.isBigO_comp r _).trans hr) hu1) hu1
    have e2 := clm (clm ((C.isBigO_comp P _).trans hP) hr) hu1
    have e3 := clm (clm ((C.isBigO_comp P _).trans hP) hP) hr
    simp only [one_mul, mul_one] at e1 e2 e3
    exact (e1.add e2).add e3
  have hpB : (fun h : ℝ => h ^ 4 • ((B u1 u3 + B u2 u2 + B u3 u1) + h • (B u2 u3 + B u3 u2) + h ^ 2 • B u3 u3)) =O[𝓝 0] (fun h : ℝ => h ^ 4) :=
    bo 4 (by fun_prop)
  have hpC : (fun h : ℝ => h ^ 4 • ((C u1 u1 (u2 + h • u3) + C u1 (u2 + h • u3) u1 + C (u2 + h • u3) u1 u1)
      + h • (C u1 (u2 + h • u3) (u2 + h • u3) + C (u2 + h • u3) u1 (u2 + h • u3) + C (u2 + h • u3) (u2 + h • u3) u1)
      + h ^ 2 • C (u2 + h • u3) (u2 + h • u3) (u2 + h • u3))) =O[𝓝 0] (fun h : ℝ => h ^ 4) := bo 4 (by fun_prop)
  have := ((((hF.add hA).add hB).add hC).add hpB).add hpC
  refine this.congr_left fun h => ?_
  simp only [Function.comp_apply]
  have eA : A (u h) = h • A u1 + h ^ 2 • A u2 + h ^ 3 • A u3 + A (r h) := by rw [hPr h]; simp only [P, map_add, map_smul]
  have eB : B (u h) (u h) = B (P h) (P h) + (B (r h) (u h) + B (P h) (r h)) := by rw [hPr h]; simp only [map_add, add_apply]; abel
  have eC : C (u h) (u h) (u h) = C (P h) (P h) (P h) + (C (r h) (u h) (u h) + C (P h) (r h) (u h) + C (P h) (P h) (r h)) := by
    rw [hPr h]; simp only [map_add, add_apply]; abel
  have eC' := expandC C h u1 (u2 + h • u3)
  rw [show h • u1 + h ^ 2 • (u2 + h • u3) = P h by simp only [P]; module] at eC'
  rw [eA, eB, eC, expandB, eC']
  generalize F (y0 + u h) = a1
  module

/-- integrating an expansion -/
theorem jet_integral {e e' : ℝ → E} {n : ℕ} (h0 : e 0 = 0) (hd : ∀ᶠ t in 𝓝 (0 : ℝ), HasDerivAt e (e' t) t) (ho : e' =O[𝓝 0] (fun h : ℝ => h ^ n)) :
    e =O[𝓝 0] (fun h : ℝ => h ^ (n + 1)) := by
  obtain ⟨c, hc⟩ := ho.bound
  obtain ⟨ε, hε, H⟩ := Metric.eventually_nhds_iff_ball.1 (hd.and hc)
  refine IsBigO.of_bound c (Metric.eventually_nhds_iff_ball.2 ⟨ε, hε, fun h hh => ?_⟩)
  have hsub : ∀ x ∈ Set.uIcc 0 h, x ∈ Metric.ball (0 : ℝ) ε ∧ |x| ≤ |h| := fun x hx => by
    have : |x| ≤ |h| := by
      rcases Set.mem_uIcc.1 hx with hx | hx
      · rw [abs_of_nonneg hx.1, abs_of_nonneg (hx.1.trans hx.2)]; exact hx.2
      · rw [abs_of_nonpos hx.2, abs_of_nonpos (hx.1.trans hx.2)]; linarith [hx.1]
    refine ⟨?_, this⟩
    rw [Metric.mem_ball, Real.dist_0_eq_abs] at hh ⊢
    exact this.trans_lt hh
  have hc0 : 0 ≤ c ∨ h = 0 := by
    by_contra hne
    push Not at hne
    have := (H h hh).2
    have hp : 0 < ‖h ^ n‖ := norm_pos_iff.2 (pow_ne_zero _ hne.2)
    nlinarith [norm_nonneg (e' h)]
  rcases hc0 with hc0 | rfl
  · have := (convex_uIcc 0 h).norm_image_sub_le_of_norm_hasDerivWithin_le (f := e) (f' := e') (C := c * |h| ^ n)
      (fun x hx => ((H x (hsub x hx).1).1).hasDerivWithinAt)
      (fun x hx => ((H x (hsub x hx).1).2).trans (by
        rw [norm_pow, Real.norm_eq_abs]
        exact mul_le_mul_of_nonneg_left (pow_le_pow_left₀ (abs_nonneg _) (hsub x hx).2 n) hc0)) Set.left_mem_uIcc Set.right_mem_uIcc
    rw [h0, sub_zero, sub_zero] at this
    rw [norm_pow, Real.norm_eq_abs, pow_succ, ← mul_assoc]
    exact this
  · simp [h0]

theorem hasDerivAt_powsmul (n : ℕ) (c : E) (t : ℝ) : HasDerivAt (fun t : ℝ => t ^ (n + 1) • c) (((n + 1 : ℕ) : ℝ) • t ^ n • c) t := by
  have := (hasDerivAt_pow (n + 1) t).smul_const c
  simpa [mul_smul] using this

theorem jet_poly (a b c d : E) : Jet (fun h : ℝ => h • a + h ^ 2 • b + h ^ 3 • c + h ^ 4 • d) 0 a b c := by
  have h : (fun h : ℝ => h ^ 4 • d) =O[𝓝 0] (fun h : ℝ => h ^ 4) := bo 4 (by fun_prop)
  exact h.congr_left fun h => by module

theorem jet_congr {f : ℝ → E} {c0 c1 c2 c3 d0 d1 d2 d3 : E} (h : Jet f c0 c1 c2 c3) (h0 : c0 = d0) (h1 : c1 = d1) (h2 : c2 = d2) (h3 : c3 = d3) :
    Jet f d0 d1 d2 d3 := by subst h0 h1 h2 h3; exact h

/-- a curve whose polynomial expansion satisfies the equation is the solution, up to fifth order -/
theorem exact_jet {F : E → E} {y0 : E} {A : E →L[ℝ] E} {B : E →L[ℝ] E →L[ℝ] E} {C : E →L[ℝ] E →L[ℝ] E →L[ℝ] E} (T : Taylor F y0 A B C)
    {y : ℝ → E} (h0 : y 0 = y0) (hd : ∀ᶠ t in 𝓝 (0 : ℝ), HasDerivAt y (F (y t)) t) (c2 c3 c4 : E)
    (e2 : (2 : ℝ) • c2 = A (F y0)) (e3 : (3 : ℝ) • c3 = A c2 + B (F y0) (F y0))
    (e4 : (4 : ℝ) • c4 = A c3 + (B (F y0) c2 + B c2 (F y0)) + C (F y0) (F y0) (F y0)) :
    (fun h : ℝ => y h - (y0 + (h • F y0 + h ^ 2 • c2 + h ^ 3 • c3 + h ^ 4 • c4))) =O[𝓝 0] (fun h : ℝ => h ^ 5) := by
  let P : ℝ → E := fun h => y0 + (h • F y0 + h ^ 2 • c2 + h ^ 3 • c3 + h ^ 4 • c4)
  let P' : ℝ → E := fun h => F y0 + h • A (F y0) + h ^ 2 • (A c2 + B (F y0) (F y0)) + h ^ 3 • (A c3 + (B (F y0) c2 + B c2 (F y0)) + C (F y0) (F y0) (F y0))
  have hP : ∀ t, HasDerivAt P (P' t) t := fun t => by
    have h1 := ((((hasDerivAt_powsmul 0 (F y0) t).add (hasDerivAt_powsmul 1 c2 t)).add
      (hasDerivAt_powsmul 2 c3 t)).add (hasDerivAt_powsmul 3 c4 t)).const_add y0
    refine (h1.congr_deriv ?_).congr_of_eventuallyEq (Eventually.of_forall fun x => ?_)
    · simp only [P', ← e2, ← e3, ← e4]; push_cast; module
    · simp [P]
  have hres : (fun h => F (P h) - P' h) =O[𝓝 0] (fun h : ℝ => h ^ 4) := T.comp (jet_poly (F y0) c2 c3 c4)
  have hyc : ContinuousAt y 0 := hd.self_of_nhds.continuousAt
  have hPc : ContinuousAt P 0 := (hP 0).continuousAt
  have hP0 : P 0 = y0 := by simp [P]
  have hlip : (fun t => F (y t) - F (P t)) =O[𝓝 0] fun t => y t - P t := by
    have ht : Tendsto (fun t => (y t, P t)) (𝓝 0) (𝓝 (y0, y0)) := by
      have := hyc.tendsto.prodMk_nhds hPc.tendsto
      rwa [h0, hP0] at this
    exact T.lip.comp_tendsto ht
  have hde : ∀ᶠ t in 𝓝 (0 : ℝ), HasDerivAt (fun t => y t - P t) ((F (y t) - F (P t)) + (F (P t) - P' t)) t := hd.mono fun t ht =>
    (ht.sub (hP t)).congr_deriv (by abel)
  have step : ∀ n, n ≤ 4 → (fun t => y t - P t) =O[𝓝 0] (fun h : ℝ => h ^ n) → (fun t => y t - P t) =O[𝓝 0] (fun h : ℝ => h ^ (n + 1)) := fun n hn hk =>
    jet_integral (by simp [h0, hP0]) hde ((hlip.trans hk).add (hres.trans (pow_le hn)))
  have s0 : (fun t => y t - P t) =O[𝓝 0] (fun h : ℝ => h ^ 0) := by
    simpa using (hyc.sub hPc).norm.isBoundedUnder_le.isBigO_one ℝ
  exact step 4 le_rfl (step 3 (by norm_num) (step 2 (by norm_num) (step 1 (by norm_num) (step 0 (by norm_num) s0))))

/-- multiplying a curve by the time -/
theorem Jet.time {k : ℝ → E} {c0 c1 c2 c3 : E} (hk : Jet k c0 c1 c2 c3) (c : ℝ) : Jet (fun h => (c * h) • k h) 0 (c • c0) (c • c1) (c • c2) := by
  have h1 : (fun h : ℝ => (c * h) • (k h - (c0 + h • c1 + h ^ 2 • c2 + h ^ 3 • c3))) =O[𝓝 0] (fun h : ℝ => h ^ 4) := by
    have : (fun h : ℝ => c * h) =O[𝓝 0] (fun _ => (1 : ℝ)) := (by fun_prop : ContinuousAt (fun h : ℝ => c * h) 0).norm.isBoundedUnder_le.isBigO_one ℝ
    simpa using this.smul hk
  have h2 : (fun h : ℝ => h ^ 4 • (c • c3)) =O[𝓝 0] (fun h : ℝ => h ^ 4) := bo 4 (by fun_prop)
  exact (h1.add h2).congr_left fun h => by module

/-- the four stages agree with the exact solution up to fifth order -/
theorem rk4_order {F : E → E} {y0 : E} {A : E →L[ℝ] E} {B : E →L[ℝ] E →L[ℝ] E} {C : E →L[ℝ] E →L[ℝ] E →L[ℝ] E} (T : Taylor F y0 A B C)
    {y : ℝ → E} (h0 : y 0 = y0) (hd : ∀ᶠ t in 𝓝 (0 : ℝ), HasDerivAt y (F (y t)) t) (k2 k3 k4 : ℝ → E)
    (hk2 : ∀ h, k2 h = F (y0 + (h / 2) • F y0)) (hk3 : ∀ h, k3 h = F (y0 + (h / 2) • k2 h)) (hk4 : ∀ h, k4 h = F (y0 + h • k3 h)) :
    (fun h : ℝ => y0 + (h / 6) • (F y0 + (2 : ℝ) • k2 h + (2 : ℝ) • k3 h + k4 h) - y h) =O[𝓝 0] (fun h : ℝ => h ^ 5) := by
  have j1 : Jet (fun _ : ℝ => F y0) (F y0) 0 0 0 := (isBigO_zero _ _).congr_left fun h => by simp
  have j2 := T.comp (j1.time (1 / 2))
  rw [show (fun h : ℝ => F (y0 + (1 / 2 * h) • F y0)) = k2 from funext fun h => by rw [hk2, show 1 / 2 * h = h / 2 by ring]] at j2
  have j3 := T.comp (j2.time (1 / 2))
  rw [show (fun h : ℝ => F (y0 + (1 / 2 * h) • k2 h)) = k3 from funext fun h => by rw [hk3, show 1 / 2 * h = h / 2 by ring]] at j3
  have j4 := T.comp (j3.time 1)
  rw [show (fun h : ℝ => F (y0 + (1 * h) • k3 h)) = k4 from funext fun h => by rw [hk4, one_mul]] at j4
  have hx := exact_jet T h0 hd ((1 / 2 : ℝ) • A (F y0)) ((1 / 6 : ℝ) • A (A (F y0)) + (1 / 3 : ℝ) • B (F y0) (F y0))
    ((1 / 4 : ℝ) • ((1 / 6 : ℝ) • A (A (A (F y0))) + (1 / 3 : ℝ) • A (B (F y0) (F y0))
        + (1 / 2 : ℝ) • (B (F y0) (A (F y0)) + B (A (F y0)) (F y0)) + C (F y0) (F y0) (F y0)))
    (by module) (by simp only [map_smul]; module) (by simp only [map_smul, map_add, smul_apply]; module)
  have hh : ∀ {g : ℝ → E}, g =O[𝓝 0] (fun h : ℝ => h ^ 4) → (fun h : ℝ => h • g h) =O[𝓝 0] (fun h : ℝ => h ^ 5) := fun hg => by
    refine ((isBigO_refl (fun h : ℝ => h) (𝓝 0)).smul hg).congr_right fun h => ?_
    rw [smul_eq_mul]; ring
  have s := (((hh j2).const_smul_left (1 / 3 : ℝ)).add ((hh j3).const_smul_left (1 / 3 : ℝ))).add ((hh j4).const_smul_left (1 / 6 : ℝ))
  refine (s.sub hx).congr_left fun h => ?_
  simp only [Pi.smul_apply, map_smul, map_add, smul_apply, map_zero, smul_zero, one_smul, zero_apply]
  generalize k2 h = a2; generalize k3 h = a3; generalize k4 h = a4; generalize y h = yy
  module

theorem taylor_of_analytic {F : E → E} {y0 : E} [CompleteSpace E] (hF : AnalyticAt ℝ F y0) : ∃ A B C, Taylor F y0 A B C := by
  obtain ⟨p, hp⟩ := hF
  let e1 := (continuousMultilinearCurryFin1 ℝ E E).toContinuousLinearEquiv.toContinuousLinearMap
  let e2 : (E [×2]→L[ℝ] E) →L[ℝ] (E →L[ℝ] E →L[ℝ] E) :=
    (ContinuousLinearMap.compL ℝ E (E [×1]→L[ℝ] E) (E →L[ℝ] E) e1) ∘L
      (continuousMultilinearCurryLeftEquiv ℝ (fun _ : Fin 2 => E) E).toContinuousLinearEquiv.toContinuousLinearMap
  refine ⟨e1 (p 1), e2 (p 2), e2 ∘L (p 3).curryLeft, ?_, ?_⟩
  · refine (hp.isBigO_sub_partialSum_pow 4).congr_left fun u => ?_
    have h0 := hp.coeff_zero (fun _ => u)
    simp only [FormalMultilinearSeries.partialSum, Finset.sum_range_succ, Finset.sum_range_zero, zero_add]
    rw [h0]
    have a1 : e1 (p 1) u = p 1 (fun _ => u) := congrArg (p 1) (by ext i; fin_cases i; rfl)
    have a2 : e2 (p 2) u u = p 2 (fun _ => u) := congrArg (p 2) (by ext i; fin_cases i <;> rfl)
    have a3 : (e2 ∘L (p 3).curryLeft) u u u = p 3 (fun _ => u) := congrArg (p 3) (by ext i; fin_cases i <;> rfl)
    rw [a1, a2, a3]
  · exact (hp.analyticAt.hasStrictFDerivAt).isBigO_sub

end NavFuse.Rk
