import Verif.Props.NavigatorOrder
import Mathlib.Analysis.ODE.Gronwall
import Mathlib.Analysis.Complex.ExponentialBounds
import Mathlib.Analysis.Calculus.MeanValue
import Mathlib.Analysis.SpecialFunctions.Trigonometric.DerivHyp

/-! # C165: a wrong altitude runs away -/

namespace NavFuse.Props
open Matrix Spec NavUtils Filter Topology

/-- growth from a second-order differential inequality -/
theorem cosh_growth {κ δ t : ℝ} (ht : 0 ≤ t) {x p F : ℝ → ℝ} (hx : ∀ s ∈ Set.Icc 0 t, HasDerivAt x (p s) s)
    (hp : ∀ s ∈ Set.Icc 0 t, HasDerivAt p (F s) s) (hF : ∀ s ∈ Set.Ioo 0 t, κ ^ 2 * x s ≤ F s) (x0 : x 0 = δ) (p0 : p 0 = 0) :
    ∀ s ∈ Set.Icc 0 t, δ * Real.cosh (κ * s) ≤ x s := by
  have hexp : ∀ c s : ℝ, HasDerivAt (fun s => Real.exp (c * s)) (c * Real.exp (c * s)) s := fun c s => by
    have := ((hasDerivAt_id s).const_mul c).exp
    simpa [mul_comm] using this
  have hA : ∀ s ∈ Set.Icc 0 t, HasDerivAt (fun s => (p s + κ * x s) * Real.exp (-κ * s)) ((F s - κ ^ 2 * x s) * Real.exp (-κ * s)) s := fun s hs =>
    (((hp s hs).add ((hx s hs).const_mul κ)).mul (hexp (-κ) s)).congr_deriv (by simp only [Pi.add_apply]; ring)
  have hAm : MonotoneOn (fun s => (p s + κ * x s) * Real.exp (-κ * s)) (Set.Icc 0 t) := by
    refine monotoneOn_of_deriv_nonneg (convex_Icc 0 t) (fun s hs => (hA s hs).continuousAt.continuousWithinAt)
      (fun s hs => ?_) (fun s hs => ?_)
    · rw [interior_Icc] at hs
      exact (hA s (Set.Ioo_subset_Icc_self hs)).differentiableAt.differentiableWithinAt
    · rw [interior_Icc] at hs
      rw [(hA s (Set.Ioo_subset_Icc_self hs)).deriv]
      exact mul_nonneg (by linarith [hF s hs]) (Real.exp_pos _).le
  have h1 : ∀ s ∈ Set.Icc 0 t, κ * δ * Real.exp (κ * s) ≤ p s + κ * x s := by
    intro s hs
    have := hAm ⟨le_rfl, ht⟩ hs hs.1
    simp only [x0, p0, mul_zero, Real.exp_zero, zero_add, mul_one] at this
    have h2 := mul_le_mul_of_nonneg_right this (Real.exp_pos (κ * s)).le
    rwa [mul_assoc _ (Real.exp (-κ * s)), ← Real.exp_add, show -κ * s + κ * s = 0 by ring, Real.exp_zero, mul_one] at h2
  have hB : ∀ s ∈ Set.Icc 0 t, HasDerivAt (fun s => x s * Real.exp (κ * s) - δ / 2 * Real.exp (2 * κ * s))
      ((p s + κ * x s - κ * δ * Real.exp (κ * s)) * Real.exp (κ * s)) s := fun s hs =>
    (((hx s hs).mul (hexp κ s)).sub ((hexp (2 * κ) s).const_mul (δ / 2))).congr_deriv (by
      rw [show 2 * κ * s = κ * s + κ * s by ring, Real.exp_add]; ring)
  have hBm : MonotoneOn (fun s => x s * Real.exp (κ * s) - δ / 2 * Real.exp (2 * κ * s)) (Set.Icc 0 t) := by
    refine monotoneOn_of_deriv_nonneg (convex_Icc 0 t) (fun s hs => (hB s hs).continuousAt.continuousWithinAt)
      (fun s hs => ?_) (fun s hs => ?_)
    · rw [interior_Icc] at hs
      exact (hB s (Set.Ioo_subset_Icc_self hs)).differentiableAt.differentiableWithinAt
    · rw [interior_Icc] at hs
      rw [(hB s (Set.Ioo_subset_Icc_self hs)).deriv]
      exact mul_nonneg (by linarith [h1 s (Set.Ioo_subset_Icc_self hs)]) (Real.exp_pos _).le
  intro s hs
  have := hBm ⟨le_rfl, ht⟩ hs hs.1
  simp only [x0, mul_zero, Real.exp_zero, mul_one] at this
  rw [Real.cosh_eq]
  have e : 0 < Real.exp (κ * s) := Real.exp_pos _
  have e2 : Real.exp (-(κ * s)) * Real.exp (κ * s) = 1 := by rw [← Real.exp_add]; simp
  have e3 : Real.exp (2 * κ * s) = Real.exp (κ * s) * Real.exp (κ * s) := by rw [← Real.exp_add]; ring_nf
  rw [e3] at this
  refine le_of_mul_le_mul_right ?_ e
  have : δ * ((Real.exp (κ * s) + Real.exp (-(κ * s))) / 2) * Real.exp (κ * s)
      = δ / 2 * (Real.exp (κ * s) * Real.exp (κ * s)) + δ / 2 * (Real.exp (-(κ * s)) * Real.exp (κ * s)) := by ring
  rw [this, e2]
  linarith

/-- the components of the navigation equations -/
theorem navRates_apply (s g : V3 ℝ) (y : Fin 6 → ℝ) :
    navRates s g y 0 = y 3 / (meridian (y 0) + y 2) ∧
    navRates s g y 2 = -y 5 ∧
    navRates s g y 3 = s 0 + g 0 + y 3 / (meridian (y 0) + y 2) * y 5
      - (2 * earthRate + y 4 / ((primeVertical (y 0) + y 2) * Real.cos (y 0))) * Real.sin (y 0) * y 4 ∧
    navRates s g y 4 = s 1 + g 1 + (2 * earthRate + y 4 / ((primeVertical (y 0) + y 2) * Real.cos (y 0))) * (Real.sin (y 0) * y 3 + Real.cos (y 0) * y 5) ∧
    navRates s g y 5 = s 2 + g 2 - (2 * earthRate + y 4 / ((primeVertical (y 0) + y 2) * Real.cos (y 0))) * Real.cos (y 0) * y 4
      - y 3 / (meridian (y 0) + y 2) * y 3 := by
  refine ⟨?_, ?_, ?_, ?_, ?_⟩ <;> simp [navRates, posRates, velRates, earthVec, transportVec, cross_apply] <;> ring

/-- A motion that starts on the equator with no velocity to the north stays there, if the specific force has no north component. -/
theorem equatorial (T : ℝ) (s : ℝ → V3 ℝ) (hs : ∀ t, s t 0 = 0) (y : ℝ → Fin 6 → ℝ) (hr : ∀ t ∈ Set.Icc 0 T, RegularPos (y t 0) (y t 2))
    (hy : ∀ t ∈ Set.Icc 0 T, HasDerivAt y (navRates (s t) (stateGravity (y t)) (y t)) t) (h0 : y 0 0 = 0) (h3 : y 0 3 = 0) :
    ∀ t ∈ Set.Icc 0 T, y t 0 = 0 ∧ y t 3 = 0 := by
  have hc : ContinuousOn y (Set.Icc 0 T) := fun t ht => (hy t ht).continuousAt.continuousWithinAt
  have hci : ∀ i, ContinuousOn (fun t => y t i) (Set.Icc 0 T) := fun i => (continuous_apply i).comp_continuousOn hc
  have cm : ContinuousOn (fun t => meridian (y t 0)) (Set.Icc 0 T) := fun t ht =>
    ContinuousAt.comp_continuousWithinAt (g := meridian) (f := fun t => y t 0) (Rk.contDiff_meridian (n := 0) (x := y t 0) contDiffAt_id).continuousAt (hci 0 t ht)
  have cp : ContinuousOn (fun t => primeVertical (y t 0)) (Set.Icc 0 T) := fun t ht =>
    ContinuousAt.comp_continuousWithinAt (g := primeVertical) (f := fun t => y t 0) (Rk.contDiff_primeVertical (n := 0) (x := y t 0) contDiffAt_id).continuousAt (hci 0 t ht)
  have cc : ContinuousOn (fun t => Real.cos (y t 0)) (Set.Icc 0 T) := Real.continuous_cos.comp_continuousOn (hci 0)
  let k : ℝ → ℝ := fun t => |1 / (meridian (y t 0) + y t 2)| * (1 + |y t 5|) + 2 * |y t 2|
    + |2 * earthRate + y t 4 / ((primeVertical (y t 0) + y t 2) * Real.cos (y t 0))| * |y t 4|
  have ck : ContinuousOn k (Set.Icc 0 T) := by
    have a1 : ContinuousOn (fun t => 1 / (meridian (y t 0) + y t 2)) (Set.Icc 0 T) := continuousOn_const.div (cm.add (hci 2)) fun t ht => (hr t ht).merid
    have a2 : ContinuousOn (fun t => y t 4 / ((primeVertical (y t 0) + y t 2) * Real.cos (y t 0))) (Set.Icc 0 T) :=
      (hci 4).div ((cp.add (hci 2)).mul cc) fun t ht => mul_ne_zero (hr t ht).prime (hr t ht).pole
    exact ((a1.abs.mul (continuousOn_const.add (hci 5).abs)).add (continuousOn_const.mul (hci 2).abs)).add ((continuousOn_const.add a2).abs.mul (hci 4).abs)
  obtain ⟨K, hK⟩ := isCompact_Icc.bddAbove_image ck
  have hK' : ∀ t ∈ Set.Icc 0 T, k t ≤ K := fun t ht => hK ⟨t, ht, rfl⟩
  have hd : ∀ t ∈ Set.Icc 0 T, ∀ i, HasDerivAt (fun t => y t i) (navRates (s t) (stateGravity (y t)) (y t) i) t := fun t ht => hasDerivAt_pi.1 (hy t ht)
  have hbound : ∀ t ∈ Set.Icc 0 T, ‖(navRates (s t) (stateGravity (y t)) (y t) 0, navRates (s t) (stateGravity (y t)) (y t) 3)‖ ≤ K * ‖(y t 0, y t 3)‖ + 0 := by
    intro t ht
    obtain ⟨e0, -, e3, -, -⟩ := navRates_apply (s t) (stateGravity (y t)) (y t)
    rw [e0, e3, hs, add_zero]
    set n := ‖(y t 0, y t 3)‖ with hn
    have n0 : |y t 0| ≤ n := by rw [hn, Prod.norm_def]; exact le_max_left _ _
    have n3 : |y t 3| ≤ n := by rw [hn, Prod.norm_def]; exact le_max_right _ _
    have nn : 0 ≤ n := norm_nonneg _
    have hs1 : |Real.sin (y t 0)| ≤ n := (Real.abs_sin_le_abs (x := y t 0)).trans n0
    have hs2 : |Real.sin (2 * y t 0)| ≤ 2 * n := (Real.abs_sin_le_abs (x := 2 * y t 0)).trans (by rw [abs_mul]; norm_num; exact n0)
    have hg : stateGravity (y t) 0 = -8.08 * 1e-6 * (y t 2 / 1000) * Real.sin (2 * y t 0) := by rw [stateGravity, gravity_R]; rfl
    refine (le_trans ?_ (mul_le_mul_of_nonneg_right (hK' t ht) nn))
    set A := |1 / (meridian (y t 0) + y t 2)| with hA
    set D := 2 * earthRate + y t 4 / ((primeVertical (y t 0) + y t 2) * Real.cos (y t 0)) with hD
    have hA0 : 0 ≤ A := abs_nonneg _
    have q : |y t 3 / (meridian (y t 0) + y t 2)| ≤ A * n := by
      rw [div_eq_mul_one_div, abs_mul, mul_comm]; exact mul_le_mul_of_nonneg_left n3 hA0
    have q2 : |stateGravity (y t) 0| ≤ 2 * |y t 2| * n := by
      rw [hg, abs_mul, show (-8.08 * 1e-6 * (y t 2 / 1000) : ℝ) = -8.08e-9 * y t 2 by ring, abs_mul]
      have : |(-8.08e-9 : ℝ)| ≤ 1 := by rw [abs_le]; norm_num
      calc |(-8.08e-9 : ℝ)| * |y t 2| * |Real.sin (2 * y t 0)| ≤ 1 * |y t 2| * (2 * n) := by gcongr
        _ = 2 * |y t 2| * n := by ring
    have q3 : |y t 3 / (meridian (y t 0) + y t 2) * y t 5| ≤ A * n * |y t 5| := by
      rw [abs_mul]; exact mul_le_mul_of_nonneg_right q (abs_nonneg _)
    have q4 : |D * Real.sin (y t 0) * y t 4| ≤ |D| * n * |y t 4| := by
      rw [abs_mul, abs_mul]; gcongr
    have k0 : k t * n = A * n + A * n * |y t 5| + 2 * |y t 2| * n + |D| * n * |y t 4| := by simp only [k]; ring
    rw [k0, Prod.norm_def, max_le_iff]
    have p1 : 0 ≤ A * n * |y t 5| := by positivity
    have p2 : 0 ≤ 2 * |y t 2| * n := by positivity
    have p3 : 0 ≤ |D| * n * |y t 4| := by positivity
    have p4 : 0 ≤ A * n := by positivity
    constructor
    · rw [Real.norm_eq_abs]; linarith
    · rw [Real.norm_eq_abs, zero_add]
      refine (abs_sub _ _).trans ?_
      have := abs_add_le (stateGravity (y t) 0) (y t 3 / (meridian (y t 0) + y t 2) * y t 5)
      linarith
  have hG := norm_le_gronwallBound_of_norm_deriv_right_le (f := fun t => (y t 0, y t 3))
    (f' := fun t => (navRates (s t) (stateGravity (y t)) (y t) 0, navRates (s t) (stateGravity (y t)) (y t) 3)) (δ := 0) (K := K) (ε := 0) (a := 0) (b := T)
    ((hci 0).prodMk (hci 3)) (fun t ht => ((hd t (Set.Ico_subset_Icc_self ht) 0).prodMk (hd t (Set.Ico_subset_Icc_self ht) 3)).hasDerivWithinAt)
    (by simp [h0, h3]) fun t ht => hbound t (Set.Ico_subset_Icc_self ht)
  intro t ht
  have := hG t ht
  rw [gronwallBound_ε0, zero_mul, norm_le_zero_iff, Prod.mk_eq_zero] at this
  exact this

/-- what the code computes for gravity on the equator -/
theorem gravity_equator (z : Fin 6 → ℝ) (h0 : z 0 = 0) : stateGravity z 1 = 0 ∧
    stateGravity z 2 = 9.7803267715 * (1 - 2 / 6378137 * (1 + 1 / 298.257222101 + mR) * z 2 + 3 * z 2 ^ 2 / 6378137 ^ 2) := by
  rw [stateGravity, gravity_R]
  refine ⟨rfl, ?_⟩
  show ellG (z 0) * altFactor (z 0) (z 2) = _
  have : ellG 0 = 9.7803267715 := by
    rw [ellG]; simp only [Real.cos_zero, Real.sin_zero]
    rw [show (6378137 : ℝ) ^ 2 * 1 ^ 2 + 6356752.3141 ^ 2 * 0 ^ 2 = 6378137 ^ 2 by norm_num, Real.sqrt_sq (by norm_num)]; norm_num
  rw [h0, this, altFactor, Real.sin_zero]
  ring

/-- the upward acceleration on a motion above the altitude where the specific force balances gravity -/
theorem upward (h0 x δ : ℝ) (hh : 0 ≤ h0) (hδ : 0 ≤ δ) (hx : 0 < x) (htop : h0 + x ≤ 20000) :
    (1 / 580) ^ 2 * x ≤ 9.7803267715 * (1 - 2 / 6378137 * (1 + 1 / 298.257222101 + mR) * h0 + 3 * h0 ^ 2 / 6378137 ^ 2)
      - 9.7803267715 * (1 - 2 / 6378137 * (1 + 1 / 298.257222101 + mR) * (h0 + x) + 3 * (h0 + x) ^ 2 / 6378137 ^ 2)
      + earthRate ^ 2 * ((6378137 + (h0 + δ)) ^ 4 / (6378137 + (h0 + x)) ^ 3 - (6378137 + (h0 + x))) := by
  have hm : 0 ≤ mR := by unfold mR; positivity
  set r := 6378137 + (h0 + x) with hr
  set q := 6378137 + (h0 + δ) with hq
  have r0 : 0 < r := by rw [hr]; positivity
  have q0 : 0 < q := by rw [hq]; positivity
  have h1 : -4 * x ≤ q ^ 4 / r ^ 3 - r := by
    have : q ^ 4 / r ^ 3 - r - -4 * (r - q) = (r - q) ^ 2 * (3 * r ^ 2 + 2 * r * q + q ^ 2) / r ^ 3 := by field_simp; ring
    have h2 : 0 ≤ (r - q) ^ 2 * (3 * r ^ 2 + 2 * r * q + q ^ 2) / r ^ 3 := by positivity
    have h3 : r - q ≤ x := by rw [hr, hq]; linarith
    linarith
  have h2 : -(2.13e-8) * x ≤ earthRate ^ 2 * (q ^ 4 / r ^ 3 - r) := by
    have := mul_le_mul_of_nonneg_left h1 (sq_nonneg earthRate)
    have e : earthRate ^ 2 * (-4 * x) = -(4 * earthRate ^ 2) * x := by ring
    have e2 : 4 * earthRate ^ 2 ≤ 2.13e-8 := by unfold earthRate; norm_num
    nlinarith
  have h3 : (3.047e-6) * x ≤ 9.7803267715 * (1 - 2 / 6378137 * (1 + 1 / 298.257222101 + mR) * h0 + 3 * h0 ^ 2 / 6378137 ^ 2)
      - 9.7803267715 * (1 - 2 / 6378137 * (1 + 1 / 298.257222101 + mR) * (h0 + x) + 3 * (h0 + x) ^ 2 / 6378137 ^ 2) := by
    have e : 9.7803267715 * (1 - 2 / 6378137 * (1 + 1 / 298.257222101 + mR) * h0 + 3 * h0 ^ 2 / 6378137 ^ 2)
      - 9.7803267715 * (1 - 2 / 6378137 * (1 + 1 / 298.257222101 + mR) * (h0 + x) + 3 * (h0 + x) ^ 2 / 6378137 ^ 2)
      = (9.7803267715 * (2 / 6378137 * (1 + 1 / 298.257222101 + mR) - 3 * (2 * h0 + x) / 6378137 ^ 2)) * x := by ring
    rw [e]
    refine mul_le_mul_of_nonneg_right ?_ hx.le
    have : 2 * h0 + x ≤ 40000 := by linarith
    have a1 : 3 * (2 * h0 + x) / 6378137 ^ 2 ≤ 3e-9 := by rw [div_le_iff₀ (by norm_num)]; linarith
    have a2 : (3.146e-7 : ℝ) ≤ 2 / 6378137 * (1 + 1 / 298.257222101 + mR) := by
      have : (2 : ℝ) / 6378137 * (1 + 1 / 298.257222101 + 0) ≤ 2 / 6378137 * (1 + 1 / 298.257222101 + mR) := by gcongr
      refine le_trans ?_ this
      norm_num
    linarith
  have : (1 / 580 : ℝ) ^ 2 * x ≤ 3.0257e-6 * x := mul_le_mul_of_nonneg_right (by norm_num) hx.le
  linarith

/-- C165. The navigation equations with the specific force of a vehicle at rest on the equator at altitude `h₀`, started at rest at the right place but `δ`
too high: as long as the solution is below 20 km, its altitude error is at least `δ cosh (t / 580 s)`. -/
theorem C165_growth (T lon h₀ δ : ℝ) (hh : 0 ≤ h₀) (hδ : 0 < δ) (y : ℝ → Fin 6 → ℝ) (y0 : y 0 = ![0, lon, h₀ + δ, 0, 0, 0])
    (hr : ∀ t ∈ Set.Icc 0 T, RegularPos (y t 0) (y t 2))
    (hy : ∀ t ∈ Set.Icc 0 T, HasDerivAt y (navRates (-stateGravity ![0, lon, h₀, 0, 0, 0]) (stateGravity (y t)) (y t)) t)
    (htop : ∀ t ∈ Set.Icc 0 T, y t 2 ≤ 20000) :
    ∀ t ∈ Set.Icc 0 T, h₀ + δ * Real.cosh (t / 580) ≤ y t 2 := by
  set s : V3 ℝ := -stateGravity ![0, lon, h₀, 0, 0, 0] with hs
  have hg0 := gravity_equator ![0, lon, h₀, 0, 0, 0] rfl
  have s0 : s 0 = 0 := by
    rw [hs, stateGravity, gravity_R]; simp
  have s1 : s 1 = 0 := by rw [hs, Pi.neg_apply, hg0.1, neg_zero]
  have s2 : s 2 = -(9.7803267715 * (1 - 2 / 6378137 * (1 + 1 / 298.257222101 + mR) * h₀ + 3 * h₀ ^ 2 / 6378137 ^ 2)) := by
    rw [hs, Pi.neg_apply, hg0.2]; rfl
  have heq := equatorial T (fun _ => s) (fun _ => s0) y hr hy (by rw [y0]; rfl) (by rw [y0]; rfl)
  have hN : primeVertical 0 = 6378137 := by simp [primeVertical, semiMajor]
  have hd : ∀ t ∈ Set.Icc 0 T, ∀ i, HasDerivAt (fun t => y t i) (navRates s (stateGravity (y t)) (y t) i) t := fun t ht => hasDerivAt_pi.1 (hy t ht)
  have d2 : ∀ t ∈ Set.Icc 0 T, HasDerivAt (fun t => y t 2) (-y t 5) t := fun t ht => by
    have := hd t ht 2; rwa [(navRates_apply _ _ _).2.1] at this
  have d4 : ∀ t ∈ Set.Icc 0 T, HasDerivAt (fun t => y t 4) ((2 * earthRate + y t 4 / (6378137 + y t 2)) * y t 5) t := fun t ht => by
    have := hd t ht 4
    rw [(navRates_apply _ _ _).2.2.2.1, s1, (gravity_equator (y t) (heq t ht).1).1, (heq t ht).1, hN] at this
    simpa using this
  have d5 : ∀ t ∈ Set.Icc 0 T, HasDerivAt (fun t => y t 5) (s 2 + stateGravity (y t) 2 - (2 * earthRate + y t 4 / (6378137 + y t 2)) * y t 4) t :=
    fun t ht => by
      have := hd t ht 5
      rw [(navRates_apply _ _ _).2.2.2.2, (heq t ht).1, (heq t ht).2, hN] at this
      simpa using this
  have hreg : ∀ t ∈ Set.Icc 0 T, 6378137 + y t 2 ≠ 0 := fun t ht => by
    have := (hr t ht).prime; rwa [(heq t ht).1, hN] at this
  -- angular momentum about the axis of the Earth
  have hL : ∀ t ∈ Set.Icc 0 T, (6378137 + y t 2) * (y t 4 + earthRate * (6378137 + y t 2)) = earthRate * (6378137 + (h₀ + δ)) ^ 2 := by
    have hder : ∀ t ∈ Set.Icc 0 T, HasDerivAt (fun t => (6378137 + y t 2) * (y t 4 + earthRate * (6378137 + y t 2))) 0 t := fun t ht => by
      have hne := hreg t ht
      have e1 := (d2 t ht).const_add 6378137
      refine (e1.mul ((d4 t ht).add (e1.const_mul earthRate))).congr_deriv ?_
      simp only [Pi.add_apply]
      field_simp
      ring
    intro t ht
    have := constant_of_has_deriv_right_zero (fun t ht => (hder t ht).continuousAt.continuousWithinAt)
      (fun t ht => (hder t (Set.Ico_subset_Icc_self ht)).hasDerivWithinAt) t ht
    rw [this, y0]
    simp
    ring
  -- the acceleration is what `upward` is about
  have hF : ∀ t ∈ Set.Icc 0 T, h₀ < y t 2 →
      (1 / 580) ^ 2 * (y t 2 - h₀) ≤ -(s 2 + stateGravity (y t) 2 - (2 * earthRate + y t 4 / (6378137 + y t 2)) * y t 4) := by
    intro t ht hlt
    have hne := hreg t ht
    have hu := upward h₀ (y t 2 - h₀) δ hh hδ.le (by linarith) (by linarith [htop t ht])
    rw [show h₀ + (y t 2 - h₀) = y t 2 by ring] at hu
    rw [s2, (gravity_equator (y t) (heq t ht).1).2]
    have hl := hL t ht
    have hv : y t 4 = earthRate * (6378137 + (h₀ + δ)) ^ 2 / (6378137 + y t 2) - earthRate * (6378137 + y t 2) := by
      rw [← hl]; field_simp; ring
    have e : (2 * earthRate + y t 4 / (6378137 + y t 2)) * y t 4
        = earthRate ^ 2 * ((6378137 + (h₀ + δ)) ^ 4 / (6378137 + y t 2) ^ 3 - (6378137 + y t 2)) := by
      rw [hv]; field_simp; ring
    rw [e]
    linarith
  -- growth as long as the altitude is above the balance
  have hgrow : ∀ t ∈ Set.Icc 0 T, (∀ u ∈ Set.Ioo 0 t, h₀ < y u 2) → h₀ + δ * Real.cosh (t / 580) ≤ y t 2 := by
    intro t ht hpos
    have hsub : ∀ u ∈ Set.Icc 0 t, u ∈ Set.Icc 0 T := fun u hu => ⟨hu.1, hu.2.trans ht.2⟩
    have := cosh_growth (κ := 1 / 580) (δ := δ) ht.1 (x := fun t => y t 2 - h₀) (p := fun t => -y t 5)
      (F := fun t => -(s 2 + stateGravity (y t) 2 - (2 * earthRate + y t 4 / (6378137 + y t 2)) * y t 4))
      (fun u hu => (d2 u (hsub u hu)).sub_const h₀) (fun u hu => (d5 u (hsub u hu)).neg)
      (fun u hu => hF u (hsub u (Set.Ioo_subset_Icc_self hu)) (hpos u hu)) (by simp [y0]) (by simp [y0]) t ⟨ht.1, le_rfl⟩
    rw [one_div_mul_eq_div] at this
    linarith
  have hall : ∀ t ∈ Set.Icc 0 T, h₀ < y t 2 := by
    by_contra hn
    push Not at hn
    obtain ⟨t₁, ht₁, hle⟩ := hn
    have hc : ContinuousOn (fun t => y t 2) (Set.Icc 0 T) := fun t ht => (d2 t ht).continuousAt.continuousWithinAt
    have hcl : IsClosed (Set.Icc 0 T ∩ (fun t => y t 2) ⁻¹' Set.Iic h₀) := hc.preimage_isClosed_of_isClosed isClosed_Icc isClosed_Iic
    have hcomp : IsCompact (Set.Icc 0 T ∩ (fun t => y t 2) ⁻¹' Set.Iic h₀) := isCompact_Icc.of_isClosed_subset hcl Set.inter_subset_left
    obtain ⟨t₂, ⟨ht₂, hle₂⟩, hmin⟩ := hcomp.exists_isLeast ⟨t₁, ht₁, hle⟩
    have := hgrow t₂ ht₂ fun u hu => by
      by_contra hnu
      have := hmin ⟨⟨hu.1.le, hu.2.le.trans ht₂.2⟩, not_lt.1 hnu⟩
      linarith [hu.2]
    have hc1 := Real.one_le_cosh (t₂ / 580)
    have h2 : y t₂ 2 ≤ h₀ := hle₂
    nlinarith
  intro t ht
  exact hgrow t ht fun u hu => hall u ⟨hu.1.le, hu.2.le.trans ht.2⟩

/-- C165 for the navigator: a vehicle at rest on the equator at altitude `h₀`, upright and turning about its vertical axis (a turn rate of zero is excluded by
C49), initialised `δ` too high. Whatever the motion `y` that these readings describe, the computed altitude error at every step up to the time `T` is at least
`δ cosh (t / 580 s)` less a multiple of the step length, as long as `y` is below 20 km. -/
theorem C165_navigator (a b T lon h₀ δ : ℝ) (ha : a < 0) (hT : 0 ≤ T) (hb : T < b) (hh : 0 ≤ h₀) (hδ : 0 < δ) (X : ℝ → M3 ℝ) (ω f : V3 ℝ) (hω : ω ≠ 0)
    (hX : ∀ τ u, HasDerivAt (fun s => X s *ᵥ u) (X τ *ᵥ (ω ⨯₃ u)) τ) (hup : ω ⨯₃ f = 0) (hf : X 0 *ᵥ f = -stateGravity ![0, lon, h₀, 0, 0, 0])
    (y : ℝ → Fin 6 → ℝ) (y0 : y 0 = ![0, lon, h₀ + δ, 0, 0, 0]) (hr : ∀ t ∈ Set.Ioo a b, RegularPos (y t 0) (y t 2))
    (hy : ∀ t ∈ Set.Ioo a b, HasDerivAt y (navRates (X t *ᵥ f) (stateGravity (y t)) (y t)) t) (htop : ∀ t ∈ Set.Icc 0 T, y t 2 ≤ 20000) :
    ∃ C, ∃ dt0 > 0, ∀ dt, 0 < dt → dt ≤ dt0 → ∀ Y : ℕ → Fin 6 → ℝ, Y 0 = ![0, lon, h₀ + δ, 0, 0, 0] →
      (∀ k : ℕ, ∃ old, strapdownRk4 ⟨6, Y k⟩ dt (X (k * dt + dt) *ᵥ (dt • f)) (Gravity.gravityNed (Y k 0) (Y k 2)).2 ⟨6, old⟩ = .ok (true, ⟨6, Y (k + 1)⟩)) →
      ∀ k : ℕ, k * dt ≤ T → δ * Real.cosh (k * dt / 580) - C * dt ≤ Y k 2 - h₀ := by
  have hsub : ∀ t ∈ Set.Icc 0 T, t ∈ Set.Ioo a b := fun t ht => ⟨ha.trans_le ht.1, ht.2.trans_lt hb⟩
  have hconst : ∀ t, X t *ᵥ f = -stateGravity ![0, lon, h₀, 0, 0, 0] := by
    intro t
    rw [← hf]
    refine is_const_of_deriv_eq_zero (f := fun s => X s *ᵥ f) (fun τ => (hX τ f).differentiableAt) (fun τ => ?_) t 0
    rw [(hX τ f).deriv, hup, mulVec_zero]
  have hgrow := C165_growth T lon h₀ δ hh hδ y y0 (fun t ht => hr t (hsub t ht)) (fun t ht => by
    have := hy t (hsub t ht); rwa [hconst] at this) htop
  obtain ⟨C, dt0, hdt0, H⟩ := C105_converges a b T ha hT hb X ω f hω hX y hr hy
  refine ⟨C, dt0, hdt0, fun dt hdt hle Y hY0 hY k hk => ?_⟩
  have h1 := H dt hdt hle Y (hY0.trans y0.symm) hY k hk 2
  have h2 := hgrow (k * dt) ⟨by positivity, hk⟩
  have h3 := (abs_le.1 h1).1
  linarith

/-- non-vacuity: such attitudes and motions exist, at every altitude from 0 to below 20 km and for every small error, for some time -/
example (lon h₀ δ w : ℝ) (hh : 0 ≤ h₀) (hδ : 0 < δ) (htop : h₀ + δ < 20000) (hw : w ≠ 0)
    (X : ℝ → M3 ℝ) (hX : ∀ τ u, HasDerivAt (fun s => X s *ᵥ u) (X τ *ᵥ (![0, 0, w] ⨯₃ u)) τ) (hX0 : X 0 = 1) :
    (![0, 0, w] ⨯₃ (-stateGravity ![0, lon, h₀, 0, 0, 0]) : V3 ℝ) = 0 ∧ X 0 *ᵥ (-stateGravity ![0, lon, h₀, 0, 0, 0]) = -stateGravity ![0, lon, h₀, 0, 0, 0] ∧
    ∃ (a b T : ℝ) (y : ℝ → Fin 6 → ℝ), a < 0 ∧ 0 < T ∧ T < b ∧ y 0 = ![0, lon, h₀ + δ, 0, 0, 0] ∧ (∀ t ∈ Set.Ioo a b, RegularPos (y t 0) (y t 2)) ∧
      (∀ t ∈ Set.Ioo a b, HasDerivAt y (navRates (X t *ᵥ (-stateGravity ![0, lon, h₀, 0, 0, 0])) (stateGravity (y t)) (y t)) t) ∧
      ∀ t ∈ Set.Icc 0 T, y t 2 ≤ 20000 := by
  have g0 : stateGravity ![0, lon, h₀, 0, 0, 0] 0 = 0 := by rw [stateGravity, gravity_R]; simp
  have g1 := (gravity_equator ![0, lon, h₀, 0, 0, 0] rfl).1
  refine ⟨?_, by rw [hX0, one_mulVec], ?_⟩
  · ext i; fin_cases i <;> simp [cross_apply, g0, g1]
  · have hreg : RegularPos ((![0, lon, h₀ + δ, 0, 0, 0] : Fin 6 → ℝ) 0) ((![0, lon, h₀ + δ, 0, 0, 0] : Fin 6 → ℝ) 2) := by
      have hM : meridian 0 = 6378137 * (1 - ecc2) := by simp [meridian, semiMajor]
      have hN : primeVertical 0 = 6378137 := by simp [primeVertical, semiMajor]
      have he : 0 < 1 - ecc2 := by unfold ecc2 semiMinor semiMajor flattening; norm_num
      refine ⟨by simp, ?_, ?_⟩
      · show meridian 0 + (h₀ + δ) ≠ 0
        rw [hM]; positivity
      · show primeVertical 0 + (h₀ + δ) ≠ 0
        rw [hN]; positivity
    obtain ⟨ε, hε, y, h0, h⟩ := exists_motion X ![0, 0, w] (-stateGravity ![0, lon, h₀, 0, 0, 0]) (fun h0 => hw (by simpa using congrFun h0 2)) hX _ hreg
    have hc : ContinuousAt (fun t => y t 2) 0 := (continuous_apply 2).continuousAt.comp (h 0 ⟨by linarith, hε⟩).2.continuousAt
    have hev : ∀ᶠ t in 𝓝 (0 : ℝ), y t 2 < 20000 := hc.eventually_lt continuousAt_const (by rw [h0]; exact htop)
    obtain ⟨η, hη, H⟩ := Metric.eventually_nhds_iff.1 hev
    refine ⟨-ε, ε, min (ε / 2) (η / 2), y, by linarith, by positivity, (min_le_left _ _).trans_lt (by linarith), h0, fun t ht => (h t ht).1,
      fun t ht => (h t ht).2, fun t ht => (H ?_).le⟩
    rw [Real.dist_0_eq_abs, abs_of_nonneg ht.1]
    exact (ht.2.trans (min_le_right _ _)).trans_lt (by linarith)

/-- what it means: the error doubles within 13 minutes, and has grown by a factor of more than 240 after an hour -/
example : 2 ≤ Real.cosh (780 / 580) ∧ 240 ≤ Real.cosh (3600 / 580) := by
  have h : ∀ x : ℝ, Real.exp x / 2 ≤ Real.cosh x := fun x => by rw [Real.cosh_eq]; linarith [Real.exp_pos (-x)]
  have e1 := Real.exp_one_gt_d9
  constructor
  · have h2 := Real.quadratic_le_exp_of_nonneg (x := 200 / 580) (by norm_num)
    have h3 : Real.exp (780 / 580) = Real.exp 1 * Real.exp (200 / 580) := by rw [← Real.exp_add]; norm_num
    have h4 : Real.exp (-(780 / 580)) = (Real.exp (780 / 580))⁻¹ := Real.exp_neg _
    have h5 : (3.8 : ℝ) ≤ Real.exp (780 / 580) := by rw [h3]; nlinarith
    have h6 := h5
    rw [Real.cosh_eq, h4]
    have h7 := Real.exp_pos (780 / 580)
    have : Real.exp (780 / 580) * (Real.exp (780 / 580))⁻¹ = 1 := mul_inv_cancel₀ h7.ne'
    have h8 : 0 < (Real.exp (780 / 580))⁻¹ := inv_pos.2 h7
    nlinarith
  · refine le_trans ?_ (h _)
    have h2 := Real.quadratic_le_exp_of_nonneg (x := 120 / 580) (by norm_num)
    have h3 : Real.exp (3600 / 580) = Real.exp 1 ^ 6 * Real.exp (120 / 580) := by rw [← Real.exp_nat_mul, ← Real.exp_add]; norm_num
    have h4 : (2.718 : ℝ) ^ 6 ≤ Real.exp 1 ^ 6 := by gcongr; linarith
    rw [h3]
    nlinarith

end NavFuse.Props
