import Verif.Lemmas.Ellipsoid
import Mathlib.Analysis.Real.Pi.Bounds

/-! # ECEF, NED and geodetic coordinates: C21–C24, C43 -/

set_option linter.unusedSectionVars false
set_option linter.unusedSimpArgs false

namespace NavFuse.Props
open Matrix Spec Gravity XR NavUtils Rotations

section anyScalar
variable {α : Type} [Add α] [Sub α] [Mul α] [Div α] [Neg α] [Flt α]

/-- C21, every arithmetic: the two functions accept the same inputs, and on accepted inputs the two matrices are transposes of each other entry
by entry, without any rounding difference. -/
theorem C21_bitwise_transpose (lat lon : α) (A0 B0 : M3 α) :
    (computeREcef2Ned lat lon A0).1 = (computeRNed2Ecef lat lon B0).1 ∧
    ((computeREcef2Ned lat lon A0).1 = true →
      ∀ i j, (computeREcef2Ned lat lon A0).2 i j = (computeRNed2Ecef lat lon B0).2 j i) := by
  unfold computeREcef2Ned computeRNed2Ecef
  cases latLonBad lat lon
  · refine ⟨rfl, fun _ i j => ?_⟩
    fin_cases i <;> fin_cases j <;> rfl
  · simp

/-- C20 for the ECEF/NED functions: a call that returns false leaves the caller's matrix or vector as it was. -/
theorem C20_ned_untouched (lat lon alt : α) (R0 : M3 α) (r0 : V3 α) :
    ((computeREcef2Ned lat lon R0).1 = false → (computeREcef2Ned lat lon R0).2 = R0) ∧
    ((computeRNed2Ecef lat lon R0).1 = false → (computeRNed2Ecef lat lon R0).2 = R0) ∧
    ((lla2Ecef lat lon alt r0).1 = false → (lla2Ecef lat lon alt r0).2 = r0) := by
  unfold computeREcef2Ned computeRNed2Ecef lla2Ecef
  cases latLonBad lat lon <;> simp
end anyScalar

example : (computeREcef2Ned (2 : ℝ) 0 0).1 = false := by
  have : latLonBad (2 : ℝ) 0 = true := by
    rw [bad_R]; rintro ⟨h, -⟩; rw [abs_of_pos (by norm_num : (0 : ℝ) < 2)] at h; linarith [Real.pi_lt_four]
  simp [computeREcef2Ned, this]

/-- C21: on accepted inputs both matrices are rotations and each is the inverse of the other. -/
theorem C21_inverse_rotations (lat lon : ℝ) (A0 B0 : M3 ℝ) (h : (computeREcef2Ned lat lon A0).1 = true) :
    IsRot (computeREcef2Ned lat lon A0).2 ∧ IsRot (computeRNed2Ecef lat lon B0).2 ∧
    (computeREcef2Ned lat lon A0).2 * (computeRNed2Ecef lat lon B0).2 = 1 ∧
    (computeRNed2Ecef lat lon B0).2 * (computeREcef2Ned lat lon A0).2 = 1 := by
  obtain ⟨hb, ht⟩ := C21_bitwise_transpose lat lon A0 B0
  have ht : (computeREcef2Ned lat lon A0).2 = ((computeRNed2Ecef lat lon B0).2)ᵀ := by ext i j; exact ht h i j
  have hr : InRange lat lon := by
    by_contra hn
    have := (bad_R lat lon).2 hn
    simp [computeREcef2Ned, this] at h
  rw [ht, ned2ecef_R hr]
  have hR := ned2ecef_isRot lat lon
  exact ⟨hR.transpose, hR, hR.tr_mul, hR.1⟩

/-- C22, finite inputs: success exactly in the closed ranges. -/
theorem C22_range_check (lat lon alt : ℝ) (R0 : M3 ℝ) (r0 : V3 ℝ) :
    ((computeREcef2Ned lat lon R0).1 = true ↔ |lat| ≤ Real.pi / 2 ∧ |lon| ≤ Real.pi) ∧
    ((computeRNed2Ecef lat lon R0).1 = true ↔ |lat| ≤ Real.pi / 2 ∧ |lon| ≤ Real.pi) ∧
    ((lla2Ecef lat lon alt r0).1 = true ↔ |lat| ≤ Real.pi / 2 ∧ |lon| ≤ Real.pi) := by
  have h := bad_R lat lon
  unfold computeREcef2Ned computeRNed2Ecef lla2Ecef
  by_cases hr : InRange lat lon
  · simp [bad_false hr]; exact hr
  · simp [h.2 hr]; simpa [InRange] using hr

example : (computeREcef2Ned (0.7 : ℝ) (-3) 0).1 = true := by
  rw [(C22_range_check _ _ 0 _ 0).1]
  constructor
  · rw [abs_of_pos (by norm_num : (0 : ℝ) < 0.7)]; linarith [Real.two_le_pi]
  · rw [abs_of_neg (by norm_num : (-3 : ℝ) < 0)]; linarith [Real.pi_gt_three]

/-- the value the check uses: NaN compares as "in range", infinities as out of range -/
def rejected (x : XR) (limit : ℝ) : Prop := x = pinf ∨ x = ninf ∨ ∃ r, x = fin r ∧ limit < |r|

/-- C22, all inputs including NaN and infinities: a call is rejected exactly when latitude or longitude is infinite or finite and out of range.
In particular a NaN latitude or longitude is accepted. -/
theorem C22_nan_accepted (lat lon alt : XR) (R0 : M3 XR) (r0 : V3 XR) :
    ((computeREcef2Ned lat lon R0).1 = false ↔ rejected lat (Real.pi / 2) ∨ rejected lon Real.pi) ∧
    ((computeRNed2Ecef lat lon R0).1 = false ↔ rejected lat (Real.pi / 2) ∨ rejected lon Real.pi) ∧
    ((lla2Ecef lat lon alt r0).1 = false ↔ rejected lat (Real.pi / 2) ∨ rejected lon Real.pi) := by
  have hx : ∀ (x : XR) (l : ℝ), Flt.lt (fin l) (Flt.abs x) = true ↔ rejected x l := by
    intro x l
    cases x with
    | nan => simp only [X_abs_nan, X_lt_nan]; simp [rejected]
    | pinf => simp [rejected]; rfl
    | ninf => simp [rejected]; rfl
    | fin r => simp only [X_abs, X_lt, rsimp]; simp [rejected]
  have hb : latLonBad lat lon = true ↔ rejected lat (Real.pi / 2) ∨ rejected lon Real.pi := by
    rw [← hx, ← hx]
    simp only [latLonBad, xsimp, Bool.or_eq_true]
    rw [fin_div _ _ two_ne_zero]
  unfold computeREcef2Ned computeRNed2Ecef lla2Ecef
  cases hq : latLonBad lat lon
  · have : ¬(rejected lat (Real.pi / 2) ∨ rejected lon Real.pi) := by rw [← hb, hq]; simp
    simp [this]
  · have := hb.1 hq
    simp [this]

/-- A NaN latitude with longitude zero is accepted, and the returned matrix contains NaN. -/
example (R0 : M3 XR) : (computeREcef2Ned nan (fin 0) R0).1 = true ∧ (computeREcef2Ned nan (fin 0) R0).2 0 2 = nan := by
  have h : latLonBad nan (fin 0) = false := by
    simp only [latLonBad, xsimp, abs_zero, Bool.false_or]
    rw [← Bool.not_eq_true, R_lt, not_lt]; exact Real.pi_pos.le
  have hc : (Flt.cos nan : XR) = nan := rfl
  simp [computeREcef2Ned, h, hc]

/-- C23: the columns of the NED-to-ECEF matrix are the directions in which `lla2Ecef` moves when latitude, longitude and altitude increase
(down being minus altitude), with the metric factors of the ellipsoid: meridian radius plus altitude, prime-vertical radius plus altitude
times the cosine of latitude, and one. -/
theorem C23_tangent_frame (lat lon alt : ℝ) (hlat : |lat| < Real.pi / 2) (hlon : |lon| < Real.pi) (r0 : V3 ℝ) (R0 : M3 ℝ) :
    let R := (computeRNed2Ecef lat lon R0).2
    HasDerivAt (fun t => (lla2Ecef t lon alt r0).2) ((meridian lat + alt) • (fun i => R i 0)) lat ∧
    HasDerivAt (fun t => (lla2Ecef lat t alt r0).2) (((primeVertical lat + alt) * Real.cos lat) • (fun i => R i 1)) lon ∧
    HasDerivAt (fun t => (lla2Ecef lat lon t r0).2) (-(fun i => R i 2)) alt := by
  have hr : InRange lat lon := ⟨hlat.le, hlon.le⟩
  rw [ned2ecef_R hr]
  have e1 : (fun t => (lla2Ecef t lon alt r0).2) =ᶠ[nhds lat] fun t => ellPoint t lon alt := by
    filter_upwards [continuous_abs.continuousAt.eventually_lt continuousAt_const hlat] with t ht
    rw [lla2Ecef_R ⟨le_of_lt ht, hlon.le⟩]
  have e2 : (fun t => (lla2Ecef lat t alt r0).2) =ᶠ[nhds lon] fun t => ellPoint lat t alt := by
    filter_upwards [continuous_abs.continuousAt.eventually_lt continuousAt_const hlon] with t ht
    rw [lla2Ecef_R ⟨hlat.le, le_of_lt ht⟩]
  have e3 : (fun t => (lla2Ecef lat lon t r0).2) = fun t => ellPoint lat lon t := by
    ext1 t; rw [lla2Ecef_R hr]
  refine ⟨?_, ?_, ?_⟩
  · refine ((hasDerivAt_ellPoint (hasDerivAt_id lat) (hasDerivAt_const lat lon) (hasDerivAt_const lat alt)).congr_deriv ?_).congr_of_eventuallyEq e1
    ext i; fin_cases i <;> simp [mulVec, dotProduct, Fin.sum_univ_three, mul_comm]
  · refine ((hasDerivAt_ellPoint (hasDerivAt_const lon lat) (hasDerivAt_id lon) (hasDerivAt_const lon alt)).congr_deriv ?_).congr_of_eventuallyEq e2
    ext i; fin_cases i <;> simp [mulVec, dotProduct, Fin.sum_univ_three, mul_comm]
  · rw [e3]
    refine (hasDerivAt_ellPoint (hasDerivAt_const alt lat) (hasDerivAt_const alt lon) (hasDerivAt_id alt)).congr_deriv ?_
    ext i; fin_cases i <;> simp [mulVec, dotProduct, Fin.sum_univ_three, mul_comm]

example : |(0.7 : ℝ)| < Real.pi / 2 ∧ |(-3 : ℝ)| < Real.pi := by
  constructor
  · rw [abs_of_pos (by norm_num : (0 : ℝ) < 0.7)]; linarith [Real.two_le_pi]
  · rw [abs_of_neg (by norm_num : (-3 : ℝ) < 0)]; linarith [Real.pi_gt_three]

/-- C43: a vehicle whose latitude, longitude and altitude change at the rates which `strapdownDynamics` returns for the velocity `v` moves, in ECEF
coordinates, with exactly the velocity `v` rotated from NED to ECEF. -/
theorem C43_kinematics (lat lon h : ℝ → ℝ) (t : ℝ) (v dVN g : V3 ℝ) (dt : ℝ) (f0 f : Fin 6 → ℝ)
    (hlat : |lat t| < Real.pi / 2) (hlon : |lon t| < Real.pi) (hr : RegularPos (lat t) (h t))
    (hf : strapdownDynamics ⟨6, ![lat t, lon t, h t, v 0, v 1, v 2]⟩ ⟨6, f0⟩ dVN g dt = .ok (true, ⟨6, f⟩))
    (h1 : HasDerivAt lat (f 0) t) (h2 : HasDerivAt lon (f 1) t) (h3 : HasDerivAt h (f 2) t) (r0 : V3 ℝ) (R0 : M3 ℝ) :
    HasDerivAt (fun t => (lla2Ecef (lat t) (lon t) (h t) r0).2) ((computeRNed2Ecef (lat t) (lon t) R0).2 *ᵥ v) t := by
  rw [dyn_eval, dyn_R] at hf
  injection hf with hf
  injection hf with _ hf
  injection hf with _ hf
  have e : (fun t => (lla2Ecef (lat t) (lon t) (h t) r0).2) =ᶠ[nhds t] fun t => ellPoint (lat t) (lon t) (h t) := by
    filter_upwards [(continuous_abs.continuousAt.comp h1.continuousAt).eventually_lt continuousAt_const hlat,
      (continuous_abs.continuousAt.comp h2.continuousAt).eventually_lt continuousAt_const hlon] with s hs1 hs2
    rw [lla2Ecef_R ⟨le_of_lt hs1, le_of_lt hs2⟩]
  refine ((hasDerivAt_ellPoint h1 h2 h3).congr_deriv ?_).congr_of_eventuallyEq e
  rw [ned2ecef_R ⟨hlat.le, hlon.le⟩, ← hf]
  congr 1
  have := hr.pole; have := hr.merid; have := hr.prime
  ext i
  fin_cases i
  · simp [navRates, posRates]; field_simp
  · simp [navRates, posRates]; field_simp
  · simp [navRates, posRates]

/-- Straight-line curves through a regular point with those rates exist, so the hypotheses can be met by every regular state. -/
example (y : Fin 6 → ℝ) (dVN g : V3 ℝ) (dt : ℝ) (f0 : Fin 6 → ℝ) : ∃ f : Fin 6 → ℝ,
    strapdownDynamics ⟨6, y⟩ ⟨6, f0⟩ dVN g dt = .ok (true, ⟨6, f⟩) ∧ HasDerivAt (fun s => y 0 + s * f 0) (f 0) 0 := by
  refine ⟨_, dyn_eval _ _ _ _ _, ?_⟩
  simpa using ((hasDerivAt_id (0 : ℝ)).mul_const _).const_add (y 0)

end NavFuse.Props
