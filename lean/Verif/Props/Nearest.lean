import Verif.Props.Ellipsoid
import Mathlib.Analysis.InnerProductSpace.PiL2

/-! # C199: altitude is the distance from the ellipsoid -/

namespace NavFuse.Props
open Matrix Spec Gravity NavUtils Rotations

/-- distance of two points -/
noncomputable def dist3 (p q : V3 ℝ) : ℝ := Real.sqrt ((p 0 - q 0) ^ 2 + (p 1 - q 1) ^ 2 + (p 2 - q 2) ^ 2)

theorem dist3_eq (p q : V3 ℝ) : dist3 p q = dist (WithLp.toLp 2 p : EuclideanSpace ℝ (Fin 3)) (WithLp.toLp 2 q) := by
  rw [EuclideanSpace.dist_eq, dist3]
  simp [Fin.sum_univ_three, Real.dist_eq, sq_abs]

/-- a point on the normal through `s` is nearest to `s` among all points of the ellipsoid, down to the smallest radius of curvature -/
theorem foot_nearest {s q n : V3 ℝ} {c h : ℝ} (hs : OnEllipsoid s) (hq : OnEllipsoid q) (hc : 0 < c) (hca : c ≤ semiMajor) (hn : n = c • normalDir s)
    (hu : n ⬝ᵥ n = 1) (hh : -(semiMinor ^ 2 / semiMajor) < h) (hne : q ≠ s) :
    h ^ 2 < ((s + h • n) 0 - q 0) ^ 2 + ((s + h • n) 1 - q 1) ^ 2 + ((s + h • n) 2 - q 2) ^ 2 := by
  have hA : 0 < semiMajor ^ 2 := pow_pos semiMajor_pos 2
  have hB : 0 < semiMinor ^ 2 := pow_pos semiMinor_pos 2
  have hBA : semiMinor ^ 2 ≤ semiMajor ^ 2 := by norm_num [semiMinor, semiMajor, flattening]
  simp only [OnEllipsoid] at hs hq
  have n0 := congrFun hn 0; have n1 := congrFun hn 1; have n2 := congrFun hn 2
  simp [normalDir] at n0 n1 n2
  simp [dotProduct, Fin.sum_univ_three] at hu
  simp only [Pi.add_apply, Pi.smul_apply, smul_eq_mul]
  set D := (s 0 - q 0) ^ 2 + (s 1 - q 1) ^ 2 + (s 2 - q 2) ^ 2 with hD
  set Q := ((s 0 - q 0) ^ 2 + (s 1 - q 1) ^ 2) / semiMajor ^ 2 + (s 2 - q 2) ^ 2 / semiMinor ^ 2 with hQ
  have k1 : (s 0 - q 0) * n 0 + (s 1 - q 1) * n 1 + (s 2 - q 2) * n 2 = c / 2 * Q := by
    rw [n0, n1, n2, hQ]
    linear_combination (c / 2) * hs - (c / 2) * hq
  have Q0 : 0 ≤ Q := by positivity
  have D0 : 0 < D := by
    by_contra h0
    have a0 := sq_nonneg (s 0 - q 0); have a1 := sq_nonneg (s 1 - q 1); have a2 := sq_nonneg (s 2 - q 2)
    have b0 : s 0 - q 0 = 0 := pow_eq_zero_iff two_ne_zero |>.1 (by linarith)
    have b1 : s 1 - q 1 = 0 := pow_eq_zero_iff two_ne_zero |>.1 (by linarith)
    have b2 : s 2 - q 2 = 0 := pow_eq_zero_iff two_ne_zero |>.1 (by linarith)
    apply hne
    ext i; fin_cases i <;> simp <;> linarith
  have QD : Q ≤ D / semiMinor ^ 2 := by
    rw [hQ, hD, add_div _ _ (semiMinor ^ 2)]
    have : ((s 0 - q 0) ^ 2 + (s 1 - q 1) ^ 2) / semiMajor ^ 2 ≤ ((s 0 - q 0) ^ 2 + (s 1 - q 1) ^ 2) / semiMinor ^ 2 := div_le_div_of_nonneg_left (by positivity) hB hBA
    linarith
  have goal : 0 < D + h * (c * Q) := by
    rcases le_or_gt 0 h with h0 | h0
    · have := mul_nonneg h0 (mul_nonneg hc.le Q0); linarith
    · have h1 : c * Q ≤ semiMajor * (D / semiMinor ^ 2) := mul_le_mul hca QD Q0 semiMajor_pos.le
      have h2 : 0 < semiMajor * (D / semiMinor ^ 2) := mul_pos semiMajor_pos (div_pos D0 hB)
      have h3 : semiMinor ^ 2 / semiMajor * (semiMajor * (D / semiMinor ^ 2)) = D := by
        have := semiMajor_pos.ne'; have := semiMinor_pos.ne'; field_simp
      have h4 : h * (semiMajor * (D / semiMinor ^ 2)) ≤ h * (c * Q) := mul_le_mul_of_nonpos_left h1 h0.le
      have h5 := mul_lt_mul_of_pos_right hh h2
      linarith
  have e : (s 0 + h * n 0 - q 0) ^ 2 + (s 1 + h * n 1 - q 1) ^ 2 + (s 2 + h * n 2 - q 2) ^ 2 = D + h * (c * Q) + h ^ 2 := by
    rw [hD]; linear_combination (2 * h) * k1 + h ^ 2 * hu
  rw [e]; linarith

theorem c_le (lat : ℝ) : semiMajor * Real.sqrt (1 - ecc2 * Real.sin lat ^ 2) ≤ semiMajor := by
  have he : 0 ≤ ecc2 := by norm_num [ecc2, semiMinor, semiMajor, flattening]
  have : Real.sqrt (1 - ecc2 * Real.sin lat ^ 2) ≤ 1 := by
    refine Real.sqrt_le_one.2 ?_
    linarith [mul_nonneg he (sq_nonneg (Real.sin lat))]
  exact mul_le_of_le_one_right semiMajor_pos.le this

/-- C199: the altitude (its magnitude below the surface) is the distance of the point that `lla2Ecef` returns from the ellipsoid, and the point of the ellipsoid with the same latitude and
longitude is the only one at that distance; every other point of the ellipsoid is farther away. This holds down to 6335 km below the surface. -/
theorem C199_nearest (lat lon alt : ℝ) (hlat : |lat| ≤ Real.pi / 2) (hlon : |lon| ≤ Real.pi) (halt : -6335000 ≤ alt) (r0 : V3 ℝ) :
    dist3 (lla2Ecef lat lon alt r0).2 (lla2Ecef lat lon 0 r0).2 = |alt|
      ∧ ∀ q, OnEllipsoid q → q ≠ (lla2Ecef lat lon 0 r0).2 → |alt| < dist3 (lla2Ecef lat lon alt r0).2 q := by
  rw [lla2Ecef_R ⟨hlat, hlon⟩, lla2Ecef_R ⟨hlat, hlon⟩]
  refine ⟨?_, fun q hq hne => ?_⟩
  · have hu := upVec_unit lat lon
    simp only [dotProduct, Fin.sum_univ_three] at hu
    rw [ellPoint_split lat lon alt, dist3, ← Real.sqrt_sq_eq_abs]
    congr 1
    simp only [Pi.add_apply, Pi.smul_apply, smul_eq_mul]
    linear_combination alt ^ 2 * hu
  · have hb : -(semiMinor ^ 2 / semiMajor) < alt := by
      have : (6335000 : ℝ) < semiMinor ^ 2 / semiMajor := by norm_num [semiMinor, semiMajor, flattening]
      linarith
    have := foot_nearest (on_ellipsoid lat lon) hq (mul_pos semiMajor_pos (Real.sqrt_pos.2 (w_pos lat))) (c_le lat) (normal_dir lat lon) (upVec_unit lat lon) hb hne
    rw [dist3, ← Real.sqrt_sq_eq_abs]
    simp only [ellPoint_split lat lon alt]
    exact Real.sqrt_lt_sqrt (sq_nonneg _) this

/-- C199: the altitudes of two points, neither of them below the surface, differ by no more than their distance. -/
theorem C199_climb (lat lon alt lat' lon' alt' : ℝ) (hlat : |lat| ≤ Real.pi / 2) (hlon : |lon| ≤ Real.pi) (halt : 0 ≤ alt) (hlat' : |lat'| ≤ Real.pi / 2) (hlon' : |lon'| ≤ Real.pi)
    (halt' : 0 ≤ alt') (r0 : V3 ℝ) : |alt - alt'| ≤ dist3 (lla2Ecef lat lon alt r0).2 (lla2Ecef lat' lon' alt' r0).2 := by
  have key : ∀ a b h a' b' h' : ℝ, |a| ≤ Real.pi / 2 → |b| ≤ Real.pi → 0 ≤ h → |a'| ≤ Real.pi / 2 → |b'| ≤ Real.pi → 0 ≤ h' →
      h - h' ≤ dist3 (lla2Ecef a b h r0).2 (lla2Ecef a' b' h' r0).2 := fun a b h a' b' h' ha hb h0 ha' hb' h0' => by
    obtain ⟨e1, m1⟩ := C199_nearest a b h ha hb (by linarith) r0
    obtain ⟨e2, -⟩ := C199_nearest a' b' h' ha' hb' (by linarith) r0
    have on : OnEllipsoid (lla2Ecef a' b' 0 r0).2 := by rw [lla2Ecef_R ⟨ha', hb'⟩]; exact on_ellipsoid a' b'
    have le : h ≤ dist3 (lla2Ecef a b h r0).2 (lla2Ecef a' b' 0 r0).2 := by
      by_cases e : (lla2Ecef a' b' 0 r0).2 = (lla2Ecef a b 0 r0).2
      · rw [e, e1]; exact le_abs_self h
      · exact (le_abs_self h).trans (m1 _ on e).le
    rw [abs_of_nonneg h0'] at e2
    have tri : dist3 (lla2Ecef a b h r0).2 (lla2Ecef a' b' 0 r0).2
        ≤ dist3 (lla2Ecef a b h r0).2 (lla2Ecef a' b' h' r0).2 + dist3 (lla2Ecef a' b' h' r0).2 (lla2Ecef a' b' 0 r0).2 := by
      rw [dist3_eq, dist3_eq, dist3_eq]; exact dist_triangle _ _ _
    linarith
  refine abs_le.2 ⟨?_, key _ _ _ _ _ _ hlat hlon halt hlat' hlon' halt'⟩
  have := key lat' lon' alt' lat lon alt hlat' hlon' halt' hlat hlon halt
  have sym : dist3 (lla2Ecef lat' lon' alt' r0).2 (lla2Ecef lat lon alt r0).2 = dist3 (lla2Ecef lat lon alt r0).2 (lla2Ecef lat' lon' alt' r0).2 := by
    rw [dist3_eq, dist3_eq, dist_comm]
  linarith

/-- an airliner over 40° north, and the north pole as another point of the ellipsoid -/
example : |(0.7 : ℝ)| ≤ Real.pi / 2 ∧ (-6335000 : ℝ) ≤ 10000 ∧ OnEllipsoid ![0, 0, semiMinor] := by
  refine ⟨?_, by norm_num, ?_⟩
  · rw [abs_of_pos (by norm_num : (0 : ℝ) < 0.7)]; linarith [Real.two_le_pi]
  · have := semiMinor_pos.ne'
    simp [OnEllipsoid, this]

end NavFuse.Props
