import Verif.Lemmas.Ellipsoid
import Mathlib.Analysis.Real.Pi.Bounds

/-! # `lla2Ecef` describes the ellipsoid: C24 -/

set_option linter.unusedSimpArgs false

namespace NavFuse.Props
open Matrix Spec Gravity NavUtils Rotations

/-- the equation of the reference ellipsoid with semi-axes `a`, `a`, `b` -/
def OnEllipsoid (r : V3 ℝ) : Prop := (r 0 ^ 2 + r 1 ^ 2) / semiMajor ^ 2 + r 2 ^ 2 / semiMinor ^ 2 = 1

/-- half the gradient of the left-hand side of that equation: the direction of the outward normal -/
noncomputable def normalDir (r : V3 ℝ) : V3 ℝ := ![r 0 / semiMajor ^ 2, r 1 / semiMajor ^ 2, r 2 / semiMinor ^ 2]

theorem semiMinor_sq : semiMinor ^ 2 = semiMajor ^ 2 * (1 - ecc2) := by
  have := semiMajor_pos.ne'
  simp only [ecc2]; field_simp; ring

theorem semiMinor_pos : 0 < semiMinor := by norm_num [semiMinor, semiMajor, flattening]

/-- outward unit normal at geodetic latitude and longitude -/
noncomputable def upVec (lat lon : ℝ) : V3 ℝ := ![Real.cos lat * Real.cos lon, Real.cos lat * Real.sin lon, Real.sin lat]

theorem upVec_unit (lat lon : ℝ) : upVec lat lon ⬝ᵥ upVec lat lon = 1 := by
  have h1 := Real.sin_sq_add_cos_sq lat
  have h2 := Real.sin_sq_add_cos_sq lon
  simp [upVec, dotProduct, Fin.sum_univ_three]; grind

theorem ellPoint_split (lat lon h : ℝ) : ellPoint lat lon h = ellPoint lat lon 0 + h • upVec lat lon := by
  ext i; fin_cases i <;> simp [ellPoint, upVec] <;> ring

theorem on_ellipsoid (lat lon : ℝ) : OnEllipsoid (ellPoint lat lon 0) := by
  have hW := (Real.sqrt_pos.2 (w_pos lat)).ne'
  have h2 := W_sq lat
  have h1 := Real.sin_sq_add_cos_sq lat
  have h3 := Real.sin_sq_add_cos_sq lon
  have ha := semiMajor_pos.ne'
  have he : (1 : ℝ) - ecc2 ≠ 0 := by linarith [ecc2_lt]
  simp only [OnEllipsoid, semiMinor_sq, ellPoint, primeVertical, Matrix.cons_val, add_zero]
  generalize Real.sqrt (1 - ecc2 * Real.sin lat ^ 2) = W at *
  field_simp
  rw [h2]
  have hc : Real.cos lat ^ 2 = 1 - Real.sin lat ^ 2 := by linarith
  have hl : Real.cos lon ^ 2 = 1 - Real.sin lon ^ 2 := by linarith
  rw [hc, hl]; ring

theorem normal_dir (lat lon : ℝ) : upVec lat lon
    = (semiMajor * Real.sqrt (1 - ecc2 * Real.sin lat ^ 2)) • normalDir (ellPoint lat lon 0) := by
  have hW := (Real.sqrt_pos.2 (w_pos lat)).ne'
  have ha := semiMajor_pos.ne'
  have he : (1 : ℝ) - ecc2 ≠ 0 := by linarith [ecc2_lt]
  ext i
  fin_cases i <;> simp [upVec, normalDir, semiMinor_sq, ellPoint, primeVertical] <;>
    generalize Real.sqrt (1 - ecc2 * Real.sin lat ^ 2) = W at * <;> field_simp

/-- C24: points with altitude zero lie on the ellipsoid with semi-axes `a` and `a (1 - f)`, and a point with altitude `alt` is reached from there
by moving `alt` metres along the outward unit normal of the ellipsoid. -/
theorem C24_altitude_along_normal (lat lon alt : ℝ) (hlat : |lat| ≤ Real.pi / 2) (hlon : |lon| ≤ Real.pi) (r0 : V3 ℝ) :
    let s := (lla2Ecef lat lon 0 r0).2
    OnEllipsoid s ∧ ∃ (n : V3 ℝ) (c : ℝ), n ⬝ᵥ n = 1 ∧ 0 < c ∧ n = c • normalDir s ∧ lla2Ecef lat lon alt r0 = (true, s + alt • n) := by
  rw [lla2Ecef_R ⟨hlat, hlon⟩, lla2Ecef_R ⟨hlat, hlon⟩]
  exact ⟨on_ellipsoid lat lon, upVec lat lon, _, upVec_unit lat lon,
    mul_pos semiMajor_pos (Real.sqrt_pos.2 (w_pos lat)), normal_dir lat lon, by rw [← ellPoint_split]⟩

example : |(0.7 : ℝ)| ≤ Real.pi / 2 ∧ |(-3 : ℝ)| ≤ Real.pi := by
  constructor
  · rw [abs_of_pos (by norm_num : (0 : ℝ) < 0.7)]; linarith [Real.two_le_pi]
  · rw [abs_of_neg (by norm_num : (-3 : ℝ) < 0)]; linarith [Real.pi_gt_three]

theorem nonpos_of_neg_mul_nonneg {c q : ℝ} (hc : 0 < c) (h : 0 ≤ -c * q) : q ≤ 0 := by
  by_contra hq
  have := mul_pos hc (not_le.1 hq)
  linarith

/-- Two points at non-negative distance along the outward normals of the ellipsoid: equal points have equal feet. -/
theorem foot_unique {s s' n n' : V3 ℝ} {c c' h h' : ℝ} (hs : OnEllipsoid s) (hs' : OnEllipsoid s') (hc : 0 < c) (hc' : 0 < c')
    (hn : n = c • normalDir s) (hn' : n' = c' • normalDir s') (hu : n ⬝ᵥ n = 1) (hu' : n' ⬝ᵥ n' = 1) (h0 : 0 ≤ h) (h0' : 0 ≤ h')
    (he : s + h • n = s' + h' • n') : s = s' := by
  have hA : 0 < semiMajor ^ 2 := pow_pos semiMajor_pos 2
  have hB : 0 < semiMinor ^ 2 := pow_pos semiMinor_pos 2
  simp only [OnEllipsoid] at hs hs'
  have e0 := congrFun he 0; have e1 := congrFun he 1; have e2 := congrFun he 2
  have n0 := congrFun hn 0; have n1 := congrFun hn 1; have n2 := congrFun hn 2
  have m0 := congrFun hn' 0; have m1 := congrFun hn' 1; have m2 := congrFun hn' 2
  simp only [Pi.add_apply, Pi.smul_apply, smul_eq_mul] at e0 e1 e2
  simp [normalDir] at n0 n1 n2 m0 m1 m2
  simp [dotProduct, Fin.sum_univ_three] at hu hu'
  -- quadratic distance between the feet
  have hq : 0 ≤ ((s 0 - s' 0) ^ 2 + (s 1 - s' 1) ^ 2) / semiMajor ^ 2 + (s 2 - s' 2) ^ 2 / semiMinor ^ 2 := by positivity
  have hd : n 0 * n' 0 + n 1 * n' 1 + n 2 * n' 2 ≤ 1 := by
    nlinarith [sq_nonneg (n 0 - n' 0), sq_nonneg (n 1 - n' 1), sq_nonneg (n 2 - n' 2)]
  have k1 : (s' 0 - s 0) * n 0 + (s' 1 - s 1) * n 1 + (s' 2 - s 2) * n 2
      = -(c / 2) * (((s 0 - s' 0) ^ 2 + (s 1 - s' 1) ^ 2) / semiMajor ^ 2 + (s 2 - s' 2) ^ 2 / semiMinor ^ 2) := by
    rw [n0, n1, n2]
    linear_combination (-c / 2) * hs + (c / 2) * hs'
  have k2 : (s 0 - s' 0) * n' 0 + (s 1 - s' 1) * n' 1 + (s 2 - s' 2) * n' 2
      = -(c' / 2) * (((s 0 - s' 0) ^ 2 + (s 1 - s' 1) ^ 2) / semiMajor ^ 2 + (s 2 - s' 2) ^ 2 / semiMinor ^ 2) := by
    rw [m0, m1, m2]
    linear_combination (c' / 2) * hs + (-c' / 2) * hs'
  generalize hQ : ((s 0 - s' 0) ^ 2 + (s 1 - s' 1) ^ 2) / semiMajor ^ 2 + (s 2 - s' 2) ^ 2 / semiMinor ^ 2 = Q at *
  have k3 : (h + h') * (1 - (n 0 * n' 0 + n 1 * n' 1 + n 2 * n' 2)) = -((c + c') / 2) * Q := by
    have d0 : s' 0 - s 0 = h * n 0 - h' * n' 0 := by linarith
    have d1 : s' 1 - s 1 = h * n 1 - h' * n' 1 := by linarith
    have d2 : s' 2 - s 2 = h * n 2 - h' * n' 2 := by linarith
    have d0' : s 0 - s' 0 = h' * n' 0 - h * n 0 := by linarith
    have d1' : s 1 - s' 1 = h' * n' 1 - h * n 1 := by linarith
    have d2' : s 2 - s' 2 = h' * n' 2 - h * n 2 := by linarith
    rw [d0, d1, d2] at k1
    rw [d0', d1', d2'] at k2
    linear_combination k1 + k2 - h * hu - h' * hu'
  have hQ0 : Q = 0 := by
    have : 0 ≤ (h + h') * (1 - (n 0 * n' 0 + n 1 * n' 1 + n 2 * n' 2)) := mul_nonneg (by linarith) (by linarith)
    rw [k3] at this
    exact le_antisymm (nonpos_of_neg_mul_nonneg (c := (c + c') / 2) (by linarith) this) hq
  rw [hQ0] at hQ
  have z1 : 0 ≤ ((s 0 - s' 0) ^ 2 + (s 1 - s' 1) ^ 2) / semiMajor ^ 2 := by positivity
  have z2 : 0 ≤ (s 2 - s' 2) ^ 2 / semiMinor ^ 2 := by positivity
  have y1 : (s 0 - s' 0) ^ 2 + (s 1 - s' 1) ^ 2 = 0 := by
    have : ((s 0 - s' 0) ^ 2 + (s 1 - s' 1) ^ 2) / semiMajor ^ 2 = 0 := by linarith
    rcases div_eq_zero_iff.1 this with h | h
    · exact h
    · exact absurd h hA.ne'
  have y2 : (s 2 - s' 2) ^ 2 = 0 := by
    have : (s 2 - s' 2) ^ 2 / semiMinor ^ 2 = 0 := by linarith
    rcases div_eq_zero_iff.1 this with h | h
    · exact h
    · exact absurd h hB.ne'
  have x0 : s 0 - s' 0 = 0 := pow_eq_zero_iff (two_ne_zero) |>.1 (by linarith [sq_nonneg (s 0 - s' 0), sq_nonneg (s 1 - s' 1)])
  have x1 : s 1 - s' 1 = 0 := pow_eq_zero_iff (two_ne_zero) |>.1 (by linarith [sq_nonneg (s 0 - s' 0), sq_nonneg (s 1 - s' 1)])
  have x2 : s 2 - s' 2 = 0 := by simpa using y2
  ext i
  fin_cases i <;> simp <;> linarith

theorem cos_sin_inj {x y : ℝ} (hx : -Real.pi < x ∧ x ≤ Real.pi) (hy : -Real.pi < y ∧ y ≤ Real.pi) (hc : Real.cos x = Real.cos y)
    (hs : Real.sin x = Real.sin y) : x = y := by
  have h1 : Real.cos (x - y) = 1 := by rw [Real.cos_sub, hc, hs]; linarith [Real.sin_sq_add_cos_sq y, sq (Real.cos y), sq (Real.sin y)]
  have := (Real.cos_eq_one_iff_of_lt_of_lt (by linarith) (by linarith)).1 h1
  linarith

/-- C24: off the poles and on or above the ellipsoid, different geodetic coordinates give different points. (Longitudes range over the half-open
interval: `-π` and `π` are the same meridian.) -/
theorem C24_injective (lat lon alt lat' lon' alt' : ℝ) (r0 r0' : V3 ℝ)
    (hlat : |lat| < Real.pi / 2) (hlon : -Real.pi < lon ∧ lon ≤ Real.pi) (halt : 0 ≤ alt)
    (hlat' : |lat'| < Real.pi / 2) (hlon' : -Real.pi < lon' ∧ lon' ≤ Real.pi) (halt' : 0 ≤ alt')
    (he : lla2Ecef lat lon alt r0 = lla2Ecef lat' lon' alt' r0') : lat = lat' ∧ lon = lon' ∧ alt = alt' := by
  rw [lla2Ecef_R ⟨hlat.le, abs_le.2 ⟨hlon.1.le, hlon.2⟩⟩, lla2Ecef_R ⟨hlat'.le, abs_le.2 ⟨hlon'.1.le, hlon'.2⟩⟩] at he
  injection he with _ he
  rw [ellPoint_split lat, ellPoint_split lat'] at he
  have hfoot := foot_unique (on_ellipsoid lat lon) (on_ellipsoid lat' lon')
    (mul_pos semiMajor_pos (Real.sqrt_pos.2 (w_pos lat))) (mul_pos semiMajor_pos (Real.sqrt_pos.2 (w_pos lat')))
    (normal_dir lat lon) (normal_dir lat' lon') (upVec_unit _ _) (upVec_unit _ _) halt halt' he
  have hn : upVec lat lon = upVec lat' lon' := by
    have p1 := upVec_unit lat lon
    have p2 := upVec_unit lat' lon'
    have e1 := normal_dir lat lon
    have e2 := normal_dir lat' lon'
    rw [← hfoot] at e2
    have c1 := mul_pos semiMajor_pos (Real.sqrt_pos.2 (w_pos lat))
    have c2 := mul_pos semiMajor_pos (Real.sqrt_pos.2 (w_pos lat'))
    generalize semiMajor * Real.sqrt (1 - ecc2 * Real.sin lat ^ 2) = c at *
    generalize semiMajor * Real.sqrt (1 - ecc2 * Real.sin lat' ^ 2) = c' at *
    generalize normalDir (ellPoint lat lon 0) = w at *
    rw [e1] at p1; rw [e2] at p2
    simp only [smul_dotProduct, dotProduct_smul, smul_eq_mul] at p1 p2
    have hcc : c = c' := by
      have hw : w ⬝ᵥ w ≠ 0 := by intro h; rw [h] at p1; simp at p1
      have : c ^ 2 = c' ^ 2 := by
        apply mul_right_cancel₀ hw; linarith
      nlinarith
    rw [e1, e2, hcc]
  have halt_eq : alt = alt' := by
    rw [hfoot, hn] at he
    have := add_left_cancel he
    have h3 := congrArg (fun v => v ⬝ᵥ upVec lat' lon') this
    simpa [smul_dotProduct, upVec_unit] using h3
  have h2 := congrFun hn 2
  simp [upVec] at h2
  have hl : lat = lat' := by
    have a1 := abs_lt.1 hlat; have a2 := abs_lt.1 hlat'
    exact Real.injOn_sin ⟨a1.1.le, a1.2.le⟩ ⟨a2.1.le, a2.2.le⟩ h2
  subst hl
  have hcos : Real.cos lat ≠ 0 := (Real.cos_pos_of_mem_Ioo (abs_lt.1 hlat)).ne'
  have h0 := congrFun hn 0; have h1 := congrFun hn 1
  simp [upVec, hcos] at h0 h1
  exact ⟨rfl, cos_sin_inj hlon hlon' h0 h1, halt_eq⟩

end NavFuse.Props
