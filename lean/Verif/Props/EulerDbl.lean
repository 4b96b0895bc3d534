import Verif.Lemmas.RoundEuler
import Verif.Props.KalmanDbl
import Mathlib.Analysis.Real.Pi.Bounds

/-! # C138: Euler angles in double precision -/

namespace NavFuse.Props
open Matrix NavFuse.Spec NavFuse.Attitude
variable [Machine] {r : ℝ → ℝ}

/-- Angles with which `dcm2Euler` can be used with rounded matrices: roll and pitch within a quarter turn, heading in the half turn from north over east to
south, and none of them too close to the end of its range or (for the heading) to east. -/
structure Recoverable (roll pitch hdg : ℝ) : Prop where
  hroll : roll ∈ Set.Ioo (-(Real.pi / 2)) (Real.pi / 2)
  hpitch : pitch ∈ Set.Ioo (-(Real.pi / 2)) (Real.pi / 2)
  hhdg : hdg ∈ Set.Ioo 0 Real.pi
  steep : 1e-3 ≤ Real.cos pitch
  side : 1e-5 ≤ Real.cos roll
  east : 1e-5 ≤ |Real.cos hdg|
  north : 1e-10 ≤ Real.sin hdg

/-- C138, angles to matrix. For all finite angles `euler2Dcm` succeeds without overflow or NaN, and every entry is within 1.5·10⁻¹⁴ of the exact matrix
(the transpose of the documented one, see C35). -/
theorem C138_dcm (h : Rounds53 r) (e : V3 ℝ) :
    ∃ R : M3 ℝ, euler2Dcm (fun i => (Dbl.fin (e i) : Dbl r)) = (true, dM R) ∧ ∀ i j, |R i j - (bodyToNed (e 0) (e 1) (e 2))ᵀ i j| ≤ 1.5e-14 := by
  have a := euler_ap h e
  refine ⟨of fun i j => ((euler2Dcm (fun i => (⟨e i⟩ : Rnd r))).2 i j).val, Prod.ext rfl ?_, fun i j => (a i j).err⟩
  ext i j
  exact (a i j).sim

set_option maxHeartbeats 1600000 in
/-- C138, matrix to angles. (Full claim: for all angles with cosine of the pitch at least 10⁻³; missing: westerly headings, inverted flight, and the neighbourhoods excluded by `Recoverable`.) Every matrix within 1.5·10⁻¹⁴ of the exact one for recoverable angles gives success, no overflow and no NaN, and those angles within
5·10⁻¹⁴ divided by the cosine of the pitch. -/
theorem C138_angles_partial (h : Rounds53 r) {roll pitch hdg : ℝ} (g : Recoverable roll pitch hdg) (R : M3 ℝ)
    (hR : ∀ i j, |R i j - (bodyToNed roll pitch hdg)ᵀ i j| ≤ 1.5e-14) (e0 : V3 (Dbl r)) :
    ∃ a : V3 ℝ, dcm2Euler (dM R) e0 = (true, fun i => .fin (a i))
      ∧ ∀ i, |a i - ![roll, pitch, hdg] i| ≤ 5e-14 / Real.cos pitch := by
  have rot := (bodyToNed_isRot roll pitch hdg).transpose
  have m : ∀ i j, Aj (dM R i j : Dbl r) ⟨R i j⟩ ((bodyToNed roll pitch hdg)ᵀ i j) 1.5e-14 1 := fun i j => ⟨rfl, hR i j, rot.entry_le i j⟩
  rw [bodyToNed_tr] at m
  have cp := g.steep
  have cp0 : 0 < Real.cos pitch := lt_of_lt_of_le (by norm_num) cp
  have cp1 := Real.cos_le_one pitch
  have cr := g.side
  have ce := g.east
  have m00 : Aj (dM R 0 0 : Dbl r) ⟨R 0 0⟩ (Real.cos pitch * Real.cos hdg) 1.5e-14 1 := m 0 0
  have m01 : Aj (dM R 0 1 : Dbl r) ⟨R 0 1⟩ (Real.cos pitch * Real.sin hdg) 1.5e-14 1 := m 0 1
  have m02 : Aj (dM R 0 2 : Dbl r) ⟨R 0 2⟩ (Real.sin (-pitch)) 1.5e-14 1 := by rw [Real.sin_neg]; exact m 0 2
  have m12 : Aj (dM R 1 2 : Dbl r) ⟨R 1 2⟩ (Real.sin roll * Real.cos pitch) 1.5e-14 1 := m 1 2
  have m22 : Aj (dM R 2 2 : Dbl r) ⟨R 2 2⟩ (Real.cos roll * Real.cos pitch) 1.5e-14 1 := m 2 2
  have k00 : 1e-8 ≤ |Real.cos pitch * Real.cos hdg| := by
    rw [abs_mul, abs_of_pos cp0]
    exact le_trans (by norm_num) (mul_le_mul cp ce (by norm_num) cp0.le)
  have k22 : 1e-8 ≤ Real.cos roll * Real.cos pitch := le_trans (by norm_num) (mul_le_mul cr cp (by norm_num) (by norm_num at *; linarith))
  have k22' : 1e-8 ≤ |Real.cos roll * Real.cos pitch| := k22.trans (le_abs_self _)
  -- the three angles
  have hE : 3 / 2 * 1.5e-14 / (Real.cos pitch - 3 / 2 * 1.5e-14) + 7e-16 ≤ 2.33e-14 / Real.cos pitch := by
    have hc : (1 - 1e-10) * Real.cos pitch ≤ Real.cos pitch - 3 / 2 * 1.5e-14 := by norm_num at *; linarith
    have h1 : 3 / 2 * 1.5e-14 / (Real.cos pitch - 3 / 2 * 1.5e-14) ≤ 2.2501e-14 / Real.cos pitch := by
      rw [div_le_div_iff₀ (by norm_num at *; linarith) cp0]; norm_num at *; linarith
    have h2 : (7e-16 : ℝ) ≤ 7e-16 / Real.cos pitch := by rw [le_div_iff₀ cp0]; norm_num at *; linarith
    have h3 : 2.33e-14 / Real.cos pitch = 2.2501e-14 / Real.cos pitch + 7.99e-16 / Real.cos pitch := by rw [← add_div]; norm_num
    have h4 : 7e-16 / Real.cos pitch ≤ 7.99e-16 / Real.cos pitch := div_le_div_of_nonneg_right (by norm_num) cp0.le
    linarith
  have hE2 : 2.33e-14 / Real.cos pitch ≤ 2.33e-11 := by rw [div_le_iff₀ cp0]; norm_num at *; linarith
  obtain ⟨ar, -⟩ := m12.atan_quot h m22 (by norm_num at *; linarith) cp0 (by nlinarith [Real.sin_sq_add_cos_sq roll]) (by norm_num at *; linarith) hE
    (by norm_num at *; linarith)
  obtain ⟨ah, -⟩ := m01.atan_quot h m00 (by norm_num at *; linarith) cp0 (by nlinarith [Real.sin_sq_add_cos_sq hdg]) (by norm_num at *; linarith) hE
    (by norm_num at *; linarith)
  have hE3 : 3.1 * 1.5e-14 / Real.cos pitch + 4e-16 ≤ 5e-14 / Real.cos pitch := by
    have h2 : (4e-16 : ℝ) ≤ 4e-16 / Real.cos pitch := by rw [le_div_iff₀ cp0]; norm_num at *; linarith
    have h3 : 5e-14 / Real.cos pitch = 3.1 * 1.5e-14 / Real.cos pitch + 3.5e-15 / Real.cos pitch := by rw [← add_div]; norm_num
    have h4 : 4e-16 / Real.cos pitch ≤ 3.5e-15 / Real.cos pitch := div_le_div_of_nonneg_right (by norm_num) cp0.le
    linarith
  have hE4 : 5e-14 / Real.cos pitch ≤ 5e-11 := by rw [div_le_iff₀ cp0]; norm_num at *; linarith
  have np : -pitch ∈ Set.Ioo (-(Real.pi / 2)) (Real.pi / 2) := ⟨by linarith [g.hpitch.2], by linarith [g.hpitch.1]⟩
  have apn := m02.asin h np (c := Real.cos pitch) (by rw [Real.cos_neg]) (by norm_num at *; nlinarith) cp0 hE3 (by norm_num at *; linarith)
  have ap := apn.neg
  rw [neg_neg] at ap
  have er : Real.arctan (Real.sin roll * Real.cos pitch / (Real.cos roll * Real.cos pitch)) = roll := by
    rw [mul_div_mul_right _ _ cp0.ne', ← Real.tan_eq_sin_div_cos, Real.arctan_tan g.hroll.1 g.hroll.2]
  have eh : Real.arctan (Real.cos pitch * Real.sin hdg / (Real.cos pitch * Real.cos hdg)) = Real.arctan (Real.tan hdg) := by
    rw [mul_div_mul_left _ _ cp0.ne', ← Real.tan_eq_sin_div_cos]
  rw [er] at ar
  rw [eh] at ah
  have z : Aj (Flt.lit 0 : Dbl r) (Flt.lit 0 : Rnd r) 0 0 0 := by simpa using Aj.lit h 0 (N := 0) (D := 0) (by norm_num) (by norm_num)
  -- the heading is lifted by half a turn exactly when it should be
  have hn := g.north
  obtain ⟨b, hb⟩ : ∃ b : Rnd r, Aj (if Flt.lt (Flt.atan (dM R 0 1 / dM R 0 0 : Dbl r)) (Flt.lit 0) then Flt.atan (dM R 0 1 / dM R 0 0 : Dbl r) + Flt.pi
      else Flt.atan (dM R 0 1 / dM R 0 0 : Dbl r)) b hdg (5e-14 / Real.cos pitch) 4 := by
    have c0 : Real.cos hdg ≠ 0 := by intro h0; rw [h0] at ce; norm_num at ce
    have pi3 := Real.pi_lt_d2
    rcases lt_or_gt_of_ne c0 with hc | hc
    · have hh : Real.pi / 2 < hdg := by
        by_contra hle
        have := Real.cos_nonneg_of_mem_Icc (x := hdg) ⟨by linarith [g.hhdg.1, Real.pi_pos], by linarith⟩
        linarith
      have et : Real.arctan (Real.tan hdg) = hdg - Real.pi := by
        rw [← Real.tan_sub_pi, Real.arctan_tan (by linarith) (by linarith [g.hhdg.2, Real.pi_pos])]
      rw [et] at ah
      have hs : Real.sin hdg ≤ Real.pi - hdg := by
        rw [← Real.sin_pi_sub]; exact Real.sin_le (by linarith [g.hhdg.2])
      rw [if_pos (ah.lt_true z (by norm_num at *; linarith))]
      refine ⟨_, ((ah.add h (Aj.pi h) (D := 5e-14 / Real.cos pitch) (N := 4.8) ?_ (by norm_num) (by norm_num) (by norm_num at *; linarith)).congr (y' := hdg) (by ring)).bound ?_⟩
      · have h2 : (2.3e-15 : ℝ) ≤ 2.3e-15 / Real.cos pitch := by rw [le_div_iff₀ cp0]; norm_num at *; linarith
        have h3 : 5e-14 / Real.cos pitch = 2.33e-14 / Real.cos pitch + 2.3e-15 / Real.cos pitch + 2.44e-14 / Real.cos pitch := by rw [← add_div, ← add_div]; norm_num
        have h4 : 0 ≤ 2.44e-14 / Real.cos pitch := by positivity
        norm_num at *; linarith
      · rw [abs_of_pos g.hhdg.1]; have := g.hhdg.2; norm_num at *; linarith
    · have hh : hdg < Real.pi / 2 := by
        by_contra hle
        have := Real.cos_nonpos_of_pi_div_two_le_of_le (x := hdg) (by linarith) (by linarith [g.hhdg.2, Real.pi_pos])
        linarith
      have et : Real.arctan (Real.tan hdg) = hdg := Real.arctan_tan (by linarith [g.hhdg.1, Real.pi_pos]) hh
      rw [et] at ah
      have hs : Real.sin hdg ≤ hdg := Real.sin_le g.hhdg.1.le
      rw [if_neg (by rw [ah.lt_false z (by norm_num at *; linarith)]; simp)]
      exact ⟨_, ah.mono (div_le_div_of_nonneg_right (by norm_num) cp0.le) (by norm_num)⟩
  -- the tests for singular matrices
  have ab : ∀ {X : Dbl r} {x : Rnd r} {y : ℝ}, Aj X x y 1.5e-14 1 → 1e-8 ≤ |y| → Flt.lt (Flt.abs X) (Flt.lit 1e-9) = false := by
    intro X x y a hy
    have l : Aj (Flt.lit 1e-9 : Dbl r) _ _ 1e-23 1e-9 := .lit h 1e-9 (by norm_num) (by norm_num)
    have a' : Aj (Flt.abs X) (Flt.abs x) |y| 1.5e-14 1 := ⟨by rw [a.sim]; rfl, (abs_abs_sub_abs_le _ _).trans a.err, by rw [abs_abs]; exact a.mag⟩
    exact a'.lt_false l (by norm_num at *; linarith)
  have vI := (arcsin_near np m02.err (c := Real.cos pitch) (by rw [Real.cos_neg]) (by norm_num at *; nlinarith) cp0 (by norm_num)).1
  have l1 : (Flt.lit 1 : Dbl r) = .fin 1 := (Aj.lit h 1 (N := 1) (D := 1) (by norm_num) (by norm_num)).sim.trans (by rw [Rnd.lit_one h])
  have lm : (Flt.lit (-1) : Dbl r) = .fin (-1) := (Aj.lit h (-1) (N := 1) (D := 1) (by norm_num) (by norm_num)).sim.trans (by
    have := h.int (-1) (by norm_num)
    show Dbl.fin (r ((-1 : ℚ) : ℝ)) = _
    push_cast at this ⊢
    rw [this])
  have t1 : Flt.lt (Flt.lit 1) (dM R 0 2 : Dbl r) = false := by
    rw [l1]; exact decide_eq_false (not_lt.2 vI.2.le)
  have t2 : Flt.lt (dM R 0 2 : Dbl r) (Flt.lit (-1)) = false := by
    rw [lm]; exact decide_eq_false (not_lt.2 vI.1.le)
  refine ⟨![(Flt.atan ((⟨R 1 2⟩ : Rnd r) / ⟨R 2 2⟩)).val, (-Flt.asin (⟨R 0 2⟩ : Rnd r)).val, b.val], ?_, ?_⟩
  · simp only [dcm2Euler, ab m00 k00, ab m22 k22', t1, t2, Bool.or_self, Bool.false_eq_true, if_false]
    refine Prod.ext rfl ?_
    funext i
    fin_cases i
    · exact ar.sim
    · exact ap.sim
    · exact hb.sim
  · intro i
    fin_cases i
    · exact ar.err.trans (div_le_div_of_nonneg_right (by norm_num) cp0.le)
    · exact ap.err
    · exact hb.err

/-- C138, there and back: recoverable angles come back from their matrix within 5·10⁻¹⁴ divided by the cosine of the pitch. -/
theorem C138_round_trip_partial (h : Rounds53 r) (e : V3 ℝ) (g : Recoverable (e 0) (e 1) (e 2)) (e0 : V3 (Dbl r)) :
    ∃ a : V3 ℝ, dcm2Euler (euler2Dcm (fun i => (Dbl.fin (e i) : Dbl r))).2 e0 = (true, fun i => .fin (a i)) ∧ ∀ i, |a i - e i| ≤ 5e-14 / Real.cos (e 1) := by
  obtain ⟨R, e1, hR⟩ := C138_dcm h e
  obtain ⟨a, e2, ha⟩ := C138_angles_partial h g R hR e0
  refine ⟨a, by rw [e1]; exact e2, fun i => ?_⟩
  have := ha i
  fin_cases i <;> exact this

/-- a climbing right turn towards the south-east -/
example : Recoverable (Real.pi / 4) (Real.pi / 6) (3 * Real.pi / 4) := by
  have p := Real.pi_pos
  have s2 : (1 : ℝ) ≤ Real.sqrt 2 := Real.one_le_sqrt.2 (by norm_num)
  have s3 : (1 : ℝ) ≤ Real.sqrt 3 := Real.one_le_sqrt.2 (by norm_num)
  have c : Real.cos (3 * Real.pi / 4) = -Real.cos (Real.pi / 4) := by rw [← Real.cos_pi_sub]; congr 1; ring
  have s : Real.sin (3 * Real.pi / 4) = Real.sin (Real.pi / 4) := by rw [← Real.sin_pi_sub]; congr 1; ring
  refine ⟨⟨by linarith, by linarith⟩, ⟨by linarith, by linarith⟩, ⟨by linarith, by linarith⟩, ?_, ?_, ?_, ?_⟩
  · rw [Real.cos_pi_div_six]; norm_num; linarith
  · rw [Real.cos_pi_div_four]; norm_num; linarith
  · rw [c, abs_neg, Real.cos_pi_div_four, abs_of_pos (by positivity)]; norm_num; linarith
  · rw [s, Real.sin_pi_div_four]; norm_num; linarith

/-- C138 at due north. The margin there is needed: the level matrix for heading north, off by 2⁻⁴⁷ in one entry, is accepted and gives a heading within
2·10⁻¹⁴ of due south. -/
theorem C138_north_fails (h : Rounds53 r) (e0 : V3 (Dbl r)) :
    (∀ i j, |(!![1, -(1 / 2 ^ 47), 0; 0, 1, 0; 0, 0, 1] : M3 ℝ) i j - (bodyToNed 0 0 0)ᵀ i j| ≤ 1.5e-14)
    ∧ ∃ a : V3 ℝ, dcm2Euler (dM !![1, -(1 / 2 ^ 47), 0; 0, 1, 0; 0, 0, 1]) e0 = (true, fun i => .fin (a i)) ∧ |a 2 - Real.pi| ≤ 2e-14 := by
  constructor
  · intro i j
    rw [bodyToNed_tr]
    fin_cases i <;> fin_cases j <;> simp <;> norm_num
  have one : Aj (.fin 1 : Dbl r) ⟨1⟩ 1 0 1 := Aj.exact ⟨1⟩ (by simp)
  have zer : Aj (.fin 0 : Dbl r) ⟨0⟩ 0 0 1 := Aj.exact ⟨0⟩ (by simp)
  have eps : Aj (.fin (-(1 / 2 ^ 47)) : Dbl r) ⟨-(1 / 2 ^ 47)⟩ (-(1 / 2 ^ 47)) 0 1 := Aj.exact ⟨-(1 / 2 ^ 47)⟩ (by norm_num)
  have z : Aj (Flt.lit 0 : Dbl r) (Flt.lit 0 : Rnd r) 0 0 0 := by simpa using Aj.lit h 0 (N := 0) (D := 0) (by norm_num) (by norm_num)
  obtain ⟨ah, -⟩ := eps.atan_quot h one (ρ := Real.sqrt (1 ^ 2 + (-(1 / 2 ^ 47)) ^ 2)) (D := 7e-16) (by norm_num) (Real.sqrt_pos.2 (by norm_num))
    (Real.sq_sqrt (by norm_num)).symm (by rw [mul_zero]; exact Real.sqrt_pos.2 (by norm_num)) (by norm_num) (by norm_num)
  obtain ⟨ar, -⟩ := zer.atan_quot h one (ρ := 1) (D := 7e-16) (by norm_num) (by norm_num) (by norm_num) (by norm_num) (by norm_num) (by norm_num)
  have ap := (Aj.asin h (p := 0) (c := 1) (D := 4e-16) ⟨by linarith [Real.pi_pos], by linarith [Real.pi_pos]⟩ (by rw [Real.sin_zero]; exact zer) (by simp)
    (by norm_num) (by norm_num) (by norm_num) (by norm_num)).neg
  have hs : Real.arctan (-(1 / 2 ^ 47) / 1) ≤ -(1e-15) := by
    have h0 : 0 ≤ Real.arctan (1 / 2 ^ 47) := Real.arctan_nonneg.2 (by norm_num)
    have h1 := Real.sin_le h0
    rw [Real.sin_arctan] at h1
    have h2 : Real.sqrt (1 + (1 / 2 ^ 47) ^ 2) ≤ 2 := by
      rw [Real.sqrt_le_left (by norm_num)]; norm_num
    have h3 : (1 / 2 ^ 47 : ℝ) / 2 ≤ 1 / 2 ^ 47 / Real.sqrt (1 + (1 / 2 ^ 47) ^ 2) := div_le_div_of_nonneg_left (by norm_num) (Real.sqrt_pos.2 (by positivity)) h2
    rw [div_one, Real.arctan_neg]
    norm_num at *; linarith
  have hs2 : |Real.arctan (-(1 / 2 ^ 47) / 1)| ≤ 7.2e-15 := (abs_arctan_le _).trans (by norm_num)
  have hp := ah.add h (Aj.pi h) (D := 2.95e-15) (N := 4.8) (by norm_num) (by norm_num)
  have l9 : Aj (Flt.lit 1e-9 : Dbl r) _ _ 1e-23 1e-9 := .lit h 1e-9 (by norm_num) (by norm_num)
  have lo : Aj (Flt.lit 1 : Dbl r) (Flt.lit 1 : Rnd r) 1 3e-16 1 := by simpa using Aj.lit h 1 (N := 1) (D := 3e-16) (by norm_num) (by norm_num)
  have lm : Aj (Flt.lit (-1) : Dbl r) (Flt.lit (-1) : Rnd r) (-1) 3e-16 1 := by simpa using Aj.lit h (-1) (N := 1) (D := 3e-16) (by norm_num) (by norm_num)
  have a1 : Aj (Flt.abs (.fin 1 : Dbl r)) ⟨1⟩ 1 0 1 := by
    have : Flt.abs (.fin 1 : Dbl r) = .fin 1 := by show Dbl.fin |1| = _; rw [abs_one]
    rw [this]; exact one
  refine ⟨![(Flt.atan ((⟨0⟩ : Rnd r) / ⟨1⟩)).val, (-Flt.asin (⟨0⟩ : Rnd r)).val, (Flt.atan ((⟨-(1 / 2 ^ 47)⟩ : Rnd r) / ⟨1⟩) + Flt.pi).val], ?_, ?_⟩
  · have e00 : (dM !![1, -(1 / 2 ^ 47), 0; 0, 1, 0; 0, 0, 1] 0 0 : Dbl r) = .fin 1 := rfl
    have e22 : (dM !![1, -(1 / 2 ^ 47), 0; 0, 1, 0; 0, 0, 1] 2 2 : Dbl r) = .fin 1 := rfl
    have e02 : (dM !![1, -(1 / 2 ^ 47), 0; 0, 1, 0; 0, 0, 1] 0 2 : Dbl r) = .fin 0 := rfl
    have e12 : (dM !![1, -(1 / 2 ^ 47), 0; 0, 1, 0; 0, 0, 1] 1 2 : Dbl r) = .fin 0 := rfl
    have e01 : (dM !![1, -(1 / 2 ^ 47), 0; 0, 1, 0; 0, 0, 1] 0 1 : Dbl r) = .fin (-(1 / 2 ^ 47)) := rfl
    simp only [dcm2Euler, e00, e22, e02, e12, e01, a1.lt_false l9 (by norm_num), lo.lt_false zer (by norm_num), zer.lt_false lm (by norm_num),
      ah.lt_true z (by norm_num at *; linarith), Bool.or_self, Bool.false_eq_true, if_false, if_true]
    refine Prod.ext rfl ?_
    funext i
    fin_cases i
    · exact ar.sim
    · exact ap.sim
    · exact hp.sim
  · have e := hp.err
    have t := abs_add_le ((Flt.atan ((⟨-(1 / 2 ^ 47)⟩ : Rnd r) / ⟨1⟩) + Flt.pi).val - (Real.arctan (-(1 / 2 ^ 47) / 1) + Real.pi)) (Real.arctan (-(1 / 2 ^ 47) / 1))
    rw [show (Flt.atan ((⟨-(1 / 2 ^ 47)⟩ : Rnd r) / ⟨1⟩) + Flt.pi).val - (Real.arctan (-(1 / 2 ^ 47) / 1) + Real.pi) + Real.arctan (-(1 / 2 ^ 47) / 1)
      = (Flt.atan ((⟨-(1 / 2 ^ 47)⟩ : Rnd r) / ⟨1⟩) + Flt.pi).val - Real.pi by ring] at t
    refine t.trans ?_
    refine (add_le_add e hs2).trans (by norm_num)

end NavFuse.Props
