import Verif.Lemmas.RoundGeodesy
import Verif.Props.Lla

/-! # Geodetic and ECEF coordinates in double precision: C134 -/

namespace NavFuse.Props
open Spec NavUtils Gravity Rotations
variable [Machine] {r : ℝ → ℝ}

/-- The point at a geodetic latitude, longitude and altitude: the foot on the ellipsoid, plus the altitude along the vertical. -/
noncomputable def place (lat lon alt : ℝ) : V3 ℝ :=
  primeVertical lat • ![Real.cos lat * Real.cos lon, Real.cos lat * Real.sin lon, (1 - ecc2) * Real.sin lat]
    + alt • ![Real.cos lat * Real.cos lon, Real.cos lat * Real.sin lon, Real.sin lat]

omit [Machine] in
theorem place_eq (lat lon alt : ℝ) : place lat lon alt = ellPoint lat lon alt := by
  ext i; fin_cases i <;> simp [place, ellPoint] <;> ring

/-- C134. In double precision, in every rounding mode, with overflow to infinity modelled: up to altitudes of ten thousand kilometres, an accepted
call of `lla2Ecef` writes three finite numbers, within a ten-millionth of a metre of the exact position. -/
theorem C134_position (h : Rounds53 r) (lat lon alt : ℝ) (halt : |alt| ≤ 1e7) (rE : V3 (Dbl r))
    (hs : (lla2Ecef (.fin lat) (.fin lon) (.fin alt) rE).1 = true) :
    ∃ p : V3 ℝ, (lla2Ecef (.fin lat) (.fin lon) (.fin alt) rE).2 = (fun i => .fin (p i)) ∧ ∀ i, |p i - place lat lon alt i| ≤ 1e-7 := by
  have hb : latLonBad (Dbl.fin lat : Dbl r) (.fin lon) = false := by
    by_contra hn
    rw [Bool.not_eq_false] at hn
    simp [lla2Ecef, hn] at hs
  have hb' : latLonBad (⟨lat⟩ : Rnd r) ⟨lon⟩ = false := by
    have hp : Aj (Flt.pi : Dbl r) Flt.pi Real.pi 1e-15 3.1416 := .pi h
    have h2 : Aj (Flt.lit 2 : Dbl r) _ _ 5e-16 2 := .lit h 2 (by norm_num) (by norm_num)
    have h3 : Aj _ _ _ 2e-15 1.5708 := .div h hp h2 (m := 2) (q := 1.6e-15) (by norm_num) (by norm_num) (by norm_num) (by norm_num) (by norm_num)
    have e1 := hp.sim
    have e3 := h3.sim
    rw [Dbl.Sim] at e1 e3
    rw [latLonBad, e3, e1] at hb
    exact hb
  have key := ecef_ap h (.exact ⟨lat⟩ le_rfl) (.exact ⟨lon⟩ le_rfl) (.exact ⟨alt⟩ halt) rE (fun _ => ⟨0⟩) hb hb'
  refine ⟨fun i => ((lla2Ecef (⟨lat⟩ : Rnd r) ⟨lon⟩ ⟨alt⟩ fun _ => ⟨0⟩).2 i).val, funext fun i => (key i).sim, fun i => ?_⟩
  rw [place_eq]
  exact (key i).err.trans (by norm_num)

/-- non-vacuity: a place in Boston, in the rounding mode of the hardware -/
example : ∃ r, Rounds53 r ∧ (lla2Ecef (Dbl.fin 0.739 : Dbl r) (.fin (-1.24)) (.fin 20) fun _ => .fin 0).1 = true := by
  refine ⟨_, ieeeEven_rounds, ?_⟩
  have h := ieeeEven_rounds
  have hp : Aj (Flt.pi : Dbl ieeeEven) Flt.pi Real.pi 1e-15 3.1416 := .pi h
  have h2 : Aj (Flt.lit 2 : Dbl ieeeEven) _ _ 5e-16 2 := .lit h 2 (by norm_num) (by norm_num)
  have h3 : Aj _ _ _ 2e-15 1.5708 := .div h hp h2 (m := 2) (q := 1.6e-15) (by norm_num) (by norm_num) (by norm_num) (by norm_num) (by norm_num)
  have e1 := hp.sim
  have e3 := h3.sim
  have l1 := (abs_le.1 hp.err).1
  have l3 := (abs_le.1 h3.err).1
  rw [Dbl.Sim] at e1 e3
  have g := Real.pi_gt_three
  have hb : latLonBad (Dbl.fin 0.739 : Dbl ieeeEven) (.fin (-1.24)) = false := by
    rw [latLonBad, e3, e1]
    have a1 : ¬ (Flt.pi / Flt.lit 2 : Rnd ieeeEven).val < |0.739| := by
      rw [abs_of_pos (by norm_num)]; norm_num at l3 ⊢; linarith
    have a2 : ¬ (Flt.pi : Rnd ieeeEven).val < |-1.24| := by
      rw [abs_neg, abs_of_pos (by norm_num)]; norm_num at l1 ⊢; linarith
    show (decide _ || decide _) = false
    rw [decide_eq_false a1, decide_eq_false a2]; rfl
  simp [lla2Ecef, hb]

omit [Machine] in
theorem place_outside {lat alt : ℝ} (halt : -2e4 ≤ alt ∧ alt ≤ 1e7) (hcos : 1e-5 ≤ Real.cos lat) :
    Outside ((primeVertical lat + alt) * Real.cos lat) (((1 - ecc2) * primeVertical lat + alt) * Real.sin lat) := by
  have hN := primeVertical_ge lat
  have hN2 : primeVertical lat ≤ 6404000 := by
    rw [primeVertical, div_le_iff₀ (Real.sqrt_pos.2 (w_pos lat)), semiMajor]
    have := w_low lat
    rw [abs_of_nonneg (Real.sqrt_nonneg _)] at this
    norm_num at this ⊢; linarith
  have he := ecc2_bounds
  have hc1 := Real.cos_le_one lat
  have hs1 := Real.abs_sin_le_one lat
  have hsc := Real.sin_sq_add_cos_sq lat
  obtain ⟨a0, a1⟩ := halt
  rw [semiMajor] at hN
  have k1 : 6.33e6 ≤ (1 - ecc2) * primeVertical lat := by norm_num at *; nlinarith
  have k2 : (1 - ecc2) * primeVertical lat ≤ primeVertical lat := by nlinarith
  refine ⟨by norm_num at *; nlinarith, by norm_num at *; nlinarith, ?_, ?_⟩
  · rw [abs_mul, abs_of_nonneg (by linarith)]
    norm_num at *; nlinarith [abs_nonneg (Real.sin lat)]
  · have c2 : ((1 - ecc2) * primeVertical lat + alt) ^ 2 * Real.cos lat ^ 2 ≤ (primeVertical lat + alt) ^ 2 * Real.cos lat ^ 2 :=
      mul_le_mul_of_nonneg_right (pow_le_pow_left₀ (by linarith) (by linarith) 2) (sq_nonneg _)
    have c3 : (6.3e6 : ℝ) ^ 2 ≤ ((1 - ecc2) * primeVertical lat + alt) ^ 2 := pow_le_pow_left₀ (by norm_num) (by linarith) 2
    rw [mul_pow, mul_pow]
    nlinarith

omit [Machine] in
theorem not_cut {lon p : ℝ} (hlon : |lon| ≤ 3.14159) (hp : 60 ≤ p) : 1e-7 < p * Real.cos lon ∨ 1e-7 < |p * Real.sin lon| := by
  have hpi := Real.pi_gt_d6
  have hpi4 := Real.pi_lt_four
  rcases le_total |lon| (Real.pi / 2) with hl | hl
  · by_contra hn
    obtain ⟨n1, n2⟩ := not_or.1 hn
    have c0 : 0 ≤ Real.cos lon := Real.cos_nonneg_of_mem_Icc (abs_le.1 hl)
    have hsc := Real.sin_sq_add_cos_sq lon
    have e1 : (p * Real.cos lon) ^ 2 ≤ 1e-7 ^ 2 := pow_le_pow_left₀ (mul_nonneg (by linarith) c0) (not_lt.1 n1) 2
    have e2 : (p * Real.sin lon) ^ 2 ≤ 1e-7 ^ 2 := by rw [← sq_abs]; exact pow_le_pow_left₀ (abs_nonneg _) (not_lt.1 n2) 2
    have : p ^ 2 ≤ 2 * 1e-7 ^ 2 := by
      calc p ^ 2 = (p * Real.cos lon) ^ 2 + (p * Real.sin lon) ^ 2 := by linear_combination (-p ^ 2) * hsc
        _ ≤ _ := by linarith
    norm_num at this; nlinarith
  · right
    have h1 : Real.sin |lon| = Real.sin (Real.pi - |lon|) := (Real.sin_pi_sub _).symm
    have h2 : 2 / Real.pi * (Real.pi - |lon|) ≤ Real.sin (Real.pi - |lon|) := Real.mul_le_sin (by linarith) (by linarith)
    have h3 : 1 / 2 ≤ 2 / Real.pi := by rw [div_le_div_iff₀ (by norm_num) (by linarith)]; linarith
    have h4 : |Real.sin lon| = Real.sin |lon| := by
      rcases abs_choice lon with h | h <;> rw [h]
      · rw [abs_of_nonneg]; rw [← h, h1]; refine le_trans ?_ h2; exact mul_nonneg (by positivity) (by linarith)
      · rw [Real.sin_neg, abs_of_nonpos]
        have : 0 ≤ Real.sin (-lon) := by rw [← h, h1]; refine le_trans ?_ h2; exact mul_nonneg (by positivity) (by linarith)
        rw [Real.sin_neg] at this; linarith
    have h5 : 1e-6 ≤ |Real.sin lon| := by
      rw [h4, h1]; refine le_trans ?_ h2
      have : 2e-6 ≤ Real.pi - |lon| := by norm_num at *; linarith
      nlinarith
    rw [abs_mul, abs_of_pos (by linarith)]
    norm_num at *; nlinarith

/-- C134. `ecef2Lla` in double precision, in every rounding mode: from doubles within a ten-millionth of a metre of a place up to ten thousand
kilometres above the ellipsoid or twenty below it, 64 metres or more from the axis and not next to the date line, it finds finite coordinates, within `1e-13` rad of
latitude, `1e-13 / cos lat` rad of longitude and `3e-6 / cos lat` metres of altitude of the place, on top of what the formula itself loses (C25). -/
theorem C134_geodetic (h : Rounds53 r) (lat lon alt : ℝ) (hlat : |lat| < Real.pi / 2) (hlon : |lon| ≤ 3.14159) (halt : -2e4 ≤ alt ∧ alt ≤ 1e7)
    (hcos : 1e-5 ≤ Real.cos lat) (R : V3 ℝ) (hR : ∀ i, |R i - place lat lon alt i| ≤ 1e-7) :
    ∃ lat' lon' alt' : ℝ, ecef2Lla (fun i => (.fin (R i) : Dbl r)) = (true, .fin lat', .fin lon', .fin alt') ∧
      |lat' - lat| ≤ latTol alt + 1e-13 ∧ |lon' - lon| ≤ 1e-13 / Real.cos lat ∧
      |alt' - alt| ≤ (1.02 * (semiMajor + alt) * latTol alt + 3e-6) / Real.cos lat := by
  have hpi := Real.pi_gt_d6
  have c0 : 0 < Real.cos lat := lt_of_lt_of_le (by norm_num) hcos
  have hN := primeVertical_ge lat
  have ha := semiMajor_pos
  have hlon' : -Real.pi < lon ∧ lon ≤ Real.pi := by
    have := abs_le.1 hlon
    norm_num at *; constructor <;> linarith [this.1, this.2]
  obtain ⟨lt, at', he, b1, b2, b3⟩ := C25_round_trip_partial lat lon alt hlat hlon' (by linarith [halt.1]) hcos (fun _ => .fin 0)
  have hpp : 0 < (primeVertical lat + alt) * Real.cos lat := mul_pos (by linarith [halt.1, show (6e6 : ℝ) ≤ semiMajor by norm_num [semiMajor]]) c0
  have o := place_outside halt hcos
  rw [lla2Ecef_X ⟨hlat.le, abs_le.2 ⟨hlon'.1.le, hlon'.2⟩⟩] at he
  simp only at he
  rw [ecef2Lla_X, ellPoint_p lat lon alt hpp.le, ellPoint_lon lat lon alt hpp hlon'] at he
  have hz : (ellPoint lat lon alt) 2 = ((1 - ecc2) * primeVertical lat + alt) * Real.sin lat := rfl
  rw [hz] at he
  obtain ⟨cl1, cl2, cl3⟩ := o.cos_lat
  rw [place_eq] at hR
  set u := ellPoint lat lon alt 0 with hu
  set v := ellPoint lat lon alt 1 with hv
  have hp : Real.sqrt (u ^ 2 + v ^ 2) = (primeVertical lat + alt) * Real.cos lat := ellPoint_p lat lon alt hpp.le
  have harg : Complex.arg ⟨u, v⟩ = lon := ellPoint_lon lat lon alt hpp hlon'
  set p := (primeVertical lat + alt) * Real.cos lat with hpdef
  set z := ((1 - ecc2) * primeVertical lat + alt) * Real.sin lat with hzdef
  have ub : ∀ w : ℝ, w ^ 2 ≤ u ^ 2 + v ^ 2 → |w| ≤ 2e7 := fun w hw =>
    (Real.abs_le_sqrt hw).trans (hp.le.trans o.p2)
  have hx : Aj (.fin (R 0)) (⟨R 0⟩ : Rnd r) u 1e-7 2e7 := ⟨rfl, hR 0, ub u (by nlinarith [sq_nonneg v])⟩
  have hy : Aj (.fin (R 1)) (⟨R 1⟩ : Rnd r) v 1e-7 2e7 := ⟨rfl, hR 1, ub v (by nlinarith [sq_nonneg u])⟩
  have hzz : Aj (.fin (R 2)) (⟨R 2⟩ : Rnd r) z 1e-7 2e7 := ⟨rfl, hR 2, o.z2⟩
  have P := axis_ap h hx hy (by rw [hp]; exact o.p1) (by rw [hp]; exact o.p2)
  have hcut : 1e-7 < u ∨ 1e-7 < |v| := by
    have := not_cut hlon o.p1
    exact this
  have L := lon_ap h hx hy (by rw [hp]; exact o.p1) (by rw [hp]; exact o.p2) hcut
  rw [hp] at P L
  rw [harg] at L
  have A := lat_ap h o P hzz
  have H := alt_ap h o P A
  have near : |(Flt.atan2 (⟨R 1⟩ : Rnd r) ⟨R 0⟩).val| ≤ 3.141591 := by
    have e := abs_add_le ((Flt.atan2 (⟨R 1⟩ : Rnd r) ⟨R 0⟩).val - lon) lon
    rw [sub_add_cancel] at e
    have q : 3e-7 / p ≤ 1e-8 := by
      have := o.p1
      rw [div_le_iff₀ (by linarith)]; norm_num; linarith
    have := L.err
    norm_num at *; linarith
  have W := wrap_Dbl h (L := Flt.atan2 (Dbl.fin (R 1)) (.fin (R 0))) L.sim near
  obtain ⟨-, e1, -, e3⟩ : True ∧ latR p z = lt ∧ True ∧ p / Real.cos (latR p z) - primeVertical (latR p z) = at' := by
    have hc : Real.cos (latR p z) ≠ 0 := (lt_of_lt_of_le (by norm_num) cl3).ne'
    rw [XR.fin_div _ _ hc, XR.fin_sub] at he
    simp only [Prod.mk.injEq, XR.fin.injEq, true_and] at he
    exact ⟨trivial, he.1, trivial, he.2⟩
  refine ⟨_, _, _, Prod.ext rfl (Prod.ext A.sim (Prod.ext (W.trans L.sim) H.sim)), ?_, ?_, ?_⟩
  · have := abs_sub_le _ (latR p z) lat |>.trans (add_le_add A.err (show |latR p z - lat| ≤ latTol alt by rw [e1]; exact b1))
    refine this.trans ?_
    norm_num at *; linarith
  · refine L.err.trans ?_
    rw [div_le_div_iff₀ hpp c0, hpdef]
    rw [semiMajor] at hN
    have := mul_le_mul_of_nonneg_right (show 6e6 ≤ primeVertical lat + alt by linarith [halt.1]) c0.le
    norm_num at *; linarith
  · have t := abs_sub_le _ (p / Real.cos (latR p z) - primeVertical (latR p z)) alt |>.trans (add_le_add H.err (show |p / Real.cos (latR p z) - primeVertical (latR p z) - alt| ≤ 1.02 * (semiMajor + alt) * latTol alt / Real.cos lat by rw [e3]; exact b3))
    refine t.trans ?_
    rw [add_div, add_comm]
    refine add_le_add le_rfl ?_
    rw [div_le_div_iff₀ (lt_of_lt_of_le (by norm_num) cl3) c0]
    have hc := (Real.abs_cos_sub_cos_le (latR p z) lat).trans (show |latR p z - lat| ≤ 2.4e-8 by rw [e1]; exact b1.trans b2)
    have := (abs_le.1 hc).1
    norm_num at *; linarith

/-- C134, the two together: what `ecef2Lla` makes of the output of `lla2Ecef`, in double precision. -/
theorem C134_round_trip (h : Rounds53 r) (lat lon alt : ℝ) (hlat : |lat| < Real.pi / 2) (hlon : |lon| ≤ 3.14159) (halt : -2e4 ≤ alt ∧ alt ≤ 1e7)
    (hcos : 1e-5 ≤ Real.cos lat) (rE : V3 (Dbl r)) :
    ∃ lat' lon' alt' : ℝ, ecef2Lla (lla2Ecef (.fin lat) (.fin lon) (.fin alt) rE).2 = (true, .fin lat', .fin lon', .fin alt') ∧
      |lat' - lat| ≤ latTol alt + 1e-13 ∧ |lon' - lon| ≤ 1e-13 / Real.cos lat ∧
      |alt' - alt| ≤ (1.02 * (semiMajor + alt) * latTol alt + 3e-6) / Real.cos lat := by
  have hs : (lla2Ecef (Dbl.fin lat) (.fin lon) (.fin alt) rE).1 = true := by
    have hp : Aj (Flt.pi : Dbl r) Flt.pi Real.pi 1e-15 3.1416 := .pi h
    have h2 : Aj (Flt.lit 2 : Dbl r) _ _ 5e-16 2 := .lit h 2 (by norm_num) (by norm_num)
    have h3 : Aj _ _ _ 2e-15 1.5708 := .div h hp h2 (m := 2) (q := 1.6e-15) (by norm_num) (by norm_num) (by norm_num) (by norm_num) (by norm_num)
    have e1 := hp.sim
    have e3 := h3.sim
    have l1 := (abs_le.1 hp.err).1
    have l3 := (abs_le.1 h3.err).1
    rw [Dbl.Sim] at e1 e3
    have g := Real.pi_gt_d6
    have hb : latLonBad (Dbl.fin lat : Dbl r) (.fin lon) = false := by
      rw [latLonBad, e3, e1]
      have far : |lat| ≤ Real.pi / 2 - 1e-5 := by
        have hsin : Real.sin (Real.pi / 2 - |lat|) = Real.cos lat := by rw [Real.sin_pi_div_two_sub, Real.cos_abs]
        have := Real.sin_le (show 0 ≤ Real.pi / 2 - |lat| by linarith)
        linarith
      have a1 : ¬ (Flt.pi / Flt.lit 2 : Rnd r).val < |lat| := by
        norm_num at l3 far ⊢; linarith
      have a2 : ¬ (Flt.pi : Rnd r).val < |lon| := by
        norm_num at l1 hlon g ⊢; linarith
      show (decide _ || decide _) = false
      rw [decide_eq_false a1, decide_eq_false a2]; rfl
    simp [lla2Ecef, hb]
  obtain ⟨p, hp, hd⟩ := C134_position h lat lon alt (abs_le.2 ⟨by linarith [halt.1], halt.2⟩) rE hs
  rw [hp]
  exact C134_geodetic h lat lon alt hlat hlon halt hcos p hd

/-- non-vacuity: a place in Boston, 20 m below the ellipsoid as the ground there is -/
example : |(0.739 : ℝ)| < Real.pi / 2 ∧ |(-1.24 : ℝ)| ≤ 3.14159 ∧ (-2e4 ≤ (-20 : ℝ) ∧ (-20 : ℝ) ≤ 1e7) ∧ (1e-5 : ℝ) ≤ Real.cos 0.739 := by
  refine ⟨by rw [abs_of_pos (by norm_num)]; linarith [Real.pi_gt_three], by rw [abs_neg, abs_of_pos] <;> norm_num, by norm_num, ?_⟩
  have := Real.one_sub_sq_div_two_le_cos (x := 0.739)
  norm_num at this ⊢; linarith

end NavFuse.Props
