import Verif.Lemmas.Approx
import Verif.Lemmas.J2000

/-! # Rounding errors of the angles of the J2000 rotation

Between 1900 and 2100. The numerical bounds were produced by interval propagation; each line is checked here. -/

namespace NavFuse
open Rotations Spec
variable [Machine] {r : ℝ → ℝ}

omit [Machine] in
theorem arcs_abs : (206264 : ℝ) ≤ |(arcs : ℝ)| := by
  have e : (arcs : ℝ) = 648000 / Real.pi := arcs_R
  rw [e, abs_of_pos (div_pos (by norm_num) Real.pi_pos), le_div_iff₀ Real.pi_pos]
  have := Real.pi_lt_d6
  nlinarith

theorem arcs_ap (h : Rounds53 r) : Ap (arcs : Rnd r) (arcs : ℝ) 272e-12 206266 := by
  have s0 := Ap.pi h
  have s1 : Ap _ _ 9e-13 3600 := .lit h 3600 (by norm_num [abs_of_pos]) (by norm_num)
  have s2 : Ap _ _ 45e-15 180 := .lit h 180 (by norm_num [abs_of_pos]) (by norm_num)
  have s3 : Ap _ _ 4861e-13 648000 := .mul h s1 s2 (by norm_num) (by norm_num)
  have s4 : Ap _ _ 272e-12 206300 := .div h s3 s0 (m := 3.1415) (q := 2204e-13) (by rw [abs_of_pos Real.pi_pos]; have := Real.pi_gt_d4; linarith) (by norm_num) (by norm_num) (by norm_num) (by norm_num)
  refine ⟨s4.err, ?_⟩
  have e : (arcs : ℝ) = 648000 / Real.pi := arcs_R
  rw [e, abs_of_pos (div_pos (by norm_num) Real.pi_pos), div_le_iff₀ Real.pi_pos]
  have := Real.pi_gt_d6
  nlinarith

theorem radC_ap (h : Rounds53 r) : Ap (radC : Rnd r) (radC : ℝ) 1429e-20 0.01746 := by
  have s0 := Ap.pi h
  have s1 : Ap _ _ 45e-15 180 := .lit h 180 (by norm_num [abs_of_pos]) (by norm_num)
  have s2 : Ap _ _ 1429e-20 0.01746 := .div h s0 s1 (m := 180) (q := 9919e-21) (by norm_num [abs_of_pos]) (by norm_num) (by norm_num) (by norm_num) (by norm_num)
  exact s2

/-- Julian centuries since J2000 -/
theorem cent_ap (h : Rounds53 r) {x : Rnd r} {y : ℝ} (hx : Ap x y 6e-11 88071) (hy : |y - 51544.5| ≤ 36527) :
    Ap ((x - mjdJ2000) / Flt.lit 36525) ((y - mjdJ2000) / Flt.lit 36525) 2.2e-15 1.001 := by
  have j : Ap (mjdJ2000 : Rnd r) (mjdJ2000 : ℝ) 0 51544.5 := by
    refine ⟨?_, by rw [J_R]; norm_num [abs_of_pos]⟩
    have e : (mjdJ2000 : Rnd r).val = 51544.5 := by
      have := h.keeps 103089 (-1) (by norm_num) (by norm_num)
      norm_num at this
      show r ((51544.5 : ℚ) : ℝ) = _
      norm_num
      exact this
    rw [e, J_R]; simp
  have l : Ap (Flt.lit 36525 : Rnd r) ((36525 : ℚ) : ℝ) 0 36525 := by
    refine ⟨?_, by norm_num [abs_of_pos]⟩
    have := h.int 36525 (by norm_num)
    show |r ((36525 : ℚ) : ℝ) - _| ≤ 0
    push_cast at this ⊢
    rw [this]; simp
  have d := Ap.sub_mag h hx j (N := 36527) (D := 7e-11) (by rw [J_R]; exact hy) (by norm_num)
  exact Ap.div h d l (m := 36525) (q := 1.92e-15)
    (by show (36525 : ℝ) ≤ |((36525 : ℚ) : ℝ)|; norm_num [abs_of_pos]) (by norm_num) (by norm_num) (by norm_num) (by norm_num)

theorem obliquity_ap (h : Rounds53 r) {x : Rnd r} {y : ℝ} (hx : Ap x y 6e-11 88071) (hy : |y - 51544.5| ≤ 36527) :
    Ap (meanObliquity x) (meanObliquity y) 6432e-19 0.4097 := by
  have t := cent_ap h hx hy
  have rad := radC_ap h
  have s1 : Ap _ _ 1171e-17 46.815 := .lit h 46.8150 (by norm_num [abs_of_pos]) (by norm_num)
  have s2 : Ap _ _ 1475e-22 0.00059 := .lit h 0.00059 (by norm_num [abs_of_pos]) (by norm_num)
  have s3 : Ap _ _ 4533e-22 1813e-6 := .lit h 0.001813 (by norm_num [abs_of_pos]) (by norm_num)
  have s4 : Ap _ _ 4897e-21 1815e-6 := .mul h s3 t (by norm_num) (by norm_num)
  have s5 : Ap _ _ 5646e-21 2405e-6 := .sub h s2 s4 (by norm_num) (by norm_num)
  have s6 : Ap _ _ 1155e-20 2408e-6 := .mul h s5 t (by norm_num) (by norm_num)
  have s7 : Ap _ _ 2343e-17 46.82 := .add h s1 s6 (by norm_num) (by norm_num)
  have s8 : Ap _ _ 1382e-16 46.87 := .mul h s7 t (by norm_num) (by norm_num)
  have s9 : Ap _ _ 9e-13 3600 := .lit h 3600 (by norm_num [abs_of_pos]) (by norm_num)
  have s10 : Ap _ _ 4491e-20 0.01302 := .div h s8 s9 (m := 3600) (q := 4165e-20) (by norm_num [abs_of_pos]) (by norm_num) (by norm_num) (by norm_num) (by norm_num)
  have s11 : Ap _ _ 586e-17 2343929111e-8 := .lit h 23.43929111 (by norm_num [abs_of_pos]) (by norm_num)
  have s12 : Ap _ _ 1177e-17 23.46 := .sub h s11 s10 (by norm_num) (by norm_num)
  have s13 : Ap _ _ 6432e-19 0.4097 := .mul h rad s12 (by norm_num) (by norm_num)
  exact s13

/-- the angles z, θ, ζ of `computePrecession` from J2000, src/util/Rotations.cpp:536-545 -/
noncomputable def precAngles {α : Type} [Add α] [Sub α] [Mul α] [Div α] [Neg α] [Flt α] (tt : α) : α × α × α :=
  let T := (mjdJ2000 - mjdJ2000 : α) / Flt.lit 36525
  let dT := (tt - mjdJ2000) / Flt.lit 36525
  let zeta := (((Flt.lit 2306.2181 + (Flt.lit 1.39656 - Flt.lit 0.000139 * T) * T) +
    ((Flt.lit 0.30188 - Flt.lit 0.000344 * T) + Flt.lit 0.017998 * dT) * dT) * dT) / arcs
  (zeta + ((((Flt.lit 0.79280 + Flt.lit 0.000411 * T) + Flt.lit 0.000205 * dT) * dT) * dT) / arcs,
   (((Flt.lit 2004.3109 - (Flt.lit 0.85330 + Flt.lit 0.000217 * T) * T) - ((Flt.lit 0.42665 + Flt.lit 0.000217 * T) + Flt.lit 0.041833 * dT) * dT) * dT) / arcs,
   zeta)

theorem prec_ap (h : Rounds53 r) {x : Rnd r} {y : ℝ} (hx : Ap x y 6e-11 88071) (hy : |y - 51544.5| ≤ 36527) :
    Ap (precAngles x).1 (precAngles y).1 5625e-20 0.01122 ∧ Ap (precAngles x).2.1 (precAngles y).2.1 4643e-20 0.00974 ∧
    Ap (precAngles x).2.2 (precAngles y).2.2 5341e-20 0.01121 := by
  have t := cent_ap h hx hy
  have arc := arcs_ap h
  have z0 : Ap ((mjdJ2000 - mjdJ2000 : Rnd r) / Flt.lit 36525) ((mjdJ2000 - mjdJ2000 : ℝ) / Flt.lit 36525) 0 0 := by
    refine ⟨?_, by simp⟩
    show |r (r ((mjdJ2000 : Rnd r).val - (mjdJ2000 : Rnd r).val) / (Flt.lit 36525 : Rnd r).val) - _| ≤ 0
    rw [sub_self, h.zero, zero_div, h.zero]; simp
  have s1 : Ap _ _ 5766e-16 2306.2181 := .lit h 2306.2181 (by norm_num [abs_of_pos]) (by norm_num)
  have s2 : Ap _ _ 3492e-19 1.39656 := .lit h 1.39656 (by norm_num [abs_of_pos]) (by norm_num)
  have s3 : Ap _ _ 3475e-23 139e-6 := .lit h 0.000139 (by norm_num [abs_of_pos]) (by norm_num)
  have s4 : Ap _ _ 0 0 := .mul h s3 z0 (by norm_num) (by norm_num)
  have s5 : Ap _ _ 6984e-19 1.397 := .sub h s2 s4 (by norm_num) (by norm_num)
  have s6 : Ap _ _ 0 0 := .mul h s5 z0 (by norm_num) (by norm_num)
  have s7 : Ap _ _ 1154e-15 2307 := .add h s1 s6 (by norm_num) (by norm_num)
  have s8 : Ap _ _ 7547e-20 0.30188 := .lit h 0.30188 (by norm_num [abs_of_pos]) (by norm_num)
  have s9 : Ap _ _ 86e-21 344e-6 := .lit h 0.000344 (by norm_num [abs_of_pos]) (by norm_num)
  have s10 : Ap _ _ 0 0 := .mul h s9 z0 (by norm_num) (by norm_num)
  have s11 : Ap _ _ 151e-18 0.3019 := .sub h s8 s10 (by norm_num) (by norm_num)
  have s12 : Ap _ _ 45e-19 17998e-6 := .lit h 0.017998 (by norm_num [abs_of_pos]) (by norm_num)
  have s13 : Ap _ _ 4861e-20 0.01802 := .mul h s12 t (by norm_num) (by norm_num)
  have s14 : Ap _ _ 2796e-19 0.32 := .add h s11 s13 (by norm_num) (by norm_num)
  have s15 : Ap _ _ 1064e-18 0.3204 := .mul h s14 t (by norm_num) (by norm_num)
  have s16 : Ap _ _ 1732e-15 2308 := .add h s7 s15 (by norm_num) (by norm_num)
  have s17 : Ap _ _ 7389e-15 2311 := .mul h s16 t (by norm_num) (by norm_num)
  have s18 : Ap _ _ 5341e-20 0.01121 := .div h s17 arc (m := 206264) (q := 506e-19) arcs_abs (by norm_num) (by norm_num) (by norm_num) (by norm_num)
  have s19 : Ap _ _ 1982e-19 0.7928 := .lit h 0.79280 (by norm_num [abs_of_pos]) (by norm_num)
  have s20 : Ap _ _ 1028e-22 411e-6 := .lit h 0.000411 (by norm_num [abs_of_pos]) (by norm_num)
  have s21 : Ap _ _ 0 0 := .mul h s20 z0 (by norm_num) (by norm_num)
  have s22 : Ap _ _ 3965e-19 0.7928 := .add h s19 s21 (by norm_num) (by norm_num)
  have s23 : Ap _ _ 5125e-23 205e-6 := .lit h 0.000205 (by norm_num [abs_of_pos]) (by norm_num)
  have s24 : Ap _ _ 5537e-22 2053e-7 := .mul h s23 t (by norm_num) (by norm_num)
  have s25 : Ap _ _ 5954e-19 0.7931 := .add h s22 s24 (by norm_num) (by norm_num)
  have s26 : Ap _ _ 254e-17 0.7939 := .mul h s25 t (by norm_num) (by norm_num)
  have s27 : Ap _ _ 4488e-18 0.7947 := .mul h s26 t (by norm_num) (by norm_num)
  have s28 : Ap _ _ 2781e-23 3853e-9 := .div h s27 arc (m := 206264) (q := 2684e-23) arcs_abs (by norm_num) (by norm_num) (by norm_num) (by norm_num)
  have s29 : Ap _ _ 5625e-20 0.01122 := .add h s18 s28 (by norm_num) (by norm_num)
  have s30 : Ap _ _ 5011e-16 2004.3109 := .lit h 2004.3109 (by norm_num [abs_of_pos]) (by norm_num)
  have s31 : Ap _ _ 2134e-19 0.8533 := .lit h 0.85330 (by norm_num [abs_of_pos]) (by norm_num)
  have s32 : Ap _ _ 5425e-23 217e-6 := .lit h 0.000217 (by norm_num [abs_of_pos]) (by norm_num)
  have s33 : Ap _ _ 0 0 := .mul h s32 z0 (by norm_num) (by norm_num)
  have s34 : Ap _ _ 4268e-19 0.8533 := .add h s31 s33 (by norm_num) (by norm_num)
  have s35 : Ap _ _ 0 0 := .mul h s34 z0 (by norm_num) (by norm_num)
  have s36 : Ap _ _ 1003e-15 2005 := .sub h s30 s35 (by norm_num) (by norm_num)
  have s37 : Ap _ _ 1067e-19 0.42665 := .lit h 0.42665 (by norm_num [abs_of_pos]) (by norm_num)
  have s38 : Ap _ _ 5425e-23 217e-6 := .lit h 0.000217 (by norm_num [abs_of_pos]) (by norm_num)
  have s39 : Ap _ _ 0 0 := .mul h s38 z0 (by norm_num) (by norm_num)
  have s40 : Ap _ _ 2134e-19 0.4267 := .add h s37 s39 (by norm_num) (by norm_num)
  have s41 : Ap _ _ 1046e-20 41833e-6 := .lit h 0.041833 (by norm_num [abs_of_pos]) (by norm_num)
  have s42 : Ap _ _ 113e-18 0.04188 := .mul h s41 t (by norm_num) (by norm_num)
  have s43 : Ap _ _ 4436e-19 0.4686 := .add h s40 s42 (by norm_num) (by norm_num)
  have s44 : Ap _ _ 1593e-18 0.4691 := .mul h s43 t (by norm_num) (by norm_num)
  have s45 : Ap _ _ 1506e-15 2006 := .sub h s36 s44 (by norm_num) (by norm_num)
  have s46 : Ap _ _ 6423e-15 2009 := .mul h s45 t (by norm_num) (by norm_num)
  have s47 : Ap _ _ 4643e-20 0.00974 := .div h s46 arc (m := 206264) (q := 4399e-20) arcs_abs (by norm_num) (by norm_num) (by norm_num) (by norm_num)
  exact ⟨s29, s47, s18⟩

theorem rev_val (h : Rounds53 r) : (rev : Rnd r).val = 1296000 := by
  have h1 := h.int 360 (by norm_num)
  have h2 := h.int 3600 (by norm_num)
  have h3 := h.int 1296000 (by norm_num)
  show r (r ((360 : ℚ) : ℝ) * r ((3600 : ℚ) : ℝ)) = _
  push_cast at *
  rw [h1, h2]; norm_num; exact h3

omit [Machine] in
theorem rev_R : (rev : ℝ) = 1296000 := by simp only [rev, rsimp]; norm_num

theorem argPolys_ap (h : Rounds53 r) {T : Rnd r} {y : ℝ} (t : Ap T y 2.2e-15 1.001) :
    Ap (argPolys T).1 (argPolys y).1 1e-5 1.8e9 ∧
    Ap (argPolys T).2.1 (argPolys y).2.1 1e-5 1.8e9 ∧
    Ap (argPolys T).2.2.1 (argPolys y).2.2.1 1e-5 1.8e9 ∧
    Ap (argPolys T).2.2.2.1 (argPolys y).2.2.2.1 1e-5 1.8e9 ∧
    Ap (argPolys T).2.2.2.2 (argPolys y).2.2.2.2 1e-5 1.8e9 := by
  have rv : Ap (rev : Rnd r) (rev : ℝ) 0 1296000 := by
    refine ⟨by rw [rev_val h, rev_R]; simp, by rw [rev_R]; norm_num [abs_of_pos]⟩
  have s1 : Ap _ _ 4655e-18 1.003 := .mul h t t (by norm_num) (by norm_num)
  have s2 : Ap _ _ 7118e-18 1.005 := .mul h s1 t (by norm_num) (by norm_num)
  have s3 : Ap _ _ 3313e-16 1325 := .lit h 1325 (by norm_num [abs_of_pos]) (by norm_num)
  have s4 : Ap _ _ 8587e-10 1718000000 := .mul h s3 rv (by norm_num) (by norm_num)
  have s5 : Ap _ _ 179e-12 715922.633 := .lit h 715922.633 (by norm_num [abs_of_pos]) (by norm_num)
  have s6 : Ap _ _ 1289e-9 1719000000 := .add h s4 s5 (by norm_num) (by norm_num)
  have s7 : Ap _ _ 5503e-9 1721000000 := .mul h s6 t (by norm_num) (by norm_num)
  have s8 : Ap _ _ 1215e-13 485866.733 := .lit h 485866.733 (by norm_num [abs_of_pos]) (by norm_num)
  have s9 : Ap _ _ 5934e-9 1722000000 := .add h s8 s7 (by norm_num) (by norm_num)
  have s10 : Ap _ _ 7828e-18 31.31 := .lit h 31.310 (by norm_num [abs_of_pos]) (by norm_num)
  have s11 : Ap _ _ 1615e-16 31.41 := .mul h s10 s1 (by norm_num) (by norm_num)
  have s12 : Ap _ _ 6365e-9 1723000000 := .add h s9 s11 (by norm_num) (by norm_num)
  have s13 : Ap _ _ 16e-18 0.064 := .lit h 0.064 (by norm_num [abs_of_pos]) (by norm_num)
  have s14 : Ap _ _ 4878e-19 0.06432 := .mul h s13 s2 (by norm_num) (by norm_num)
  have s15 : Ap _ _ 6796e-9 1724000000 := .add h s12 s14 (by norm_num) (by norm_num)
  have s16 : Ap _ _ 2475e-17 99 := .lit h 99 (by norm_num [abs_of_pos]) (by norm_num)
  have s17 : Ap _ _ 6416e-11 128400000 := .mul h s16 rv (by norm_num) (by norm_num)
  have s18 : Ap _ _ 3232e-13 1292581.224 := .lit h 1292581.224 (by norm_num [abs_of_pos]) (by norm_num)
  have s19 : Ap _ _ 9691e-11 129700000 := .add h s17 s18 (by norm_num) (by norm_num)
  have s20 : Ap _ _ 4149e-10 129900000 := .mul h s19 t (by norm_num) (by norm_num)
  have s21 : Ap _ _ 3218e-13 1287099.804 := .lit h 1287099.804 (by norm_num [abs_of_pos]) (by norm_num)
  have s22 : Ap _ _ 4481e-10 131200000 := .add h s21 s20 (by norm_num) (by norm_num)
  have s23 : Ap _ _ 1443e-19 0.577 := .lit h 0.577 (by norm_num [abs_of_pos]) (by norm_num)
  have s24 : Ap _ _ 2976e-18 0.5788 := .mul h s23 s1 (by norm_num) (by norm_num)
  have s25 : Ap _ _ 481e-9 131300000 := .sub h s22 s24 (by norm_num) (by norm_num)
  have s26 : Ap _ _ 3e-18 0.012 := .lit h 0.012 (by norm_num [abs_of_pos]) (by norm_num)
  have s27 : Ap _ _ 9145e-20 0.01206 := .mul h s26 s2 (by norm_num) (by norm_num)
  have s28 : Ap _ _ 5139e-10 131400000 := .sub h s25 s27 (by norm_num) (by norm_num)
  have s29 : Ap _ _ 3355e-16 1342 := .lit h 1342 (by norm_num [abs_of_pos]) (by norm_num)
  have s30 : Ap _ _ 8697e-10 174e7 := .mul h s29 rv (by norm_num) (by norm_num)
  have s31 : Ap _ _ 7382e-14 295263.137 := .lit h 295263.137 (by norm_num [abs_of_pos]) (by norm_num)
  have s32 : Ap _ _ 1305e-9 1741000000 := .add h s30 s31 (by norm_num) (by norm_num)
  have s33 : Ap _ _ 5573e-9 1743000000 := .mul h s32 t (by norm_num) (by norm_num)
  have s34 : Ap _ _ 8395e-14 335778.877 := .lit h 335778.877 (by norm_num [abs_of_pos]) (by norm_num)
  have s35 : Ap _ _ 6009e-9 1744000000 := .add h s34 s33 (by norm_num) (by norm_num)
  have s36 : Ap _ _ 3315e-18 13.257 := .lit h 13.257 (by norm_num [abs_of_pos]) (by norm_num)
  have s37 : Ap _ _ 6837e-17 13.3 := .mul h s36 s1 (by norm_num) (by norm_num)
  have s38 : Ap _ _ 6446e-9 1745000000 := .sub h s35 s37 (by norm_num) (by norm_num)
  have s39 : Ap _ _ 275e-20 0.011 := .lit h 0.011 (by norm_num [abs_of_pos]) (by norm_num)
  have s40 : Ap _ _ 8383e-20 0.01106 := .mul h s39 s2 (by norm_num) (by norm_num)
  have s41 : Ap _ _ 6883e-9 1746000000 := .add h s38 s40 (by norm_num) (by norm_num)
  have s42 : Ap _ _ 309e-15 1236 := .lit h 1236 (by norm_num [abs_of_pos]) (by norm_num)
  have s43 : Ap _ _ 801e-9 1602000000 := .mul h s42 rv (by norm_num) (by norm_num)
  have s44 : Ap _ _ 2765e-13 1105601.328 := .lit h 1105601.328 (by norm_num [abs_of_pos]) (by norm_num)
  have s45 : Ap _ _ 1203e-9 1604000000 := .add h s43 s44 (by norm_num) (by norm_num)
  have s46 : Ap _ _ 5135e-9 1606000000 := .mul h s45 t (by norm_num) (by norm_num)
  have s47 : Ap _ _ 2681e-13 1072261.307 := .lit h 1072261.307 (by norm_num [abs_of_pos]) (by norm_num)
  have s48 : Ap _ _ 5538e-9 1608000000 := .add h s47 s46 (by norm_num) (by norm_num)
  have s49 : Ap _ _ 1723e-18 6.891 := .lit h 6.891 (by norm_num [abs_of_pos]) (by norm_num)
  have s50 : Ap _ _ 3554e-17 6.912 := .mul h s49 s1 (by norm_num) (by norm_num)
  have s51 : Ap _ _ 5941e-9 1609000000 := .sub h s48 s50 (by norm_num) (by norm_num)
  have s52 : Ap _ _ 475e-20 0.019 := .lit h 0.019 (by norm_num [abs_of_pos]) (by norm_num)
  have s53 : Ap _ _ 1448e-19 0.0191 := .mul h s52 s2 (by norm_num) (by norm_num)
  have s54 : Ap _ _ 6344e-9 161e7 := .add h s51 s53 (by norm_num) (by norm_num)
  have s55 : Ap _ _ 125e-17 5 := .lit h 5 (by norm_num [abs_of_pos]) (by norm_num)
  have s56 : Ap _ _ 3241e-12 6480000 := .mul h s55 rv (by norm_num) (by norm_num)
  have s57 : Ap _ _ 1208e-13 482890.539 := .lit h 482890.539 (by norm_num [abs_of_pos]) (by norm_num)
  have s58 : Ap _ _ 5103e-12 6963000 := .add h s56 s57 (by norm_num) (by norm_num)
  have s59 : Ap _ _ 2217e-11 6970000 := .mul h s58 t (by norm_num) (by norm_num)
  have s60 : Ap _ _ 1126e-13 450160.28 := .lit h 450160.280 (by norm_num [abs_of_pos]) (by norm_num)
  have s61 : Ap _ _ 2414e-11 7421000 := .sub h s60 s59 (by norm_num) (by norm_num)
  have s62 : Ap _ _ 1864e-18 7.455 := .lit h 7.455 (by norm_num [abs_of_pos]) (by norm_num)
  have s63 : Ap _ _ 3845e-17 7.478 := .mul h s62 s1 (by norm_num) (by norm_num)
  have s64 : Ap _ _ 26e-9 7422000 := .add h s61 s63 (by norm_num) (by norm_num)
  have s65 : Ap _ _ 2e-18 0.008 := .lit h 0.008 (by norm_num [abs_of_pos]) (by norm_num)
  have s66 : Ap _ _ 6097e-20 0.00804 := .mul h s65 s2 (by norm_num) (by norm_num)
  have s67 : Ap _ _ 2786e-11 7423000 := .add h s64 s66 (by norm_num) (by norm_num)
  exact ⟨s15.mono (by norm_num) (by norm_num), s28.mono (by norm_num) (by norm_num), s41.mono (by norm_num) (by norm_num), s54.mono (by norm_num) (by norm_num), s67.mono (by norm_num) (by norm_num)⟩

/-- sidereal time in seconds: computed from the same UT1 -/
theorem gmst_ap (h : Rounds53 r) (x : Rnd r) (hM : |x.val - 51544.5| ≤ 36526) :
    Ap (gmstSec x) (gmstSec x.val) 3009e-11 8762000 := by
  have hx : Ap x x.val 6e-11 88071 := ⟨by norm_num, by rw [abs_le] at hM ⊢; constructor <;> linarith⟩
  have t := cent_ap h hx (by linarith)
  have f0 := Int.floor_le x.val
  have f1 := Int.lt_floor_add_one x.val
  have hf : Ap (Flt.floor x) (Flt.floor x.val) 6e-11 88071 := by
    refine ⟨?_, ?_⟩
    · show |((⌊x.val⌋ : ℤ) : ℝ) - ((⌊x.val⌋ : ℤ) : ℝ)| ≤ _
      norm_num
    · show |((⌊x.val⌋ : ℤ) : ℝ)| ≤ _
      rw [abs_le] at hM ⊢; constructor <;> linarith
  have t0 := cent_ap h hf (by
    show |((⌊x.val⌋ : ℤ) : ℝ) - _| ≤ _
    rw [abs_le] at hM ⊢; constructor <;> linarith)
  have fr : Ap (x - Flt.floor x) (x.val - Flt.floor x.val) 1e-15 1 := by
    refine Ap.sub_mag h (Ap.exact x hx.mag) (⟨?_, hf.mag⟩ : Ap (Flt.floor x) (Flt.floor x.val) 0 88071) ?_ (by norm_num)
    · show |((⌊x.val⌋ : ℤ) : ℝ) - ((⌊x.val⌋ : ℤ) : ℝ)| ≤ _
      norm_num
    · show |x.val - ((⌊x.val⌋ : ℤ) : ℝ)| ≤ _
      rw [abs_le]; constructor <;> linarith
  have s1 : Ap _ _ 6028e-15 24110.54841 := .lit h 24110.54841 (by norm_num [abs_of_pos]) (by norm_num)
  have s2 : Ap _ _ 2161e-12 8640184812866e-6 := .lit h 8640184.812866 (by norm_num [abs_of_pos]) (by norm_num)
  have s3 : Ap _ _ 2334e-11 8649000 := .mul h s2 t0 (by norm_num) (by norm_num)
  have s4 : Ap _ _ 2552e-11 8674000 := .add h s1 s3 (by norm_num) (by norm_num)
  have s5 : Ap _ _ 2507e-19 1002737909350795e-15 := .lit h 1.002737909350795 (by norm_num [abs_of_pos]) (by norm_num)
  have s6 : Ap _ _ 216e-13 86400 := .lit h 86400 (by norm_num [abs_of_pos]) (by norm_num)
  have s7 : Ap _ _ 1297e-13 86400 := .mul h s6 fr (by norm_num) (by norm_num)
  have s8 : Ap _ _ 1734e-13 86640 := .mul h s5 s7 (by norm_num) (by norm_num)
  have s9 : Ap _ _ 2789e-11 8761000 := .add h s4 s8 (by norm_num) (by norm_num)
  have s10 : Ap _ _ 2328e-20 93104e-6 := .lit h 0.093104 (by norm_num [abs_of_pos]) (by norm_num)
  have s11 : Ap _ _ 155e-23 62e-7 := .lit h 0.0000062 (by norm_num [abs_of_pos]) (by norm_num)
  have s12 : Ap _ _ 1675e-23 6207e-9 := .mul h s11 t (by norm_num) (by norm_num)
  have s13 : Ap _ _ 4658e-20 0.09312 := .sub h s10 s12 (by norm_num) (by norm_num)
  have s14 : Ap _ _ 2748e-19 0.09322 := .mul h s13 t (by norm_num) (by norm_num)
  have s15 : Ap _ _ 5035e-19 0.09332 := .mul h s14 t (by norm_num) (by norm_num)
  have s16 : Ap _ _ 3009e-11 8762000 := .add h s9 s15 (by norm_num) (by norm_num)
  exact s16

theorem reduce_ap (h : Rounds53 r) {x : Rnd r} {y : ℝ} (hx : Ap x y 1e-5 1.8e9) : ∃ k : ℤ, Ap (reduceRev x) (y + k * 1296000) 1.1e-5 1296001 := by
  obtain ⟨k, h1, h2, -⟩ := fmod_pos_R x.val 1296000 (by norm_num)
  have h2' := abs_lt.1 h2
  have l : (Flt.fmod x rev).val = x.val - k * 1296000 := by
    show fmodR x.val (rev : Rnd r).val = _
    rw [rev_val h, h1]
  have e := abs_le.1 hx.err
  norm_num at e
  rw [reduceRev]
  by_cases hlt : (Flt.fmod x rev).val < 0
  · have hb : Flt.lt (Flt.fmod x rev) (Flt.lit 0 : Rnd r) = true := decide_eq_true (by rw [Rnd.lit_zero h]; exact hlt)
    rw [if_pos hb]
    have m : |y + ((1 - k : ℤ) : ℝ) * 1296000| ≤ 1296001 := by
      push_cast
      rw [h1] at h2'
      rw [l] at hlt
      rw [abs_le]; constructor <;> linarith
    refine ⟨1 - k, Ap.round h (v := (Flt.fmod x rev).val + (rev : Rnd r).val) (d := 1e-5) ?_ m (by norm_num), m⟩
    rw [l, rev_val h]
    push_cast
    rw [show x.val - k * 1296000 + 1296000 - (y + (1 - k) * 1296000) = x.val - y by ring]
    exact hx.err
  · have hb : ¬ Flt.lt (Flt.fmod x rev) (Flt.lit 0 : Rnd r) = true := by
      rw [show Flt.lt (Flt.fmod x rev) (Flt.lit 0 : Rnd r) = decide ((Flt.fmod x rev).val < (Flt.lit 0 : Rnd r).val) from rfl, Rnd.lit_zero h]
      simpa using hlt
    rw [if_neg hb]
    refine ⟨-k, ?_, ?_⟩
    · rw [l]
      push_cast
      rw [show x.val - k * 1296000 - (y + -k * 1296000) = x.val - y by ring]
      exact hx.err.trans (by norm_num)
    · push_cast
      rw [h1] at h2'
      rw [abs_le]; constructor <;> linarith

theorem ofInt_ap (h : Rounds53 r) (n : ℤ) (hn : |n| ≤ 2 ^ 53) : Ap (Flt.ofInt n : Rnd r) (n : ℝ) 0 |(n : ℝ)| := by
  refine ⟨?_, le_rfl⟩
  show |r (n : ℝ) - n| ≤ 0
  rw [h.int n hn]; simp

/-- the multipliers of the table -/
def NutRow.Small (c : NutRow) : Prop :=
  c.c0.natAbs ≤ 4 ∧ c.c1.natAbs ≤ 4 ∧ c.c2.natAbs ≤ 4 ∧ c.c3.natAbs ≤ 4 ∧ c.c4.natAbs ≤ 4 ∧
  c.c5.natAbs ≤ 2000000 ∧ c.c6.natAbs ≤ 2000000 ∧ c.c7.natAbs ≤ 2000000 ∧ c.c8.natAbs ≤ 2000000

instance (c : NutRow) : Decidable (NutRow.Small c) := by unfold NutRow.Small; infer_instance

omit [Machine] in
theorem nutTable_small : ∀ c ∈ nutTable, NutRow.Small c := by decide +kernel

theorem nutArg_ap (h : Rounds53 r) {x0 x1 x2 x3 x4 : Rnd r} {y0 y1 y2 y3 y4 : ℝ} (a0 : Ap x0 y0 1.1e-5 1296001) (a1 : Ap x1 y1 1.1e-5 1296001) (a2 : Ap x2 y2 1.1e-5 1296001) (a3 : Ap x3 y3 1.1e-5 1296001) (a4 : Ap x4 y4 1.1e-5 1296001)
    (c : NutRow) (hc : NutRow.Small c) : Ap (nutArg x0 x1 x2 x3 x4 c) (nutArg y0 y1 y2 y3 y4 c) 2e-9 200 := by
  obtain ⟨c0, c1, c2, c3, c4, -⟩ := hc
  have arc := arcs_ap h
  have cst : ∀ n : ℤ, n.natAbs ≤ 4 → Ap (Flt.ofInt n : Rnd r) (n : ℝ) 0 4 := fun n hn => by
    have h1 : |n| ≤ 4 := by rw [Int.abs_eq_natAbs]; omega
    exact (ofInt_ap h n (h1.trans (by norm_num))).mono le_rfl (by exact_mod_cast h1)
  have k0 := cst _ c0; have k1 := cst _ c1; have k2 := cst _ c2; have k3 := cst _ c3; have k4 := cst _ c4
  have s1 : Ap _ _ 4401e-8 5185000 := .mul h k0 a0 (by norm_num) (by norm_num)
  have s2 : Ap _ _ 4401e-8 5185000 := .mul h k1 a1 (by norm_num) (by norm_num)
  have s3 : Ap _ _ 8803e-8 10370000 := .add h s1 s2 (by norm_num) (by norm_num)
  have s4 : Ap _ _ 4401e-8 5185000 := .mul h k2 a2 (by norm_num) (by norm_num)
  have s5 : Ap _ _ 1321e-7 15560000 := .add h s3 s4 (by norm_num) (by norm_num)
  have s6 : Ap _ _ 4401e-8 5185000 := .mul h k3 a3 (by norm_num) (by norm_num)
  have s7 : Ap _ _ 1762e-7 20750000 := .add h s5 s6 (by norm_num) (by norm_num)
  have s8 : Ap _ _ 4401e-8 5185000 := .mul h k4 a4 (by norm_num) (by norm_num)
  have s9 : Ap _ _ 2203e-7 25940000 := .add h s7 s8 (by norm_num) (by norm_num)
  have s10 : Ap _ _ 107e-11 125.8 := .div h s9 arc (m := 206264) (q := 1069e-12) arcs_abs (by norm_num) (by norm_num) (by norm_num) (by norm_num)
  exact s10.mono (by norm_num) (by norm_num)

/-- a coefficient of the series -/
theorem coeff_ap (h : Rounds53 r) {T : Rnd r} {y : ℝ} (t : Ap T y 2.2e-15 1.001) (a b : ℤ) (ha : a.natAbs ≤ 2000000) (hb : b.natAbs ≤ 2000000) :
    Ap (Flt.ofInt a + (Flt.ofInt b * T) : Rnd r) (a + b * y) (2e-15 * (|(a : ℝ)| + 2 * |(b : ℝ)|)) (|(a : ℝ)| + 2 * |(b : ℝ)|) := by
  have A := ofInt_ap h a (by rw [Int.abs_eq_natAbs]; omega)
  have B := ofInt_ap h b (by rw [Int.abs_eq_natAbs]; omega)
  have na := abs_nonneg (a : ℝ)
  have nb := abs_nonneg (b : ℝ)
  have za : |(a : ℝ)| = 0 ∨ 1 ≤ |(a : ℝ)| := by
    rcases eq_or_ne a 0 with h | h
    · left; simp [h]
    · right; exact_mod_cast Int.one_le_abs h
  have zb : |(b : ℝ)| = 0 ∨ 1 ≤ |(b : ℝ)| := by
    rcases eq_or_ne b 0 with h | h
    · left; simp [h]
    · right; exact_mod_cast Int.one_le_abs h
  have p := Ap.mul h B t (D := 2.6e-15 * |(b : ℝ)|) (N := 1.001 * |(b : ℝ)|) (by norm_num; linarith) (by linarith)
    (zb.elim (fun z => .inr (by rw [z]; norm_num)) (fun z => .inl (by norm_num; linarith)))
  refine Ap.add h A p (by norm_num; linarith) (by norm_num; linarith) ?_
  rcases za with za | za
  · rcases zb with zb | zb
    · right; rw [za, zb]; norm_num
    · left; norm_num; linarith
  · left; norm_num; linarith

omit [Machine] in
/-- the series, one column -/
theorem series_ap (h : Rounds53 r) (w : NutRow → ℝ) (t : NutRow → Rnd r) (τ : NutRow → ℝ) (L : List NutRow)
    (ht : ∀ c ∈ L, Ap (t c) (τ c) (2.2e-9 * w c) (w c)) (s : Rnd r) (S δ B : ℝ) (hs : |s.val - S| ≤ δ) (hB : |S| ≤ B) (hBw : B + (L.map w).sum ≤ 2e6)
    (hδ : δ + 2.2e-9 * (L.map w).sum + L.length * 1e-9 ≤ 1) :
    |(L.foldl (fun s c => s + t c) s).val - (S + (L.map τ).sum)| ≤ δ + 2.2e-9 * (L.map w).sum + L.length * 1e-9 := by
  induction L generalizing s S δ B with
  | nil => simpa using hs
  | cons c L ih =>
    simp only [List.map_cons, List.sum_cons, List.foldl_cons, List.length_cons] at *
    push_cast at *
    have hc := ht c (by simp)
    have hw : ∀ c' ∈ L, 0 ≤ w c' := fun c' hc' => (ht c' (by simp [hc'])).M_nonneg
    have hsum : 0 ≤ (L.map w).sum := List.sum_nonneg (by simpa using hw)
    have hlen : (0 : ℝ) ≤ L.length := by positivity
    have hw0 := hc.M_nonneg
    have hd0 := (abs_nonneg _).trans hs
    norm_num at hδ hBw
    have hadd := Ap.add h (⟨hs, hB.trans (by linarith)⟩ : Ap s S δ (B + 1)) hc (D := δ + 2.2e-9 * w c + 1e-9) (N := B + 1 + w c) (by norm_num; linarith) le_rfl
      (.inl (by norm_num; linarith [(abs_nonneg _).trans hB]))
    have := ih (fun c' hc' => ht c' (by simp [hc'])) (s + t c) (S + τ c) (δ + 2.2e-9 * w c + 1e-9) (B + w c) hadd.err
      ((abs_add_le _ _).trans (add_le_add hB hc.mag))
      (by norm_num; linarith) (by norm_num; linarith)
    rw [add_assoc S] at this
    refine this.trans (le_of_eq ?_)
    ring

omit [Machine] in
theorem foldl_pair {β γ : Type} (f g : β → γ → β) (L : List γ) (s : β × β) :
    L.foldl (fun (s : β × β) c => (f s.1 c, g s.2 c)) s = (L.foldl f s.1, L.foldl g s.2) := by
  induction L generalizing s with
  | nil => rfl
  | cons c L ih => simp only [List.foldl_cons, ih]

end NavFuse
