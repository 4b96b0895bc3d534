import Verif.Lemmas.RoundNav
import Verif.Lemmas.PvaNedEval

/-! # Rounding errors of the error dynamics in the north-east-down frame -/

set_option linter.unusedVariables false

namespace NavFuse
open Matrix NavUtils Pva Spec Gravity
variable [Machine] {r : ℝ → ℝ}

namespace Aj

/-- a literal that is a double -/
theorem keep (h : Rounds53 r) (q : ℚ) (m e : ℤ) {N : ℝ} (hq : (q : ℝ) = m * (2 : ℝ) ^ e) (hm : |m| ≤ 2 ^ 53) (he : -1074 ≤ e) (hN : |(q : ℝ)| ≤ N)
    (hv : N ≤ 1e200 := by norm_num) : Aj (Flt.lit q : Dbl r) (Flt.lit q : Rnd r) (q : ℝ) 0 N := by
  have e1 : (Flt.lit q : Rnd r).val = (q : ℝ) := by
    show r (q : ℝ) = _
    rw [hq]; exact h.keeps m e hm he
  refine ⟨.lit q (by rw [e1]; exact hN.trans hv), by rw [e1, sub_self, abs_zero], hN⟩

theorem zero (h : Rounds53 r) : Aj (Flt.lit 0 : Dbl r) (Flt.lit 0 : Rnd r) ((0 : ℚ) : ℝ) 0 0 :=
  .keep h 0 0 0 (by norm_num) (by norm_num) (by norm_num) (by norm_num)
theorem one (h : Rounds53 r) : Aj (Flt.lit 1 : Dbl r) (Flt.lit 1 : Rnd r) ((1 : ℚ) : ℝ) 0 1 :=
  .keep h 1 1 0 (by norm_num) (by norm_num) (by norm_num) (by norm_num)
theorem two (h : Rounds53 r) : Aj (Flt.lit 2 : Dbl r) (Flt.lit 2 : Rnd r) ((2 : ℚ) : ℝ) 0 2 :=
  .keep h 2 2 0 (by norm_num) (by norm_num) (by norm_num) (by norm_num)
theorem half (h : Rounds53 r) : Aj (Flt.lit 0.5 : Dbl r) (Flt.lit 0.5 : Rnd r) ((0.5 : ℚ) : ℝ) 0 0.5 :=
  .keep h 0.5 1 (-1) (by norm_num) (by norm_num) (by norm_num) (by norm_num [abs_of_pos])

theorem tan (h : Rounds53 r) {X : Dbl r} {x : Rnd r} {y : ℝ} (a : Aj X x y 0 1.25) : Aj (Flt.tan X) (Flt.tan x) (Real.tan y) 1e-15 3.22 := by
  have c := cos_low (a.mag.trans (by norm_num))
  have e : x.val = y := by have := a.err; rw [abs_nonpos_iff] at this; linarith
  have m : |Real.tan y| ≤ 3.22 := by
    rw [Real.tan_eq_sin_div_cos, abs_div, abs_of_pos (by linarith : 0 < Real.cos y), div_le_iff₀ (by linarith)]
    linarith [Real.abs_sin_le_one y]
  have b : Ap (Flt.tan x) (Real.tan y) 1e-15 3.22 :=
    ⟨Ap.round (Machine.faithful .tan _ _) (d := 0) (by rw [e, sub_self, abs_zero]) m (by norm_num) (.inl (by norm_num)), m⟩
  refine ⟨?_, b⟩
  have hs := a.sim
  rw [Dbl.Sim] at hs ⊢
  rw [hs]
  show Dbl.lb (Machine.lib .tan x.val 0) (Flt.tan (XR.fin x.val)) = _
  rw [XR.X_tan _ (by rw [e]; linarith)]
  exact Dbl.lb_fin ((small b (by norm_num)).trans_lt Dbl.big)

omit [Machine] in
theorem prime_merid_low (φ : ℝ) : (6335439 : ℝ) ^ 2 ≤ radN φ * radM φ := by
  obtain ⟨h1, h2⟩ := w_range φ
  have hp : 0 < ((Flt.lit 1 : ℝ) - eSqG * Flt.powi (Flt.sin φ) 2) ^ ((1.5 : ℚ) : ℝ) := Real.rpow_pos_of_pos (by linarith) _
  have hq : ((Flt.lit 1 : ℝ) - eSqG * Flt.powi (Flt.sin φ) 2) ^ ((1.5 : ℚ) : ℝ) ≤ 1 := Real.rpow_le_one (by linarith) h2 (by norm_num)
  have hp' : 0 < Real.sqrt ((Flt.lit 1 : ℝ) - eSqG * Flt.powi (Flt.sin φ) 2) := Real.sqrt_pos.2 (by linarith)
  have hq' : Real.sqrt ((Flt.lit 1 : ℝ) - eSqG * Flt.powi (Flt.sin φ) 2) ≤ 1 := Real.sqrt_le_one.2 h2
  have hn : (6335439 : ℝ) ≤ (a : ℝ) * (Flt.lit 1 - eSqG) := by
    rw [eSq_R, a_R, ecc2_eq]; simp only [rsimp]; norm_num [semiMajor, flattening]
  have m1 : (6335439 : ℝ) ≤ radM φ := by
    show (6335439 : ℝ) ≤ (a : ℝ) * (Flt.lit 1 - eSqG) / ((Flt.lit 1 : ℝ) - eSqG * Flt.powi (Flt.sin φ) 2) ^ ((1.5 : ℚ) : ℝ)
    rw [le_div_iff₀ hp]; nlinarith
  have m2 : (6335439 : ℝ) ≤ radN φ := by
    show (6335439 : ℝ) ≤ (a : ℝ) / Real.sqrt ((Flt.lit 1 : ℝ) - eSqG * Flt.powi (Flt.sin φ) 2)
    rw [le_div_iff₀ hp', a_R, semiMajor]; linarith
  rw [_root_.sq]; exact mul_le_mul m2 m1 (by norm_num) (by linarith)

theorem gauss (h : Rounds53 r) {X : Dbl r} {x : Rnd r} {y : ℝ} (a : Aj X x y 0 1.25) : Aj (radPhi X) (radPhi x) (radPhi y) 4e-8 6555000 := by
  obtain ⟨hN, hM⟩ := radii_ap h (a.mono (D := 13e-16) (N := 1.251) (by norm_num) (by norm_num))
  have hp : Aj (radN X * radM X) (radN x * radM x) (radN y * radM y) 0.21 4.2234e13 := .mul h hN hM (by norm_num) (by norm_num)
  have lo := prime_merid_low y
  have m : |radPhi y| ≤ 6555000 := by
    show |(radN y * radM y) ^ ((0.5 : ℚ) : ℝ)| ≤ _
    rw [half_pow, abs_of_nonneg (Real.sqrt_nonneg _)]
    refine Real.sqrt_le_iff.2 ⟨by norm_num, (le_abs_self _).trans (hp.mag.trans (by norm_num))⟩
  have x0 : 0 < (radN x * radM x).val := by
    have := (abs_le.1 hp.err).1
    norm_num at lo ⊢; linarith
  have e : |(radN x * radM x).val ^ ((0.5 : ℚ) : ℝ) - radPhi y| ≤ 3.4e-8 := by
    rw [show (radPhi y : ℝ) = (radN y * radM y) ^ ((0.5 : ℚ) : ℝ) from rfl, half_pow, half_pow]
    exact (Ap.sqrt_near (by norm_num : (0 : ℝ) < 6335439) lo hp.err).trans (by norm_num)
  have b : Ap (radPhi x) (radPhi y) 4e-8 6555000 := ⟨Ap.round (Machine.faithful .pow _ _) e m (by norm_num) (.inl (by norm_num)), m⟩
  exact ⟨hp.sim.powq 0.5 x0 (small b (by norm_num)), b⟩
end Aj

omit [Machine] in
theorem rlow (φ z : ℝ) (hz : |z| ≤ 20000) : 6315000 ≤ |radPhi φ + z| := by
  have : (6335439 : ℝ) ≤ radPhi φ := by
    show _ ≤ (radN φ * radM φ) ^ ((0.5 : ℚ) : ℝ)
    rw [half_pow]; exact Real.le_sqrt_of_sq_le (Aj.prime_merid_low φ)
  obtain ⟨g1, g2⟩ := abs_le.1 hz
  rw [le_abs]; left; linarith

omit [Machine] in
theorem rclow (φ z : ℝ) (hφ : |φ| ≤ 1.25) (hz : |z| ≤ 20000) : 1963000 ≤ |(radPhi φ + z) * Flt.cos φ| := by
  have c := cos_low (hφ.trans (by norm_num : (1.25 : ℝ) ≤ 1.251))
  rw [abs_mul]
  have := mul_le_mul (rlow φ z hz) (c.trans (le_abs_self _)) (by norm_num) (abs_nonneg _)
  exact le_trans (by norm_num) this

/-- bounds on the rounding errors in `F` -/
noncomputable def nedTol : Matrix (Fin 9) (Fin 9) ℝ :=
  !![0, 9e-19, 0, 0, 3e-16, 0, 9e-19, 0, 0;
     9e-19, 0, 9e-19, 0, 0, 0, 0, 0, 0;
     0, 9e-19, 0, 0, 3e-16, 0, 9e-19, 0, 0;
     0, 2e-19, 2e-19, 9e-19, 2e-18, 3e-24, 3e-21, 0, 2e-24;
     2e-18, 0, 2e-18, 8e-18, 8e-18, 3e-24, 3e-18, 0, 1e-23;
     0, 0, 0, 9e-11, 2e-10, 0, 7e-14, 0, 3e-19;
     0, 0, 0, 0, 0, 0, 0, 0, 0;
     0, 0, 0, 0, 0, 0, 0, 0, 0;
     0, 0, 0, 0, 0, 0, 0, 0, 0]

/-- the entry is finite and within `t` of the exact one -/
def Within (X : Dbl r) (y t : ℝ) : Prop := ∃ x : ℝ, X = .fin x ∧ |x - y| ≤ t

omit [Machine] in
theorem tolE {X : Dbl r} {x : Rnd r} {y d M t : ℝ} (a : Aj X x y d M) (h : d ≤ t) : Within X y t := ⟨x.val, a.sim, a.err.trans h⟩

set_option maxHeartbeats 4000000 in
theorem nedF_ap (h : Rounds53 r) {AN LLA LD LDD : V3 (Dbl r)} {aN lla ld ldd : V3 (Rnd r)} {s p rate acc : V3 ℝ} {GN : M3 (Dbl r)} {gN : M3 (Rnd r)} {Γ : M3 ℝ}
    (y0 : Aj (LLA 0) (lla 0) (p 0) 0 1.25) (y2 : Aj (LLA 2) (lla 2) (p 2) 0 20000)
    (v0 : Aj (LD 0) (ld 0) (rate 0) 0 1e-3) (v1 : Aj (LD 1) (ld 1) (rate 1) 0 1e-3) (v2 : Aj (LD 2) (ld 2) (rate 2) 0 400)
    (w0 : Aj (LDD 0) (ldd 0) (acc 0) 0 1e-3) (w1 : Aj (LDD 1) (ldd 1) (acc 1) 0 1e-3)
    (a0 : Aj (AN 0) (aN 0) (s 0) 0 100) (a1 : Aj (AN 1) (aN 1) (s 1) 0 100) (a2 : Aj (AN 2) (aN 2) (s 2) 0 100)
    (g2 : Aj (GN 2 2) (gN 2 2) (Γ 2 2) 0 1e-3) (i j : Fin 9) :
    Within (nedF AN GN LLA LD LDD i j) (nedF s Γ p rate acc i j) (nedTol i j) := by
  have we := wE_ap h
  have ht := Aj.tan h y0
  have hphi := Aj.gauss h y0
  have hhalf := Aj.half h
  have z : Aj _ _ _ 0 0 := .zero h
  have s1 : Aj _ _ _ 25e-17 1 := .sin h y0 (by norm_num)
  have s2 : Aj _ _ _ 25e-17 1 := .cos h y0 (by norm_num)
  have s3 : Aj _ _ _ 0 2 := .two h
  have s4 : Aj _ _ _ 625e-18 25e-1 := .mul h s3 y0 (by norm_num) (by norm_num)
  have s5 : Aj _ _ _ 8751e-19 1 := .sin h s4 (by norm_num)
  have s6 : Aj _ _ _ 8751e-19 1 := .cos h s4 (by norm_num)
  have s7 : Aj _ _ _ 4165e-11 6575000 := .add h hphi y2 (by norm_num) (by norm_num)
  have s8 : Aj _ _ _ 323e-21 1073e-6 := .add h v1 we (by norm_num) (by norm_num)
  have s9 : Aj _ _ _ 1459e-22 14586e-8 := .mul h s3 we (by norm_num) (by norm_num)
  have s10 : Aj _ _ _ 4324e-22 11459e-7 := .add h v1 s9 (by norm_num) (by norm_num)
  have s11 : Aj _ _ _ 323e-21 1073e-6 := .neg s8
  have s12 : Aj _ _ _ 8596e-22 1073e-6 := .mul h s11 s1 (by norm_num) (by norm_num)
  have s13 : Aj _ _ _ 8596e-22 1073e-6 := .mul h s8 s1 (by norm_num) (by norm_num)
  have s14 : Aj _ _ _ 8596e-22 1073e-6 := .mul h s8 s2 (by norm_num) (by norm_num)
  have s15 : Aj _ _ _ 0 1 := .one h
  have s16 : Aj _ _ _ 0 1 := .neg s15
  have s17 : Aj _ _ _ 0 1e-3 := .neg v0
  have s18 : Aj _ _ _ 8596e-22 1073e-6 := .mul h s11 s2 (by norm_num) (by norm_num)
  have s19 : Aj _ _ _ 25e-17 1 := .neg s1
  have s20 : Aj _ _ _ 0 100 := .neg a2
  have s21 : Aj _ _ _ 1085e-22 15836e-9 := .div h s20 s7 (m := 6315000) (q := 1045e-22) (rlow _ _ y2.mag) (by norm_num) (by norm_num) (by norm_num) (by norm_num)
  have s22 : Aj _ _ _ 1085e-22 15836e-9 := .div h a1 s7 (m := 6315000) (q := 1045e-22) (rlow _ _ y2.mag) (by norm_num) (by norm_num) (by norm_num) (by norm_num)
  have s23 : Aj _ _ _ 0 2 := .neg s3
  have s24 : Aj _ _ _ 2e-13 800 := .mul h s23 v2 (by norm_num) (by norm_num)
  have s25 : Aj _ _ _ 8989e-22 12669e-8 := .div h s24 s7 (m := 6315000) (q := 8672e-22) (rlow _ _ y2.mag) (by norm_num) (by norm_num) (by norm_num) (by norm_num)
  have s26 : Aj _ _ _ 1531e-21 1073e-6 := .mul h s11 s5 (by norm_num) (by norm_num)
  have s27 : Aj _ _ _ 5e-19 2e-3 := .mul h s23 v0 (by norm_num) (by norm_num)
  have s28 : Aj _ _ _ 2248e-27 31671e-14 := .div h s27 s7 (m := 6315000) (q := 2168e-27) (rlow _ _ y2.mag) (by norm_num) (by norm_num) (by norm_num) (by norm_num)
  have s29 : Aj _ _ _ 0 1e-3 := .neg v1
  have s30 : Aj _ _ _ 7189e-25 11459e-10 := .mul h s29 s10 (by norm_num) (by norm_num)
  have s31 : Aj _ _ _ 2009e-24 11459e-10 := .mul h s30 s6 (by norm_num) (by norm_num)
  have s32 : Aj _ _ _ 125e-21 5e-4 := .mul h hhalf v1 (by norm_num) (by norm_num)
  have s33 : Aj _ _ _ 5027e-25 57295e-11 := .mul h s32 s10 (by norm_num) (by norm_num)
  have s34 : Aj _ _ _ 1148e-24 57295e-11 := .mul h s33 s5 (by norm_num) (by norm_num)
  have s35 : Aj _ _ _ 2513e-22 10006e-7 := .add h w0 s34 (by norm_num) (by norm_num)
  have s36 : Aj _ _ _ 4165e-11 6575000 := .neg s7
  have s37 : Aj _ _ _ 1125e-27 15845e-14 := .div h s35 s36 (m := 6315000) (q := 1085e-27) (by rw [abs_neg]; exact rlow _ _ y2.mag) (by norm_num) (by norm_num) (by norm_num) (by norm_num)
  have s38 : Aj _ _ _ 4494e-11 6575000 := .mul h s7 s2 (by norm_num) (by norm_num)
  have s39 : Aj _ _ _ 118e-20 50943e-9 := .div h a2 s38 (m := 1963000) (q := 1167e-21) (rclow _ _ y0.mag y2.mag) (by norm_num) (by norm_num) (by norm_num) (by norm_num)
  have s40 : Aj _ _ _ 0 100 := .neg a0
  have s41 : Aj _ _ _ 118e-20 50943e-9 := .div h s40 s38 (m := 1963000) (q := 1167e-21) (rclow _ _ y0.mag y2.mag) (by norm_num) (by norm_num) (by norm_num) (by norm_num)
  have s42 : Aj _ _ _ 1183e-21 2146e-6 := .mul h s3 s8 (by norm_num) (by norm_num)
  have s43 : Aj _ _ _ 7683e-21 69102e-7 := .mul h s42 ht (by norm_num) (by norm_num)
  have s44 : Aj _ _ _ 1806e-21 322e-5 := .mul h v0 ht (by norm_num) (by norm_num)
  have s45 : Aj _ _ _ 4337e-22 63342e-9 := .div h v2 s7 (m := 6315000) (q := 4178e-22) (rlow _ _ y2.mag) (by norm_num) (by norm_num) (by norm_num) (by norm_num)
  have s46 : Aj _ _ _ 3061e-21 32834e-7 := .sub h s44 s45 (by norm_num) (by norm_num)
  have s47 : Aj _ _ _ 7764e-21 65668e-7 := .mul h s3 s46 (by norm_num) (by norm_num)
  have s48 : Aj _ _ _ 1183e-21 2146e-6 := .mul h s23 s8 (by norm_num) (by norm_num)
  have s49 : Aj _ _ _ 2514e-27 33983e-14 := .div h s48 s7 (m := 6315000) (q := 2429e-27) (rlow _ _ y2.mag) (by norm_num) (by norm_num) (by norm_num) (by norm_num)
  have s50 : Aj _ _ _ 7221e-16 1288 := .mul h v2 ht (by norm_num) (by norm_num)
  have s51 : Aj _ _ _ 1511e-21 20396e-8 := .div h s50 s7 (m := 6315000) (q := 146e-20) (rlow _ _ y2.mag) (by norm_num) (by norm_num) (by norm_num) (by norm_num)
  have s52 : Aj _ _ _ 1812e-21 1204e-6 := .add h v0 s51 (by norm_num) (by norm_num)
  have s53 : Aj _ _ _ 5959e-24 25838e-10 := .mul h s42 s52 (by norm_num) (by norm_num)
  have s54 : Aj _ _ _ 1806e-21 322e-5 := .mul h w1 ht (by norm_num) (by norm_num)
  have s55 : Aj _ _ _ 2618e-21 32226e-7 := .add h s53 s54 (by norm_num) (by norm_num)
  have s56 : Aj _ _ _ 5e-19 2e-3 := .mul h s3 v0 (by norm_num) (by norm_num)
  have s57 : Aj _ _ _ 5221e-21 644e-5 := .mul h s56 ht (by norm_num) (by norm_num)
  have s58 : Aj _ _ _ 7082e-21 744e-5 := .sub h s57 w1 (by norm_num) (by norm_num)
  have s59 : Aj _ _ _ 9187e-27 11782e-13 := .div h s58 s7 (m := 6315000) (q := 8892e-27) (rlow _ _ y2.mag) (by norm_num) (by norm_num) (by norm_num) (by norm_num)
  have s60 : Aj _ _ _ 0 100 := .neg a0
  have s61 : Aj _ _ _ 8659e-11 1315000e1 := .mul h s3 s7 (by norm_num) (by norm_num)
  have s62 : Aj _ _ _ 8988e-14 13150 := .mul h s61 v0 (by norm_num) (by norm_num)
  have s63 : Aj _ _ _ 7501e-19 1 := .sq h s2 (by norm_num) (by norm_num)
  have s64 : Aj _ _ _ 1007e-13 14110 := .mul h s61 s8 (by norm_num) (by norm_num)
  have s65 : Aj _ _ _ 1149e-13 14110 := .mul h s64 s63 (by norm_num) (by norm_num)
  have s66 : Aj _ _ _ 4165e-11 6575000 := .neg s7
  have s67 : Aj _ _ _ 433e-13 6575 := .mul h s66 v1 (by norm_num) (by norm_num)
  have s68 : Aj _ _ _ 5435e-17 75343e-4 := .mul h s67 s10 (by norm_num) (by norm_num)
  have s69 : Aj _ _ _ 6283e-17 75343e-4 := .mul h s68 s5 (by norm_num) (by norm_num)
  have s70 : Aj _ _ _ 25e-23 1e-6 := .mul h v0 v0 (by norm_num) (by norm_num)
  have s71 : Aj _ _ _ 7189e-25 11459e-10 := .mul h v1 s10 (by norm_num) (by norm_num)
  have s72 : Aj _ _ _ 1865e-24 11459e-10 := .mul h s71 s63 (by norm_num) (by norm_num)
  have s73 : Aj _ _ _ 2652e-24 21459e-10 := .add h s70 s72 (by norm_num) (by norm_num)
  have s74 : Aj _ _ _ 2532e-22 10022e-7 := .add h s73 g2 (by norm_num) (by norm_num)
  fin_cases i <;> fin_cases j
  · exact tolE z (by norm_num [nedTol])
  · exact tolE s12 (by norm_num [nedTol])
  · exact tolE v0 (by norm_num [nedTol])
  · exact tolE z (by norm_num [nedTol])
  · exact tolE s2 (by norm_num [nedTol])
  · exact tolE z (by norm_num [nedTol])
  · exact tolE s12 (by norm_num [nedTol])
  · exact tolE z (by norm_num [nedTol])
  · exact tolE z (by norm_num [nedTol])
  · exact tolE s13 (by norm_num [nedTol])
  · exact tolE z (by norm_num [nedTol])
  · exact tolE s14 (by norm_num [nedTol])
  · exact tolE s16 (by norm_num [nedTol])
  · exact tolE z (by norm_num [nedTol])
  · exact tolE z (by norm_num [nedTol])
  · exact tolE z (by norm_num [nedTol])
  · exact tolE z (by norm_num [nedTol])
  · exact tolE z (by norm_num [nedTol])
  · exact tolE s17 (by norm_num [nedTol])
  · exact tolE s18 (by norm_num [nedTol])
  · exact tolE z (by norm_num [nedTol])
  · exact tolE z (by norm_num [nedTol])
  · exact tolE s19 (by norm_num [nedTol])
  · exact tolE z (by norm_num [nedTol])
  · exact tolE s18 (by norm_num [nedTol])
  · exact tolE z (by norm_num [nedTol])
  · exact tolE z (by norm_num [nedTol])
  · exact tolE z (by norm_num [nedTol])
  · exact tolE s21 (by norm_num [nedTol])
  · exact tolE s22 (by norm_num [nedTol])
  · exact tolE s25 (by norm_num [nedTol])
  · exact tolE s26 (by norm_num [nedTol])
  · exact tolE s28 (by norm_num [nedTol])
  · exact tolE s31 (by norm_num [nedTol])
  · exact tolE z (by norm_num [nedTol])
  · exact tolE s37 (by norm_num [nedTol])
  · exact tolE s39 (by norm_num [nedTol])
  · exact tolE z (by norm_num [nedTol])
  · exact tolE s41 (by norm_num [nedTol])
  · exact tolE s43 (by norm_num [nedTol])
  · exact tolE s47 (by norm_num [nedTol])
  · exact tolE s49 (by norm_num [nedTol])
  · exact tolE s55 (by norm_num [nedTol])
  · exact tolE z (by norm_num [nedTol])
  · exact tolE s59 (by norm_num [nedTol])
  · exact tolE a1 (by norm_num [nedTol])
  · exact tolE s60 (by norm_num [nedTol])
  · exact tolE z (by norm_num [nedTol])
  · exact tolE s62 (by norm_num [nedTol])
  · exact tolE s65 (by norm_num [nedTol])
  · exact tolE z (by norm_num [nedTol])
  · exact tolE s69 (by norm_num [nedTol])
  · exact tolE z (by norm_num [nedTol])
  · exact tolE s74 (by norm_num [nedTol])
  · exact tolE z (by norm_num [nedTol])
  · exact tolE z (by norm_num [nedTol])
  · exact tolE z (by norm_num [nedTol])
  · exact tolE s15 (by norm_num [nedTol])
  · exact tolE z (by norm_num [nedTol])
  · exact tolE z (by norm_num [nedTol])
  · exact tolE z (by norm_num [nedTol])
  · exact tolE z (by norm_num [nedTol])
  · exact tolE z (by norm_num [nedTol])
  · exact tolE z (by norm_num [nedTol])
  · exact tolE z (by norm_num [nedTol])
  · exact tolE z (by norm_num [nedTol])
  · exact tolE z (by norm_num [nedTol])
  · exact tolE s15 (by norm_num [nedTol])
  · exact tolE z (by norm_num [nedTol])
  · exact tolE z (by norm_num [nedTol])
  · exact tolE z (by norm_num [nedTol])
  · exact tolE z (by norm_num [nedTol])
  · exact tolE z (by norm_num [nedTol])
  · exact tolE z (by norm_num [nedTol])
  · exact tolE z (by norm_num [nedTol])
  · exact tolE z (by norm_num [nedTol])
  · exact tolE z (by norm_num [nedTol])
  · exact tolE s15 (by norm_num [nedTol])
  · exact tolE z (by norm_num [nedTol])
  · exact tolE z (by norm_num [nedTol])
  · exact tolE z (by norm_num [nedTol])

end NavFuse
