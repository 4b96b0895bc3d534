import Verif.Props.Init
import Verif.Lemmas.RoundZero
import Verif.Lemmas.RoundKalman

/-! # Rounding errors of coarse alignment -/

namespace NavFuse.Props.AlignDbl
open Matrix NavFuse.Init NavFuse.Props.Align NavFuse.Spec
variable [Machine] {r : ℝ → ℝ}

/-- a vector of doubles -/
abbrev dv (v : V3 ℝ) : V3 (Dbl r) := fun i => .fin (v i)
/-- a matrix of doubles -/
abbrev dm (A : M3 ℝ) : M3 (Dbl r) := of fun i j => .fin (A i j)

theorem cos_rz (lat : ℝ) (hc : 1e-10 ≤ |Real.cos lat|) : Rz (Flt.cos (.fin lat : Dbl r)) (Real.cos lat) 1 |Real.cos lat| := by
  have hm : (1e-250 : ℝ) ≤ |Real.cos lat| := le_trans (by norm_num) hc
  have h1 := (Machine.faithful .cos lat 0).rel_floor le_rfl hm
  have e1 : |Machine.lib .cos lat 0 (Real.cos lat) - Real.cos lat| ≤ (gr 1 - 1) * |Real.cos lat| := by
    rw [gr, pow_one]; convert h1 using 2; ring
  refine ⟨⟨⟨_, Dbl.lb_fin (lt_of_le_of_lt ((Rl.val_le e1 le_rfl).trans ?_) Dbl.big), e1⟩, le_rfl⟩, .inl hm⟩
  have := mul_le_mul (gr_le_two (k := 1) (by norm_num)) (Real.abs_cos_le_one lat) (abs_nonneg _) (by norm_num)
  refine this.trans (by norm_num)

theorem sin_rz (lat : ℝ) : Rz (Flt.sin (.fin lat : Dbl r)) (Real.sin lat) 1 1 := by
  have h1 := (Machine.faithful .sin lat 0).rel_floor (Real.abs_sin_le_one lat) (by norm_num)
  have e1 : |Machine.lib .sin lat 0 (Real.sin lat) - Real.sin lat| ≤ (gr 1 - 1) * 1 := by
    rw [gr, pow_one]; convert h1 using 2; ring
  refine ⟨⟨⟨_, Dbl.lb_fin (lt_of_le_of_lt ((Rl.val_le e1 (Real.abs_sin_le_one lat)).trans ?_) Dbl.big), e1⟩, Real.abs_sin_le_one lat⟩, .inl (by norm_num)⟩
  have := mul_le_mul_of_nonneg_right (gr_le_two (k := 1) (by norm_num)) (zero_le_one (α := ℝ))
  refine this.trans (by norm_num)

section
variable (lat wE g : ℝ)

/-- the entries of the matrix that is inverted -/
theorem alignA_rz (h : Rounds53 r) (hw : 1e-20 ≤ wE ∧ wE ≤ 1e20) (hg : 1e-20 ≤ g ∧ g ≤ 1e20) (hc : 1e-10 ≤ |Real.cos lat|) (i j : Fin 3) :
    Rz ((alignA (.fin lat : Dbl r) (.fin wE) (.fin g)) i j) (rA lat wE g i j) 3
      ((!![0, 0, g; wE * |Real.cos lat|, 0, wE; 0, g * wE * |Real.cos lat|, 0] : M3 ℝ) i j) := by
  have c1 := Real.abs_cos_le_one lat
  have pw : 0 < wE := lt_of_lt_of_le (by norm_num) hw.1
  have pg : 0 < g := lt_of_lt_of_le (by norm_num) hg.1
  have pc : 0 < |Real.cos lat| := lt_of_lt_of_le (by norm_num) hc
  have Rw : Rz (.fin wE : Dbl r) wE 0 wE := Rz.exact (abs_of_pos pw).le (le_trans (by norm_num) hw.1)
  have Rg : Rz (.fin g : Dbl r) g 0 g := Rz.exact (abs_of_pos pg).le (le_trans (by norm_num) hg.1)
  have Rc := cos_rz (r := r) lat hc
  have Rs := sin_rz (r := r) lat
  have gw1 : (1e-40 : ℝ) ≤ g * wE := floor_mul hg.1 hw.1 (by norm_num) (by norm_num) (by norm_num)
  have gw2 : g * wE ≤ 1e40 := (mul_le_mul hg.2 hw.2 pw.le (by norm_num)).trans (by norm_num)
  have wc2 : wE * |Real.cos lat| ≤ 1e20 := (mul_le_mul hw.2 c1 pc.le (by norm_num)).trans (by norm_num)
  have a10 := Rw.mul h Rc (fun _ _ => floor_mul hw.1 hc (by norm_num) (by norm_num) (by norm_num)) (wc2.trans (by norm_num)) (by norm_num)
  have a12 := Rw.neg.mul h Rs (fun _ _ => by rw [mul_one]; exact le_trans (by norm_num) hw.1) (by rw [mul_one]; exact hw.2.trans (by norm_num)) (by norm_num)
  rw [mul_one] at a12
  have a21' := Rg.mul h Rw (fun _ _ => le_trans (by norm_num) gw1) (gw2.trans (by norm_num)) (by norm_num)
  have a21 := a21'.mul h Rc (fun _ _ => floor_mul gw1 hc (by norm_num) (by norm_num) (by norm_num))
    ((mul_le_mul gw2 c1 pc.le (by norm_num)).trans (by norm_num)) (by norm_num)
  fin_cases i <;> fin_cases j
  · exact Rz.zero h
  · exact Rz.zero h
  · exact (Rg.neg).mono (by norm_num)
  · exact a10.mono (by norm_num)
  · exact Rz.zero h
  · exact a12.mono (by norm_num)
  · exact Rz.zero h
  · exact a21
  · exact Rz.zero h

/-- bounds of the entries -/
noncomputable def MA : M3 ℝ := !![0, 0, g; wE * |Real.cos lat|, 0, wE; 0, g * wE * |Real.cos lat|, 0]
/-- bounds of the entries of the inverse -/
noncomputable def MI : M3 ℝ := !![1 / (g * |Real.cos lat|), 1 / (wE * |Real.cos lat|), 0; 0, 0, 1 / (g * wE * |Real.cos lat|); 1 / g, 0, 0]

omit [Machine] in
theorem inv_rA (hg : g ≠ 0) (hw : wE ≠ 0) (hc : Real.cos lat ≠ 0) (i j : Fin 3) :
    (rA lat wE g)⁻¹ i j = cofactor3 (rA lat wE g) j i * (1 / -(g * wE * Real.cos lat) ^ 2) := by
  have e : (rA lat wE g)⁻¹ = of fun i j => cofactor3 (rA lat wE g) j i * (1 / -(g * wE * Real.cos lat) ^ 2) := by
    refine inv_eq_right_inv ?_
    ext i j
    fin_cases i <;> fin_cases j <;> simp [rA, cofactor3, mul_apply, Fin.sum_univ_three] <;> (field_simp; try ring)
  rw [e]; rfl

/-- the computed inverse -/
theorem inv_rz (h : Rounds53 r) (hw : 1e-20 ≤ wE ∧ wE ≤ 1e20) (hg : 1e-20 ≤ g ∧ g ≤ 1e20) (hc : 1e-10 ≤ |Real.cos lat|) (i j : Fin 3) :
    Rz (inv3 (alignA (.fin lat : Dbl r) (.fin wE) (.fin g)) i j) ((rA lat wE g)⁻¹ i j) 38 (MI lat wE g i j) := by
  have c1 := Real.abs_cos_le_one lat
  have pw : 0 < wE := lt_of_lt_of_le (by norm_num) hw.1
  have pg : 0 < g := lt_of_lt_of_le (by norm_num) hg.1
  have pc : 0 < |Real.cos lat| := lt_of_lt_of_le (by norm_num) hc
  have hA := alignA_rz (r := r) lat wE g h hw hg hc
  have gw1 : (1e-40 : ℝ) ≤ g * wE := floor_mul hg.1 hw.1 (by norm_num) (by norm_num) (by norm_num)
  have gw2 : g * wE ≤ 1e40 := (mul_le_mul hg.2 hw.2 pw.le (by norm_num)).trans (by norm_num)
  have wc1 : (1e-30 : ℝ) ≤ wE * |Real.cos lat| := floor_mul hw.1 hc (by norm_num) (by norm_num) (by norm_num)
  have wc2 : wE * |Real.cos lat| ≤ 1e20 := (mul_le_mul hw.2 c1 pc.le (by norm_num)).trans (by norm_num)
  have gwc1 : (1e-50 : ℝ) ≤ g * wE * |Real.cos lat| := floor_mul gw1 hc (by norm_num) (by norm_num) (by norm_num)
  have gwc2 : g * wE * |Real.cos lat| ≤ 1e40 := (mul_le_mul gw2 c1 pc.le (by norm_num)).trans (by norm_num)
  have lo : ∀ i j, MA lat wE g i j ≠ 0 → 1e-50 ≤ MA lat wE g i j := by
    intro i j
    fin_cases i <;> fin_cases j <;> simp [MA] <;> intros <;> first | exact gwc1 | exact le_trans (by norm_num) wc1 | exact le_trans (by norm_num) hg.1 | exact le_trans (by norm_num) hw.1
  have hi : ∀ i j, 0 ≤ MA lat wE g i j ∧ MA lat wE g i j ≤ 1e40 := by
    intro i j
    fin_cases i <;> fin_cases j <;> simp [MA] <;> (try constructor) <;> first | positivity | exact gwc2 | exact wc2.trans (by norm_num) | exact hg.2.trans (by norm_num) | exact hw.2.trans (by norm_num)
  have lo2 : ∀ i j k l, MA lat wE g i j ≠ 0 → MA lat wE g k l ≠ 0 → 1e-100 ≤ MA lat wE g i j * MA lat wE g k l := fun i j k l h1 h2 =>
    floor_mul (lo i j h1) (lo k l h2) (by norm_num) (by norm_num) (by norm_num)
  have hi2 : ∀ i j k l, MA lat wE g i j * MA lat wE g k l ≤ 1e80 := fun i j k l =>
    (mul_le_mul (hi i j).2 (hi k l).2 (hi k l).1 (by norm_num)).trans (by norm_num)
  have hcof : ∀ i j, Rz (cofactor3 (alignA (.fin lat : Dbl r) (.fin wE) (.fin g)) i j) (cofactor3 (rA lat wE g) i j) 8
      (MA lat wE g (i + 1) (j + 1) * MA lat wE g (i + 2) (j + 2) + MA lat wE g (i + 1) (j + 2) * MA lat wE g (i + 2) (j + 1)) := fun i j =>
    ((hA _ _).mul h (hA _ _) (fun h1 h2 => le_trans (by norm_num) (lo2 _ _ _ _ h1 h2)) ((hi2 _ _ _ _).trans (by norm_num)) (by norm_num)).sub h
      ((hA _ _).mul h (hA _ _) (fun h1 h2 => le_trans (by norm_num) (lo2 _ _ _ _ h1 h2)) ((hi2 _ _ _ _).trans (by norm_num)) (by norm_num))
      (by refine (add_le_add (hi2 _ _ _ _) (hi2 _ _ _ _)).trans (by norm_num)) (by norm_num)
  set W := wE * |Real.cos lat| with hW
  set G := g * wE * |Real.cos lat| with hG
  have pW : 0 < W := mul_pos pw pc
  have pG : 0 < G := mul_pos (mul_pos pg pw) pc
  have hcof' : ∀ i j, Rz (cofactor3 (alignA (.fin lat : Dbl r) (.fin wE) (.fin g)) i j) (cofactor3 (rA lat wE g) i j) 8
      ((!![wE * G, 0, W * G; G * g, 0, 0; 0, g * W, 0] : M3 ℝ) i j) := by
    intro i j
    have := hcof i j
    revert this
    fin_cases i <;> fin_cases j <;> simp [MA, ← hW, ← hG]
  have GG1 : (1e-100 : ℝ) ≤ G * G := floor_mul gwc1 gwc1 (by norm_num) (by norm_num) (by norm_num)
  have GG2 : G * G ≤ 1e80 := (mul_le_mul gwc2 gwc2 pG.le (by norm_num)).trans (by norm_num)
  have gW : g * W = G := by rw [hW, hG, mul_assoc]
  have hterm : ∀ l, Rz (cofactor3 (alignA (.fin lat : Dbl r) (.fin wE) (.fin g)) l 0 * alignA (.fin lat : Dbl r) (.fin wE) (.fin g) l 0)
      (cofactor3 (rA lat wE g) l 0 * rA lat wE g l 0) 12 ((![0, G * G, 0] : V3 ℝ) l) := by
    intro l
    have eM : (!![wE * G, 0, W * G; G * g, 0, 0; 0, g * W, 0] : M3 ℝ) l 0 * (!![0, 0, g; W, 0, wE; 0, G, 0] : M3 ℝ) l 0 = (![0, G * G, 0] : V3 ℝ) l := by
      fin_cases l <;> simp
      rw [mul_assoc, gW]
    have hz : (![0, G * G, 0] : V3 ℝ) l ≤ 1e199 := by
      fin_cases l
      · exact (by norm_num : (0 : ℝ) ≤ 1e199)
      · exact GG2.trans (by norm_num)
      · exact (by norm_num : (0 : ℝ) ≤ 1e199)
    rw [← eM] at hz ⊢
    refine (hcof' l 0).mul h (hA l 0) (fun h1 h2 => ?_) hz (by norm_num)
    rw [eM]
    fin_cases l
    · exact absurd rfl h2
    · exact le_trans (by norm_num) GG1
    · exact absurd rfl h1
  have key := Rz.fsum3 h (k := 12) hterm (by simpa using GG2.trans (by norm_num)) (by norm_num)
  have e1 : cofactor3 (rA lat wE g) 0 0 * rA lat wE g 0 0 + cofactor3 (rA lat wE g) 1 0 * rA lat wE g 1 0 + cofactor3 (rA lat wE g) 2 0 * rA lat wE g 2 0
      = -(g * wE * Real.cos lat) ^ 2 := by
    simp [cofactor3, rA]; ring
  have e2 : |(-(g * wE * Real.cos lat) ^ 2)| = G * G := by
    rw [abs_neg, abs_pow, abs_mul, abs_mul, abs_of_pos pg, abs_of_pos pw, ← hG, sq]
  have e3 : (![0, G * G, 0] : V3 ℝ) 0 + (![0, G * G, 0] : V3 ℝ) 1 + (![0, G * G, 0] : V3 ℝ) 2 = |(-(g * wE * Real.cos lat) ^ 2)| := by
    rw [e2]; simp
  rw [e1, e3] at key
  have hinv := key.inv h (by rw [e2]; exact le_trans (by norm_num) GG1) (by rw [e2]; exact GG2.trans (by norm_num)) (by norm_num)
  rw [e2] at hinv
  rw [inv_rA lat wE g pg.ne' pw.ne' (abs_pos.1 pc)]
  have eM : (!![wE * G, 0, W * G; G * g, 0, 0; 0, g * W, 0] : M3 ℝ) j i * (1 / (G * G)) = MI lat wE g i j := by
    fin_cases i <;> fin_cases j <;> simp [MI, hG, hW] <;> field_simp
  have box : ∀ x : ℝ, 1e-50 ≤ x → x ≤ 1e40 → 1e-100 ≤ 1 / x ∧ 1 / x ≤ 1e50 := fun x x1 x2 => by
    have px : 0 < x := lt_of_lt_of_le (by norm_num) x1
    rw [le_div_iff₀ px, div_le_iff₀ px]
    have a1 := mul_le_mul_of_nonneg_left x1 (by norm_num : (0 : ℝ) ≤ 1e50)
    have a2 := mul_le_mul_of_nonneg_left x2 (by norm_num : (0 : ℝ) ≤ 1e-100)
    exact ⟨a2.trans (by norm_num), le_trans (by norm_num) a1⟩
  have gc1 : (1e-50 : ℝ) ≤ g * |Real.cos lat| := floor_mul hg.1 hc (by norm_num) (by norm_num) (by norm_num)
  have gc2 : g * |Real.cos lat| ≤ 1e40 := (mul_le_mul hg.2 c1 pc.le (by norm_num)).trans (by norm_num)
  have B1 := box _ gc1 gc2
  have B2 := box W (le_trans (by norm_num) wc1) (wc2.trans (by norm_num))
  have B3 := box G gwc1 gwc2
  have B4 := box g (le_trans (by norm_num) hg.1) (hg.2.trans (by norm_num))
  have hfin : 1e-100 ≤ MI lat wE g i j ∨ MI lat wE g i j = 0 := by
    fin_cases i <;> fin_cases j <;> first | exact .inr rfl | exact .inl B1.1 | exact .inl B2.1 | exact .inl B3.1 | exact .inl B4.1
  have hcap : MI lat wE g i j ≤ 1e50 := by
    have z : (0 : ℝ) ≤ 1e50 := by norm_num
    fin_cases i <;> fin_cases j <;> first | exact z | exact B1.2 | exact B2.2 | exact B3.2 | exact B4.2
  rw [← eM] at hfin hcap ⊢
  exact (hcof' j i).mul h hinv (fun h1 h2 => hfin.elim (fun h3 => le_trans (by norm_num) h3) (fun h3 => absurd h3 (mul_ne_zero h1 h2)))
    (hcap.trans (by norm_num)) (by norm_num)

omit [Machine] in
/-- the matrix of the readings -/
theorem alignB_rz (h : Rounds53 r) (hw : 1e-20 ≤ wE ∧ wE ≤ 1e20) (hg : 1e-20 ≤ g ∧ g ≤ 1e20) (a w : V3 ℝ) (ha : ∀ i, |a i| ≤ 2 * g)
    (hω : ∀ i, |w i| ≤ 2 * wE) (i j : Fin 3) :
    Rz (alignB (dv a : V3 (Dbl r)) (dv w) i j) (rB a w i j) 2 ((![2 * g, 2 * wE, 8 * (g * wE)] : V3 ℝ) i) := by
  have pw : 0 < wE := lt_of_lt_of_le (by norm_num) hw.1
  have pg : 0 < g := lt_of_lt_of_le (by norm_num) hg.1
  have gw1 : (1e-40 : ℝ) ≤ g * wE := floor_mul hg.1 hw.1 (by norm_num) (by norm_num) (by norm_num)
  have gw2 : g * wE ≤ 1e40 := (mul_le_mul hg.2 hw.2 pw.le (by norm_num)).trans (by norm_num)
  have Ra : ∀ {k}, ∀ i, Rz (.fin (a i) : Dbl r) (a i) k (2 * g) := fun i => Rz.exact (ha i) (by linarith [hg.1])
  have Rw : ∀ {k}, ∀ i, Rz (.fin (w i) : Dbl r) (w i) k (2 * wE) := fun i => Rz.exact (hω i) (by linarith [hw.1])
  have hp : ∀ i j, Rz ((.fin (a i) : Dbl r) * .fin (w j)) (a i * w j) 1 (4 * (g * wE)) := fun i j => by
    have := (Ra (k := 0) i).mul h (Rw (k := 0) j) (fun _ _ => by nlinarith) (by nlinarith) (by norm_num)
    rwa [show 2 * g * (2 * wE) = 4 * (g * wE) by ring] at this
  have hc : ∀ i j k l, Rz (-((.fin (a i) : Dbl r) * .fin (w j) - .fin (a k) * .fin (w l))) (-(a i * w j - a k * w l)) 2 (8 * (g * wE)) := fun i j k l => by
    have := ((hp i j).sub h (hp k l) (by linarith) (by norm_num)).neg
    rwa [show 4 * (g * wE) + 4 * (g * wE) = 8 * (g * wE) by ring] at this
  fin_cases i <;> fin_cases j <;> first | exact Ra _ | exact Rw _ | exact hc _ _ _ _

/-- the result, entry by entry -/
theorem coarse_rz (h : Rounds53 r) (hw : 1e-20 ≤ wE ∧ wE ≤ 1e20) (hg : 1e-20 ≤ g ∧ g ≤ 1e20) (hc : 1e-10 ≤ |Real.cos lat|) (a w : V3 ℝ)
    (ha : ∀ i, |a i| ≤ 2 * g) (hω : ∀ i, |w i| ≤ 2 * wE) (i j : Fin 3) :
    Rz ((coarseAttitudeAlignment (.fin lat : Dbl r) (.fin wE) (.fin g) (dv a) (dv w)).2 i j) (((rA lat wE g)⁻¹ * rB a w) i j) 43
      ((![4 / |Real.cos lat|, 8 / |Real.cos lat|, 2] : V3 ℝ) i) := by
  have pw : 0 < wE := lt_of_lt_of_le (by norm_num) hw.1
  have pg : 0 < g := lt_of_lt_of_le (by norm_num) hg.1
  have pc : 0 < |Real.cos lat| := lt_of_lt_of_le (by norm_num) hc
  have c1 := Real.abs_cos_le_one lat
  have ic1 : 1 ≤ 1 / |Real.cos lat| := by rw [le_div_iff₀ pc]; linarith
  have ic2 : 1 / |Real.cos lat| ≤ 1e10 := by rw [div_le_iff₀ pc]; linarith
  have hI := inv_rz (r := r) lat wE g h hw hg hc
  have hB := alignB_rz (r := r) wE g h hw hg a w ha hω
  have eM : ∀ l, MI lat wE g i l * (![2 * g, 2 * wE, 8 * (g * wE)] : V3 ℝ) l
      = (!![2 * (1 / |Real.cos lat|), 2 * (1 / |Real.cos lat|), 0; 0, 0, 8 * (1 / |Real.cos lat|); 2, 0, 0] : M3 ℝ) i l := by
    intro l
    fin_cases i <;> fin_cases l <;> simp [MI] <;> field_simp
  have hM : ∀ l, (!![2 * (1 / |Real.cos lat|), 2 * (1 / |Real.cos lat|), 0; 0, 0, 8 * (1 / |Real.cos lat|); 2, 0, 0] : M3 ℝ) i l = 0
      ∨ (1 ≤ (!![2 * (1 / |Real.cos lat|), 2 * (1 / |Real.cos lat|), 0; 0, 0, 8 * (1 / |Real.cos lat|); 2, 0, 0] : M3 ℝ) i l
        ∧ (!![2 * (1 / |Real.cos lat|), 2 * (1 / |Real.cos lat|), 0; 0, 0, 8 * (1 / |Real.cos lat|); 2, 0, 0] : M3 ℝ) i l ≤ 1e11) := by
    intro l
    fin_cases i <;> fin_cases l <;>
      first
      | exact .inl rfl
      | exact .inr ⟨(by linarith : 1 ≤ 2 * (1 / |Real.cos lat|)), (by linarith : 2 * (1 / |Real.cos lat|) ≤ 1e11)⟩
      | exact .inr ⟨(by linarith : 1 ≤ 8 * (1 / |Real.cos lat|)), (by linarith : 8 * (1 / |Real.cos lat|) ≤ 1e11)⟩
      | exact .inr ⟨(by norm_num : (1 : ℝ) ≤ 2), (by norm_num : (2 : ℝ) ≤ 1e11)⟩
  have hcap : ∀ l, (!![2 * (1 / |Real.cos lat|), 2 * (1 / |Real.cos lat|), 0; 0, 0, 8 * (1 / |Real.cos lat|); 2, 0, 0] : M3 ℝ) i l ≤ 1e11 := fun l =>
    (hM l).elim (fun h0 => by rw [h0]; norm_num) (·.2)
  have ht : ∀ l, Rz (inv3 (alignA (.fin lat : Dbl r) (.fin wE) (.fin g)) i l * alignB (dv a : V3 (Dbl r)) (dv w) l j)
      ((rA lat wE g)⁻¹ i l * rB a w l j) 41
      ((!![2 * (1 / |Real.cos lat|), 2 * (1 / |Real.cos lat|), 0; 0, 0, 8 * (1 / |Real.cos lat|); 2, 0, 0] : M3 ℝ) i l) := by
    intro l
    have h1 := hM l
    have h2 := hcap l
    rw [← eM] at h1 h2 ⊢
    exact (hI i l).mul h (hB l j) (fun n1 n2 => h1.elim (fun h0 => absurd h0 (mul_ne_zero n1 n2)) fun h0 => le_trans (by norm_num) h0.1)
      (h2.trans (by norm_num)) (by norm_num)
  have key := Rz.fsum3 h ht (by refine (add_le_add (add_le_add (hcap 0) (hcap 1)) (hcap 2)).trans (by norm_num)) (by norm_num)
  have eS : (![4 / |Real.cos lat|, 8 / |Real.cos lat|, 2] : V3 ℝ) i
      = (!![2 * (1 / |Real.cos lat|), 2 * (1 / |Real.cos lat|), 0; 0, 0, 8 * (1 / |Real.cos lat|); 2, 0, 0] : M3 ℝ) i 0
        + (!![2 * (1 / |Real.cos lat|), 2 * (1 / |Real.cos lat|), 0; 0, 0, 8 * (1 / |Real.cos lat|); 2, 0, 0] : M3 ℝ) i 1
        + (!![2 * (1 / |Real.cos lat|), 2 * (1 / |Real.cos lat|), 0; 0, 0, 8 * (1 / |Real.cos lat|); 2, 0, 0] : M3 ℝ) i 2 := by
    fin_cases i <;> simp <;> ring
  rw [eS, mul_apply, Fin.sum_univ_three]
  exact key

end

end NavFuse.Props.AlignDbl
