import Verif.Lemmas.RoundAlign
import Verif.Props.GainDbl

/-! # Property C160: the prediction and the velocity update of fine alignment in double precision -/

namespace NavFuse.Props.AlignDbl
open Matrix Kalman Spec NavFuse.Init NavFuse.Props NavFuse.Props.Align
variable [Machine] {r : ℝ → ℝ}

theorem cos_rl (lat : ℝ) : Rl (Flt.cos (.fin lat : Dbl r)) (Real.cos lat) 1 1 := by
  have h1 := (Machine.faithful .cos lat 0).rel_floor (Real.abs_cos_le_one lat) (by norm_num)
  have e1 : |Machine.lib .cos lat 0 (Real.cos lat) - Real.cos lat| ≤ (gr 1 - 1) * 1 := by
    rw [gr, pow_one]; convert h1 using 2; ring
  refine ⟨⟨_, Dbl.lb_fin (lt_of_le_of_lt ((Rl.val_le e1 (Real.abs_cos_le_one lat)).trans ?_) Dbl.big), e1⟩, Real.abs_cos_le_one lat⟩
  have := mul_le_mul_of_nonneg_right (gr_le_two (k := 1) (by norm_num)) (zero_le_one (α := ℝ))
  refine this.trans (by norm_num)

theorem tan_rl (lat t : ℝ) (hc : Real.cos lat ≠ 0) (ht : |Real.tan lat| ≤ t) (t1 : 1e-250 ≤ t) (t2 : t ≤ 1e100) :
    Rl (Flt.tan (.fin lat : Dbl r)) (Real.tan lat) 1 t := by
  have h1 := (Machine.faithful .tan lat 0).rel_floor ht t1
  have e1 : |Machine.lib .tan lat 0 (Real.tan lat) - Real.tan lat| ≤ (gr 1 - 1) * t := by
    rw [gr, pow_one]; convert h1 using 2; ring
  have e2 : (Flt.tan (.fin lat : Dbl r) : Dbl r) = .fin (Machine.lib .tan lat 0 (Real.tan lat)) := by
    show Dbl.lb (Machine.lib .tan lat 0) (Flt.tan (XR.fin lat)) = _
    rw [XR.X_tan _ hc]
    refine Dbl.lb_fin (lt_of_le_of_lt ((Rl.val_le e1 ht).trans ?_) Dbl.big)
    have := mul_le_mul_of_nonneg_right (gr_le_two (k := 1) (by norm_num)) (le_trans (by norm_num) t1)
    refine this.trans ?_
    norm_num at t2 ⊢; linarith
  exact ⟨⟨_, e2, e1⟩, ht⟩

omit [Machine] in
/-- division by an exact number -/
theorem div_rl (h : Rounds53 r) {X : Dbl r} {y M d : ℝ} {k : ℕ} (a : Rl X y k M) (hd : d ≠ 0) (hM : 1e-250 ≤ M / |d|) (hC : M / |d| ≤ 1e199) (hk : k + 1 ≤ 10 ^ 15) :
    Rl (X / .fin d) (y / d) (k + 1) (M / |d|) := by
  obtain ⟨x, rfl, e⟩ := a.near
  have pd := abs_pos.2 hd
  show Rl (Dbl.rd r (XR.fin x / XR.fin d)) _ _ _
  rw [XR.fin_div _ _ hd]
  refine Rl.round h (v := x / d) ?_ ?_ hM hC hk
  · rw [← sub_div, abs_div, ← mul_div_assoc]
    exact div_le_div_of_nonneg_right e pd.le
  · rw [abs_div]
    exact div_le_div_of_nonneg_right a.mag pd.le

/-- bounds of the rows of the matrix of the prediction: the rows of the biases are zero -/
noncomputable def rowBd (φ : ℝ) (i : Fin 8) : ℝ := if 3 ≤ i.val ∧ i.val ≤ 5 then 0 else φ

/-- what the matrix of the prediction must satisfy: coefficients up to `φ` -/
structure PredictScale (lat wE g R φ : ℝ) : Prop where
  one_le : 1 ≤ φ
  le : φ ≤ 1e20
  radius : R ≠ 0
  radius_le : |R| ≤ 1e20
  off_pole : Real.cos lat ≠ 0
  rate : 2 * |wE| ≤ φ
  gravity : |g| ≤ φ
  curvature : 1 / |R| ≤ φ
  meridian : |Real.tan lat| / |R| ≤ φ

theorem two_rl (h : Rounds53 r) : Rl (Flt.lit 2 : Dbl r) 2 0 2 := by
  have e : r 2 = 2 := by have := h.keeps 2 0 (by norm_num) (by norm_num); simpa using this
  have : (Flt.lit 2 : Dbl r) = .fin 2 := by
    show Dbl.rd r (.fin ((2 : ℚ) : ℝ)) = _
    rw [show ((2 : ℚ) : ℝ) = 2 by norm_num, Dbl.rd_fin] <;> rw [e]
    rw [abs_two]; exact lt_of_lt_of_le (by norm_num : (2 : ℝ) < 2 ^ 2) (pow_le_pow_right₀ (by norm_num) (by norm_num))
  rw [this]; exact Rl.exact (by simp)

theorem phi_rz (h : Rounds53 r) {lat wE g R φ : ℝ} (w : PredictScale lat wE g R φ) (i j : Fin 8) :
    Rz (phi (.fin lat : Dbl r) (.fin wE) (.fin g) (.fin R) i j) (phi lat wE g R i j) 3 (rowBd φ i) := by
  have φ0 : 0 < φ := by linarith [w.one_le]
  have φ2 : (1e-250 : ℝ) ≤ φ / 2 := by have := w.one_le; norm_num; linarith
  have φf : (1e-250 : ℝ) ≤ φ := by linarith
  have φC : φ ≤ 1e199 := w.le.trans (by norm_num)
  have φC2 : φ / 2 ≤ 1e199 := by linarith
  have pR := abs_pos.2 w.radius
  have Rw : Rz (.fin wE : Dbl r) wE 0 (φ / 2) := Rz.exact (by linarith [w.rate]) φ2
  have Rg : Rz (.fin g : Dbl r) g 0 φ := Rz.exact w.gravity φf
  have Rs := sin_rz (r := r) lat
  have Rc : Rz (Flt.cos (.fin lat : Dbl r)) (Real.cos lat) 1 1 := ⟨cos_rl lat, .inl (by norm_num)⟩
  have R2 : Rz (Flt.lit 2 : Dbl r) 2 0 2 := ⟨two_rl h, .inl (by norm_num)⟩
  have R1 : Rz (Flt.lit 1 : Dbl r) 1 0 1 := Rz.one h
  have ws := Rw.mul h Rs (fun _ _ => by rw [mul_one]; exact φ2) (by rw [mul_one]; exact φC2) (by norm_num)
  have wsn := Rw.neg.mul h Rs (fun _ _ => by rw [mul_one]; exact φ2) (by rw [mul_one]; exact φC2) (by norm_num)
  have wc := Rw.mul h Rc (fun _ _ => by rw [mul_one]; exact φ2) (by rw [mul_one]; exact φC2) (by norm_num)
  have wcn := Rw.neg.mul h Rc (fun _ _ => by rw [mul_one]; exact φ2) (by rw [mul_one]; exact φC2) (by norm_num)
  have w2 := R2.mul h Rw (fun _ _ => by linarith) (by linarith) (by norm_num)
  have w2n := R2.neg.mul h Rw (fun _ _ => by linarith) (by linarith) (by norm_num)
  have w2s := w2.mul h Rs (fun _ _ => by linarith) (by linarith) (by norm_num)
  have w2sn := w2n.mul h Rs (fun _ _ => by linarith) (by linarith) (by norm_num)
  have fR : (1e-250 : ℝ) ≤ 1 / |R| := by
    rw [le_div_iff₀ pR]
    have := mul_le_mul_of_nonneg_left w.radius_le (by norm_num : (0 : ℝ) ≤ 1e-250)
    refine this.trans (by norm_num)
  have dR := div_rl h R1.rl w.radius fR (w.curvature.trans φC) (by norm_num)
  have dRn := div_rl h R1.neg.rl w.radius fR (w.curvature.trans φC) (by norm_num)
  have tmax : max |Real.tan lat| 1 / |R| ≤ φ := by
    rcases max_choice |Real.tan lat| 1 with e | e <;> rw [e]
    · exact w.meridian
    · exact w.curvature
  have tf : (1e-250 : ℝ) ≤ max |Real.tan lat| 1 / |R| := fR.trans (div_le_div_of_nonneg_right (le_max_right _ _) pR.le)
  have t100 : max |Real.tan lat| 1 ≤ 1e100 := by
    rw [div_le_iff₀ pR] at tmax
    refine tmax.trans ((mul_le_mul w.le w.radius_le pR.le (by norm_num)).trans (by norm_num))
  have tR := div_rl h (tan_rl (r := r) lat _ w.off_pole (le_max_left _ 1) (le_trans (by norm_num) (le_max_right _ _)) t100) w.radius tf (tmax.trans φC) (by norm_num)
  have one' : Rz (-Flt.lit 1 : Dbl r) (-1) 3 φ := (R1.neg.mono (by norm_num)).le w.one_le φf
  have toφ : ∀ {X : Dbl r} {y M : ℝ} {k : ℕ}, Rl X y k M → k ≤ 3 → M ≤ φ → Rz X y 3 φ := fun a hk hM =>
    ⟨⟨(a.mono hk).near.imp fun x ⟨e, b⟩ => ⟨e, b.trans (mul_le_mul_of_nonneg_left hM (by linarith [one_le_gr 3]))⟩, a.mag.trans hM⟩, .inl φf⟩
  have zero' : Rz (Flt.lit 0 : Dbl r) 0 3 φ := (Rz.zero h).le φ0.le φf
  have l0 : (Flt.lit 0 : ℝ) = 0 := by simp [rsimp]
  have l1 : (Flt.lit 1 : ℝ) = 1 := by simp [rsimp]
  have l2 : (Flt.lit 2 : ℝ) = 2 := by simp [rsimp]
  have half : φ / 2 * 1 ≤ φ := by linarith
  have two : 2 * (φ / 2) * 1 ≤ φ := by linarith
  have z0 : Rz (Flt.lit 0 : Dbl r) (Flt.lit 0 : ℝ) 3 (0 : ℝ) := by rw [l0]; exact Rz.zero h
  have zφ : Rz (Flt.lit 0 : Dbl r) (Flt.lit 0 : ℝ) 3 φ := by rw [l0]; exact zero'
  have m1 : Rz (-Flt.lit 1 : Dbl r) (-Flt.lit 1 : ℝ) 3 φ := by rw [l1]; exact one'
  have a07 : Rz (Flt.lit 1 / .fin R : Dbl r) (Flt.lit 1 / R : ℝ) 3 φ := by rw [l1]; exact toφ dR (by norm_num) w.curvature
  have a16 : Rz (-Flt.lit 1 / .fin R : Dbl r) (-Flt.lit 1 / R : ℝ) 3 φ := by rw [l1]; exact toφ dRn (by norm_num) w.curvature
  have a27 := toφ tR (by norm_num) tmax
  have a67 : Rz (-Flt.lit 2 * .fin wE * Flt.sin (.fin lat) : Dbl r) (-Flt.lit 2 * wE * Real.sin lat : ℝ) 3 φ := by rw [l2]; exact toφ w2sn.rl (by norm_num) two
  have a76 : Rz (Flt.lit 2 * .fin wE * Flt.sin (.fin lat) : Dbl r) (Flt.lit 2 * wE * Real.sin lat : ℝ) 3 φ := by rw [l2]; exact toφ w2s.rl (by norm_num) two
  have a01 := toφ wsn.rl (by norm_num) half
  have a10 := toφ ws.rl (by norm_num) half
  have a12 := toφ wc.rl (by norm_num) half
  have a21 := toφ wcn.rl (by norm_num) half
  have a61 := toφ Rg.rl (by norm_num) le_rfl
  have a70 := toφ Rg.neg.rl (by norm_num) le_rfl
  have hi : ∀ k : ℕ, (3 ≤ k ∧ k ≤ 5) → (if 3 ≤ k ∧ k ≤ 5 then (0 : ℝ) else φ) = 0 := fun k hk => if_pos hk
  have lo : ∀ k : ℕ, ¬ (3 ≤ k ∧ k ≤ 5) → (if 3 ≤ k ∧ k ≤ 5 then (0 : ℝ) else φ) = φ := fun k hk => if_neg hk
  unfold rowBd
  fin_cases i
  · rw [lo _ (by simp)]
    fin_cases j
    · exact zφ
    · exact a01
    · exact zφ
    · exact m1
    · exact zφ
    · exact zφ
    · exact zφ
    · exact a07
  · rw [lo _ (by simp)]
    fin_cases j
    · exact a10
    · exact zφ
    · exact a12
    · exact zφ
    · exact m1
    · exact zφ
    · exact a16
    · exact zφ
  · rw [lo _ (by simp)]
    fin_cases j
    · exact zφ
    · exact a21
    · exact zφ
    · exact zφ
    · exact zφ
    · exact m1
    · exact zφ
    · exact a27
  · rw [hi _ (by simp)]
    fin_cases j <;> exact z0
  · rw [hi _ (by simp)]
    fin_cases j <;> exact z0
  · rw [hi _ (by simp)]
    fin_cases j <;> exact z0
  · rw [lo _ (by simp)]
    fin_cases j
    · exact zφ
    · exact a61
    · exact zφ
    · exact zφ
    · exact zφ
    · exact zφ
    · exact zφ
    · exact a67
  · rw [lo _ (by simp)]
    fin_cases j
    · exact a70
    · exact zφ
    · exact zφ
    · exact zφ
    · exact zφ
    · exact zφ
    · exact a76
    · exact zφ

/-- C160. The prediction of fine alignment in double precision, in every rounding mode and order of summation: with coefficients up to `φ`, states up to `X` and
covariance entries up to `p` all numbers are finite, the states are the rates of change of the errors to within `5·10⁻¹⁴ φ X`, the covariance is `Φ P Φᵀ` to
within `10⁻¹² φ² p`; and the estimated biases and their covariances are replaced by zeros, exactly. -/
theorem C160_predict (h : Rounds53 r) {lat wE g R φ : ℝ} (w : PredictScale lat wE g R φ) (x : Fin 8 → ℝ) (P : Matrix (Fin 8) (Fin 8) ℝ) (X p : ℝ)
    (hX : 1e-20 ≤ X ∧ X ≤ 1e20) (hp : 1e-20 ≤ p ∧ p ≤ 1e20) (bx : ∀ i, |x i| ≤ X) (bP : ∀ i j, |P i j| ≤ p) (xo : Fin 8 → Dbl r)
    (Po : Matrix (Fin 8) (Fin 8) (Dbl r)) :
    ∃ (y : Fin 8 → ℝ) (Y : Matrix (Fin 8) (Fin 8) ℝ),
      fineAlignmentPredict (.fin lat : Dbl r) (.fin wE) (.fin g) (.fin R) ⟨8, dV x⟩ ⟨8, 8, dM P⟩ ⟨8, xo⟩ ⟨8, 8, Po⟩ = .ok (true, ⟨8, dV y⟩, ⟨8, 8, dM Y⟩)
      ∧ (∀ i, |y i - errRate lat wE g R x i| ≤ 5e-14 * (φ * X))
      ∧ (∀ i j, |Y i j - (phi lat wE g R * P * (phi lat wE g R)ᵀ) i j| ≤ 1e-12 * (φ ^ 2 * p))
      ∧ ∀ i : Fin 8, 3 ≤ i.val → i.val ≤ 5 → y i = 0 ∧ ∀ j, Y i j = 0 ∧ Y j i = 0 := by
  have φ0 : 0 < φ := by linarith [w.one_le]
  have X0 : 0 < X := lt_of_lt_of_le (by norm_num) hX.1
  have p0 : 0 < p := lt_of_lt_of_le (by norm_num) hp.1
  have b0 : ∀ i, 0 ≤ rowBd φ i := fun i => by unfold rowBd; split_ifs <;> linarith
  have bφ : ∀ i, rowBd φ i ≤ φ := fun i => by unfold rowBd; split_ifs <;> linarith
  have b1 : ∀ i, rowBd φ i ≠ 0 → 1 ≤ rowBd φ i := fun i hi => by
    unfold rowBd at hi ⊢; split_ifs with c
    · rw [if_pos c] at hi; exact absurd rfl hi
    · exact w.one_le
  have F := phi_rz (r := r) h w
  have φX : φ * X ≤ 1e40 := (mul_le_mul w.le hX.2 X0.le (by norm_num)).trans (by norm_num)
  have φp : φ * p ≤ 1e40 := (mul_le_mul w.le hp.2 p0.le (by norm_num)).trans (by norm_num)
  have vx : ∀ i, Rz (mvec (phi (.fin lat : Dbl r) (.fin wE) (.fin g) (.fin R)) (dV x) i) ((phi lat wE g R *ᵥ x) i) 12 (∑ _l : Fin 8, rowBd φ i * X) := fun i => by
    refine Rz.fsum h (k := 4) (fun l => ((F i l).mul h (Rz.exact (bx l) (le_trans (by norm_num) hX.1) : Rz (.fin (x l) : Dbl r) (x l) 0 X) (fun c _ => ?_) ?_ (by norm_num)))
      ?_ (by norm_num)
    · exact floor_mul (b1 i c) hX.1 (by norm_num) (by norm_num) (by norm_num)
    · exact (mul_le_mul_of_nonneg_right (bφ i) X0.le).trans (φX.trans (by norm_num))
    · rw [Finset.sum_const, Finset.card_univ, Fintype.card_fin, nsmul_eq_mul]
      have := mul_le_mul_of_nonneg_right (bφ i) X0.le
      norm_num at φX ⊢; linarith
  have FP : ∀ i j, Rz (mmul (phi (.fin lat : Dbl r) (.fin wE) (.fin g) (.fin R)) (dM P) i j) ((phi lat wE g R * P) i j) 12 (∑ _l : Fin 8, rowBd φ i * p) := fun i j => by
    rw [Matrix.mul_apply]
    refine Rz.fsum h (k := 4) (fun l => ((F i l).mul h (Rz.exact (bP l j) (le_trans (by norm_num) hp.1) : Rz (.fin (P l j) : Dbl r) (P l j) 0 p) (fun c _ => ?_) ?_ (by norm_num)))
      ?_ (by norm_num)
    · exact floor_mul (b1 i c) hp.1 (by norm_num) (by norm_num) (by norm_num)
    · exact (mul_le_mul_of_nonneg_right (bφ i) p0.le).trans (φp.trans (by norm_num))
    · rw [Finset.sum_const, Finset.card_univ, Fintype.card_fin, nsmul_eq_mul]
      have := mul_le_mul_of_nonneg_right (bφ i) p0.le
      norm_num at φp ⊢; linarith
  have s8 : ∀ c : ℝ, ∑ _l : Fin 8, c = 8 * c := fun c => by
    rw [Finset.sum_const, Finset.card_univ, Fintype.card_fin, nsmul_eq_mul]; norm_num
  simp only [s8] at vx FP
  have bb : ∀ i j, 8 * (rowBd φ i * p) * rowBd φ j ≤ 8 * (φ ^ 2 * p) := fun i j => by
    have := mul_le_mul (mul_le_mul_of_nonneg_right (bφ i) p0.le) (bφ j) (b0 j) (by positivity)
    nlinarith
  have φφp : φ ^ 2 * p ≤ 1e60 := by
    have := mul_le_mul w.le φp (by positivity) (by norm_num)
    nlinarith
  have FPF : ∀ i j, Rz (mmul (mmul (phi (.fin lat : Dbl r) (.fin wE) (.fin g) (.fin R)) (dM P)) (mtr (phi (.fin lat : Dbl r) (.fin wE) (.fin g) (.fin R))) i j)
      ((phi lat wE g R * P * (phi lat wE g R)ᵀ) i j) 24 (∑ _l : Fin 8, 8 * (rowBd φ i * p) * rowBd φ j) := fun i j => by
    rw [Matrix.mul_apply]
    refine Rz.fsum h (k := 16) (fun l => (FP i l).mul h (F j l) (fun c d => ?_) ?_ (by norm_num)) ?_ (by norm_num)
    · have ci : rowBd φ i ≠ 0 := fun e => c (by rw [e]; ring)
      have := floor_mul (b1 i ci) hp.1 (by norm_num) (by norm_num) (le_refl _)
      refine floor_mul (p := 8 * (1 * 1e-20)) (by linarith) (b1 j d) (by norm_num) (by norm_num) (by norm_num)
    · refine (bb i j).trans ?_
      norm_num at φφp ⊢; linarith
    · rw [s8]
      have := bb i j
      norm_num at φφp ⊢; linarith
  simp only [s8] at FPF
  have FQ : ∀ i j, Rz (madd (mmul (mmul (phi (.fin lat : Dbl r) (.fin wE) (.fin g) (.fin R)) (dM P)) (mtr (phi (.fin lat : Dbl r) (.fin wE) (.fin g) (.fin R))))
      (DMat.zero 8 8 : DMat (Dbl r)).m i j) ((phi lat wE g R * P * (phi lat wE g R)ᵀ) i j + 0) 25 (8 * (8 * (rowBd φ i * p) * rowBd φ j) + 0) := fun i j =>
    (FPF i j).add h (Rz.zero h) (by
      have := bb i j
      norm_num at φφp ⊢; linarith) (by norm_num)
  choose y ey dy using fun i => (vx i).rl.near
  choose Y eY dY using fun i j => (FQ i j).rl.near
  have g12 := gr_le (k := 12) (by norm_num)
  have g25 := gr_le (k := 25) (by norm_num)
  refine ⟨y, of Y, ?_, fun i => ?_, fun i j => ?_, fun i h3 h5 => ?_⟩
  · simp only [fineAlignmentPredict, ne_eq, not_true_eq_false, or_self, if_false]
    have e := predict_fit (dV x) (dM P) (phi (.fin lat : Dbl r) (.fin wE) (.fin g) (.fin R)) (DMat.zero 8 8 : DMat (Dbl r)).m xo Po
    have e1 : mvec (phi (.fin lat : Dbl r) (.fin wE) (.fin g) (.fin R)) (dV x) = dV y := funext ey
    have e2 : madd (mmul (mmul (phi (.fin lat : Dbl r) (.fin wE) (.fin g) (.fin R)) (dM P)) (mtr (phi (.fin lat : Dbl r) (.fin wE) (.fin g) (.fin R))))
      (DMat.zero 8 8 : DMat (Dbl r)).m = dM (of Y) := by ext i j; exact eY i j
    rw [e1, e2] at e
    have e' : filterPredict ⟨8, dV x⟩ ⟨8, 8, dM P⟩ ⟨8, 8, phi (.fin lat : Dbl r) (.fin wE) (.fin g) (.fin R)⟩ (DMat.zero 8 8) ⟨8, xo⟩ ⟨8, 8, Po⟩
      = .ok (true, ⟨8, dV y⟩, ⟨8, 8, dM (of Y)⟩) := e
    rw [e']
    simp [osimp]
  · rw [← phi_R]
    refine (dy i).trans ?_
    have h1 : 8 * (rowBd φ i * X) ≤ 8 * (φ * X) := by have := mul_le_mul_of_nonneg_right (bφ i) X0.le; linarith
    have h2 := mul_le_mul (show gr 12 - 1 ≤ 12 / 2 ^ 51 by push_cast at g12; linarith) h1 (mul_nonneg (by norm_num) (mul_nonneg (b0 i) X0.le)) (by norm_num)
    refine h2.trans ?_
    rw [← mul_assoc]
    exact mul_le_mul_of_nonneg_right (by norm_num) (by positivity)
  · have := dY i j
    rw [add_zero, add_zero] at this
    refine this.trans ?_
    have h1 : 8 * (8 * (rowBd φ i * p) * rowBd φ j) ≤ 64 * (φ ^ 2 * p) := by have := bb i j; linarith
    have h2 := mul_le_mul (show gr 25 - 1 ≤ 25 / 2 ^ 51 by push_cast at g25; linarith) h1
      (mul_nonneg (by norm_num) (mul_nonneg (mul_nonneg (by norm_num) (mul_nonneg (b0 i) p0.le)) (b0 j))) (by norm_num)
    refine h2.trans ?_
    rw [← mul_assoc]
    exact mul_le_mul_of_nonneg_right (by norm_num) (by positivity)
  · have zi : rowBd φ i = 0 := if_pos ⟨h3, h5⟩
    have fz : ∀ {Z : Dbl r} {a c : ℝ} {k : ℕ}, Rz Z a k 0 → Z = .fin c → c = 0 := fun q e => by
      rcases q.z with q | ⟨q, -, -⟩
      · norm_num at q
      · rw [e] at q; injection q with q; injection q
    refine ⟨fz (by simpa [zi] using vx i) (ey i), fun j => ⟨fz (by simpa [zi] using FQ i j) (eY i j), fz (by simpa [zi] using FQ j i) (eY j i)⟩⟩

omit [Machine] in
/-- at 45 degrees of latitude -/
example : PredictScale (Real.pi / 4) 7.292115e-5 9.81 6378137 10 := by
  refine ⟨by norm_num, by norm_num, by norm_num, by norm_num [abs_of_pos], ?_, by norm_num [abs_of_pos], by norm_num [abs_of_pos], by norm_num [abs_of_pos], ?_⟩
  · rw [Real.cos_pi_div_four]; positivity
  · rw [Real.tan_pi_div_four]; norm_num [abs_of_pos]

/-- the states of the two level velocity errors -/
def velCol : Fin 2 → Fin 8 := ![6, 7]

omit [Machine] in
theorem hVel_apply (k : Fin 2) (l : Fin 8) : hVel k l = if l = velCol k then 1 else 0 := by
  fin_cases k <;> fin_cases l <;> simp [hVel, velCol]

omit [Machine] in
theorem vel_left {n : ℕ} (M : Matrix (Fin 8) (Fin n) ℝ) : hVel * M = M.submatrix velCol id := by
  ext i j; simp [mul_apply, hVel_apply]

omit [Machine] in
theorem vel_right {n : ℕ} (M : Matrix (Fin n) (Fin 8) ℝ) : M * hVelᵀ = M.submatrix id velCol := by
  ext i j; simp [mul_apply, hVel_apply]

/-- the gain of a measurement of the two level velocities with noise variance `ρ` -/
noncomputable def velGain (P : Matrix (Fin 8) (Fin 8) ℝ) (ρ : ℝ) : Matrix (Fin 8) (Fin 2) ℝ :=
  P.submatrix id velCol * (P.submatrix velCol velCol + ρ • 1)⁻¹

omit [Machine] in
theorem mgH_le (i : Fin 2) (j : Fin 8) : mgM hVel i j ≤ (if j = velCol i then 1 else 0) + 1e-50 := by
  rw [mgM, of_apply, hVel_apply]
  split_ifs <;> norm_num

omit [Machine] in
theorem mgH_sum (i : Fin 2) : ∑ j, mgM hVel i j ≤ 1.01 := by
  refine (Finset.sum_le_sum fun j _ => mgH_le i j).trans ?_
  rw [Finset.sum_add_distrib, Finset.sum_ite_eq' Finset.univ (velCol i), if_pos (Finset.mem_univ _), Finset.sum_const, Finset.card_univ, Fintype.card_fin]
  norm_num

omit [Machine] in
/-- error of the computed gain -/
theorem velGain_num {p ρ d : ℝ} (p0 : 0 < p) (ρp : 0 < ρ) (pd : p ≤ d * ρ) (d1 : 1 ≤ d) :
    0 ≤ ((2 : ℕ) : ℝ) * ((8 : ℕ) : ℝ) * 1 * p / ρ * gainTol 8 2 (innovMax 8 p 1 ρ / ρ)
    ∧ ((2 : ℕ) : ℝ) * ((8 : ℕ) : ℝ) * 1 * p / ρ * gainTol 8 2 (innovMax 8 p 1 ρ / ρ) ≤ 1.6e-8 * d ^ 2 := by
  have pρ : p / ρ ≤ d := (div_le_iff₀ ρp).2 pd
  have pρ0 : 0 ≤ p / ρ := by positivity
  have e1 : innovMax 8 p 1 ρ / ρ = 64 * (p / ρ) + 1 := by rw [innovMax]; push_cast; field_simp; ring
  have e2 : ((2 : ℕ) : ℝ) * ((8 : ℕ) : ℝ) * 1 * p / ρ = 16 * (p / ρ) := by push_cast; ring
  rw [e1, e2]
  generalize p / ρ = q at pρ pρ0
  have g : gainTol 8 2 (64 * q + 1) ≤ 1e-9 * d := by
    unfold gainTol luTol
    push_cast
    norm_num
    linarith
  have g0 : 0 ≤ gainTol 8 2 (64 * q + 1) := by unfold gainTol luTol; positivity
  refine ⟨by positivity, ?_⟩
  have := mul_le_mul (mul_le_mul_of_nonneg_left pρ (by norm_num : (0 : ℝ) ≤ 16)) g g0 (by positivity)
  refine this.trans (le_of_eq ?_)
  ring

section
variable {K : Matrix (Fin 8) (Fin 2) ℝ} {k X p ρ : ℝ}

omit [Machine] in
/-- magnitudes in the update of the estimate -/
theorem velMag_x {x : Fin 8 → ℝ} {v : Fin 2 → ℝ} (R : Matrix (Fin 2) (Fin 2) ℝ) (P : Matrix (Fin 8) (Fin 8) ℝ) (hK : ∀ i j, |K i j| ≤ k) (k1 : 1 ≤ k) (hX : 1e-20 ≤ X)
    (bx : ∀ i, |x i| ≤ X) (bv : ∀ i, |v i| ≤ X) (i : Fin 8) : ((Gained.update 2 v hVel R K).mags (mgV x, mgM P)).1 i ≤ 5.1 * (k * X) := by
  have X50 : (1e-50 : ℝ) ≤ X := le_trans (by norm_num) hX
  have X0 : 0 < X := lt_of_lt_of_le (by norm_num) hX
  show mgV x i + ∑ l, mgM K i l * (mgV v l + ∑ j, mgM hVel l j * mgV x j) ≤ _
  have h1 : ∀ l, mgV v l + ∑ j, mgM hVel l j * mgV x j ≤ 2.02 * X := fun l => by
    have a : mgV v l ≤ X := max_le (bv l) X50
    have b : ∑ j, mgM hVel l j * mgV x j ≤ ∑ j, mgM hVel l j * X :=
      Finset.sum_le_sum fun j _ => mul_le_mul_of_nonneg_left (max_le (bx j) X50) (le_trans (by norm_num) (mgM_floor hVel l j))
    rw [← Finset.sum_mul] at b
    have := mul_le_mul_of_nonneg_right (mgH_sum l) X0.le
    linarith
  have h0 : ∀ l, 0 ≤ mgV v l + ∑ j, mgM hVel l j * mgV x j := fun l =>
    add_nonneg (le_trans (by norm_num) (mgV_floor v l)) (Finset.sum_nonneg fun j _ =>
      mul_nonneg (le_trans (by norm_num) (mgM_floor hVel l j)) (le_trans (by norm_num) (mgV_floor x j)))
  have h2 : ∀ l, mgM K i l * (mgV v l + ∑ j, mgM hVel l j * mgV x j) ≤ k * (2.02 * X) := fun l =>
    mul_le_mul (max_le (hK i l) (le_trans (by norm_num) k1)) (h1 l) (h0 l) (by linarith)
  have h3 : mgV x i ≤ X := max_le (bx i) X50
  rw [Fin.sum_univ_two]
  have := h2 0
  have := h2 1
  nlinarith

omit [Machine] in
/-- magnitudes in the update of the covariance -/
theorem velMag_P {R : Matrix (Fin 2) (Fin 2) ℝ} {P : Matrix (Fin 8) (Fin 8) ℝ} (x : Fin 8 → ℝ) (v : Fin 2 → ℝ) (hK : ∀ i j, |K i j| ≤ k) (k1 : 1 ≤ k) (hp : 1e-20 ≤ p)
    (hρ : 1e-20 ≤ ρ) (bP : ∀ i j, |P i j| ≤ p) (bR : ∀ i j, |R i j| ≤ ρ) (i j : Fin 8) :
    ((Gained.update 2 v hVel R K).mags (mgV x, mgM P)).2 i j ≤ 9.2 * (k ^ 2 * (p + ρ)) := by
  have p0 : 0 < p := lt_of_lt_of_le (by norm_num) hp
  have ρ0 : 0 < ρ := lt_of_lt_of_le (by norm_num) hρ
  have z : ∀ {a b : ℕ} (A : Matrix (Fin a) (Fin b) ℝ) i j, 0 ≤ mgM A i j := fun A i j => le_trans (by norm_num) (mgM_floor A i j)
  have gK : ∀ i j, mgM K i j ≤ k := fun i j => max_le (hK i j) (le_trans (by norm_num) k1)
  have gP : ∀ i j, mgM P i j ≤ p := fun i j => max_le (bP i j) (le_trans (by norm_num) hp)
  have gR : ∀ i j, mgM R i j ≤ ρ := fun i j => max_le (bR i j) (le_trans (by norm_num) hρ)
  show ((1 + mgM K * mgM hVel) * mgM P * (1 + mgM K * mgM hVel)ᵀ + mgM K * mgM R * (mgM K)ᵀ : Matrix (Fin 8) (Fin 8) ℝ) i j ≤ _
  set A : Matrix (Fin 8) (Fin 8) ℝ := 1 + mgM K * mgM hVel with hA
  have KH0 : ∀ i j, 0 ≤ (mgM K * mgM hVel) i j := fun i j => by
    rw [Matrix.mul_apply]; exact Finset.sum_nonneg fun l _ => mul_nonneg (z K i l) (z hVel l j)
  have A0 : ∀ i j, 0 ≤ A i j := fun i j => by
    rw [hA, Matrix.add_apply, Matrix.one_apply]; split_ifs <;> linarith [KH0 i j]
  have As : ∀ i, ∑ j, A i j ≤ 3.02 * k := fun i => by
    have e1 : ∑ j, A i j = 1 + (mgM K i 0 * ∑ j, mgM hVel 0 j + mgM K i 1 * ∑ j, mgM hVel 1 j) := by
      simp only [hA, Matrix.add_apply, Finset.sum_add_distrib, Matrix.one_apply, Finset.sum_ite_eq, Finset.mem_univ, if_true, Matrix.mul_apply, Fin.sum_univ_two,
        Finset.mul_sum]
    rw [e1]
    have a := mul_le_mul (gK i 0) (mgH_sum 0) (Finset.sum_nonneg fun j _ => z hVel 0 j) (by linarith)
    have b := mul_le_mul (gK i 1) (mgH_sum 1) (Finset.sum_nonneg fun j _ => z hVel 1 j) (by linarith)
    linarith
  have bAP : ∀ i j, (A * mgM P) i j ≤ 3.02 * k * p := fun i j => by
    rw [Matrix.mul_apply]
    refine (Finset.sum_le_sum fun l _ => mul_le_mul_of_nonneg_left (gP l j) (A0 i l)).trans ?_
    rw [← Finset.sum_mul]
    exact mul_le_mul_of_nonneg_right (As i) p0.le
  have h1 : (A * mgM P * Aᵀ) i j ≤ 3.02 * k * p * (3.02 * k) := by
    rw [Matrix.mul_apply]
    refine (Finset.sum_le_sum fun l _ => mul_le_mul_of_nonneg_right (bAP i l) (A0 j l)).trans ?_
    rw [← Finset.mul_sum]
    exact mul_le_mul_of_nonneg_left (As j) (by positivity)
  have bKR : ∀ i j, (mgM K * mgM R) i j ≤ 2 * (k * ρ) := fun i j => by
    rw [Matrix.mul_apply, Fin.sum_univ_two]
    have a := mul_le_mul (gK i 0) (gR 0 j) (z R 0 j) (by linarith)
    have b := mul_le_mul (gK i 1) (gR 1 j) (z R 1 j) (by linarith)
    linarith
  have h2 : (mgM K * mgM R * (mgM K)ᵀ) i j ≤ 4 * (k * ρ * k) := by
    rw [Matrix.mul_apply, Fin.sum_univ_two]
    have a := mul_le_mul (bKR i 0) (gK j 0) (z K j 0) (by positivity)
    have b := mul_le_mul (bKR i 1) (gK j 1) (z K j 1) (by positivity)
    simp only [transpose_apply]
    linarith
  rw [Matrix.add_apply]
  have : 0 ≤ k ^ 2 * p := by positivity
  have : 0 ≤ k ^ 2 * ρ := by positivity
  nlinarith
end

set_option maxHeartbeats 1000000 in
/-- C160. The velocity update of fine alignment in double precision, with Eigen's inverse, in every rounding mode and order of summation: with covariance entries
up to `p`, states and measured velocities up to `X` and `p` at most `c` times the variance `σ² Δt` of the measurements, all numbers are finite; and for a noise variance
within 5 parts in 10¹⁶ of `σ² Δt` the states are those of the exact update to within `10⁻⁷ c² X` and the covariance to within `2·10⁻⁷ c² (p + σ² Δt)`. -/
theorem C160_velocity (h : Rounds53 r) (v : Fin 2 → ℝ) (dt σ : ℝ) (x : Fin 8 → ℝ) (P : Matrix (Fin 8) (Fin 8) ℝ) (hP : IsCov P) (p X c : ℝ)
    (hp : 1e-20 ≤ p ∧ p ≤ 1e15) (hX : 1e-20 ≤ X ∧ X ≤ 1e20) (hd : 0 < dt) (hσ : 1e-10 ≤ σ) (hσ2 : σ ≤ 1e10) (hρ : 1e-15 ≤ σ ^ 2 * dt ∧ σ ^ 2 * dt ≤ 1e15)
    (hc : p + σ ^ 2 * dt ≤ c * (σ ^ 2 * dt)) (hc2 : c ≤ 1000)
    (bP : ∀ i j, |P i j| ≤ p) (bx : ∀ i, |x i| ≤ X) (bv : ∀ i, |v i| ≤ X) (xo : Fin 8 → Dbl r) (Po : Matrix (Fin 8) (Fin 8) (Dbl r)) :
    ∃ (ρ : ℝ) (y : Fin 8 → ℝ) (Y : Matrix (Fin 8) (Fin 8) ℝ),
      fineAlignmentVelocityUpdate LinSolver.eigen (fun i => .fin (v i) : Fin 2 → Dbl r) (.fin dt) (.fin σ) ⟨8, dV x⟩ ⟨8, 8, dM P⟩ ⟨8, xo⟩ ⟨8, 8, Po⟩
        = .ok (true, ⟨8, dV y⟩, ⟨8, 8, dM Y⟩)
      ∧ |ρ - σ ^ 2 * dt| ≤ 5e-16 * (σ ^ 2 * dt)
      ∧ (∀ i, |y i - (x + velGain P ρ *ᵥ (v - x ∘ velCol)) i| ≤ 1e-7 * (c ^ 2 * X))
      ∧ ∀ i j, |Y i j - (P - velGain P ρ * P.submatrix velCol id) i j| ≤ 2e-7 * (c ^ 2 * (p + σ ^ 2 * dt)) := by
  set ρ₀ := σ ^ 2 * dt with hρ₀
  have hρ' : σ * σ * dt = ρ₀ := by rw [hρ₀, sq]
  have pσ : 0 < σ := lt_of_lt_of_le (by norm_num) hσ
  have p0 : 0 < p := lt_of_lt_of_le (by norm_num) hp.1
  have X0 : 0 < X := lt_of_lt_of_le (by norm_num) hX.1
  have ρ₀p : 0 < ρ₀ := lt_of_lt_of_le (by norm_num) hρ.1
  have c1 : 1 ≤ c := by
    by_contra hh
    push Not at hh
    nlinarith
  have σσ1 : 1e-20 ≤ σ * σ := floor_mul hσ hσ (by norm_num) (by norm_num) (by norm_num)
  have σσ2 : σ * σ ≤ 1e20 := (mul_le_mul hσ2 hσ2 pσ.le (by norm_num)).trans (by norm_num)
  -- the variance of the noise
  have a1 := (Rl.exact (r := r) (abs_of_pos pσ).le).mul h (Rl.exact (r := r) (abs_of_pos pσ).le) (le_trans (by norm_num) σσ1) (σσ2.trans (by norm_num)) (by norm_num)
  have a2 := a1.mul h (Rl.exact (r := r) (abs_of_pos hd).le) (by rw [hρ']; exact le_trans (by norm_num) hρ.1) (by rw [hρ']; exact hρ.2.trans (by norm_num)) (by norm_num)
  rw [hρ'] at a2
  obtain ⟨ρ, eρ, dρ⟩ := a2.near
  have g2 : gr (0 + 0 + 1 + 0 + 1) - 1 ≤ 5e-16 := by
    rw [gr]; unfold ulp; norm_num
  have dρ' : |ρ - ρ₀| ≤ 5e-16 * ρ₀ := dρ.trans (mul_le_mul_of_nonneg_right g2 ρ₀p.le)
  obtain ⟨dl, du⟩ := abs_le.1 dρ'
  have ρlo : 0.999999 * ρ₀ ≤ ρ := by norm_num at dl ⊢; linarith
  have ρhi : ρ ≤ 1.000001 * ρ₀ := by norm_num at du ⊢; linarith
  have ρp : 0 < ρ := by linarith
  have ρ16 : 1e-16 ≤ ρ := by have := hρ.1; norm_num at this ρlo ⊢; linarith
  set d := 1.00001 * c with hd'
  have d1 : 1 ≤ d := by linarith
  have pd : p + ρ ≤ d * ρ := by
    have : (1.000001 : ℝ) * (p + ρ₀) ≤ 1.000001 * (c * ρ₀) := mul_le_mul_of_nonneg_left hc (by norm_num)
    have h2 : c * (0.999999 * ρ₀) ≤ c * ρ := mul_le_mul_of_nonneg_left ρlo (by linarith)
    have h3 : 0 ≤ c * ρ₀ := by positivity
    have h4 : p + ρ ≤ 1.000001 * (c * ρ₀) := by linarith
    rw [hd', mul_assoc]
    norm_num at h2 h4 ⊢
    linarith
  have pdρ : p ≤ d * ρ := by linarith
  have d2 : d ≤ 1001 := by linarith
  -- the matrices
  set R : Matrix (Fin 2) (Fin 2) ℝ := ρ • 1 with hR
  have lit0 : (Flt.lit 0 : Dbl r) = .fin 0 := by
    rcases (Rz.zero h (k := 0) : Rz (Flt.lit 0 : Dbl r) 0 0 0).z with q | ⟨q, -, -⟩
    · norm_num at q
    · exact q
  have lit1 : (Flt.lit 1 : Dbl r) = .fin 1 := by
    obtain ⟨x1, e1, b1⟩ := (Rl.one (r := r) h).near
    rw [gr, pow_zero, sub_self, zero_mul, abs_nonpos_iff, sub_eq_zero] at b1
    rw [e1, b1]
  have eH : (!![Flt.lit 0, Flt.lit 0, Flt.lit 0, Flt.lit 0, Flt.lit 0, Flt.lit 0, Flt.lit 1, Flt.lit 0;
      Flt.lit 0, Flt.lit 0, Flt.lit 0, Flt.lit 0, Flt.lit 0, Flt.lit 0, Flt.lit 0, Flt.lit 1] : Matrix (Fin 2) (Fin 8) (Dbl r)) = dM hVel := by
    rw [lit0, lit1]
    ext i j
    fin_cases i <;> fin_cases j <;> rfl
  have eR : (!![.fin σ * .fin σ * .fin dt, Flt.lit 0; Flt.lit 0, .fin σ * .fin σ * .fin dt] : Matrix (Fin 2) (Fin 2) (Dbl r)) = dM R := by
    rw [lit0, eρ]
    have hs : R = !![ρ, 0; 0, ρ] := by rw [hR]; ext i j; fin_cases i <;> fin_cases j <;> simp
    rw [hs]
    ext i j
    fin_cases i <;> fin_cases j <;> rfl
  have ez : (![.fin (v 0), .fin (v 1)] : Fin 2 → Dbl r) = dV v := by
    ext i; fin_cases i <;> rfl
  have lt2 : luTol 2 = 64 / 2 ^ 52 := by unfold luTol; norm_num
  have nz : Noisy P hVel R p 1 ρ ρ := by
    refine ⟨by norm_num, by norm_num, by norm_num, by norm_num, hP.2, fun u => ?_, bP, fun i j => ?_, fun i j => ?_, hp.1, by norm_num, ρ16, by norm_num,
      hp.2.trans (by norm_num), ?_, ?_⟩
    · rw [hR, smul_mulVec, one_mulVec, dotProduct_smul, smul_eq_mul]
    · rw [hVel_apply]; split_ifs <;> simp
    · rw [hR, Matrix.smul_apply, one_apply, smul_eq_mul]; split_ifs
      · rw [mul_one, abs_of_pos ρp]
      · rw [mul_zero, abs_zero]; exact ρp.le
    · have := hp.2; have := hρ.2; push_cast; norm_num at *; linarith
    · rw [lt2]
      push_cast
      have : ((8 : ℝ) ^ 2 * (1 ^ 2 * p) + ρ) ≤ 64 * (d * ρ) := by linarith
      have h2 : 64 * (d * ρ) ≤ 64 * (1001 * ρ) := by linarith [mul_le_mul_of_nonneg_right d2 ρp.le]
      have h3 := mul_le_mul_of_nonneg_right (this.trans h2) (by norm_num : (0 : ℝ) ≤ 16 * 2 ^ 3 * (64 / 2 ^ 52) + (8 * 8 + 12) * 2 ^ 2 / 2 ^ 52)
      refine h3.trans ?_
      norm_num
      linarith
  have pρ : p / ρ ≤ d := (div_le_iff₀ ρp).2 pdρ
  have pρ0 : 0 ≤ p / ρ := by positivity
  obtain ⟨K, y, Y, e, mK, -, dy, dY⟩ := C148_update h nz hP.1 (by rw [hR]; exact isSymm_one.smul ρ) x v (fun i => (bx i).trans (hX.2.trans (by norm_num)))
    (fun i => (bv i).trans (hX.2.trans (by norm_num))) (by norm_num) (by
      have : (16 * ((2 : ℕ) : ℝ) ^ 3 * ((8 : ℕ) : ℝ) * 1 * p / ρ) = 1024 * (p / ρ) := by push_cast; ring
      rw [this]
      have := pρ.trans d2
      norm_num at this ⊢; linarith)
  obtain ⟨ε0, ε1⟩ := velGain_num p0 ρp pdρ d1
  set ε := ((2 : ℕ) : ℝ) * ((8 : ℕ) : ℝ) * 1 * p / ρ * gainTol 8 2 (innovMax 8 p 1 ρ / ρ) with hε
  have k1 : (1 : ℝ) ≤ 1024 * d := by linarith
  have mK' : ∀ i j, |K i j| ≤ 1024 * d := fun i j => (mK i j).trans (by
    have : (16 * ((2 : ℕ) : ℝ) ^ 3 * ((8 : ℕ) : ℝ) * 1 * p / ρ) = 1024 * (p / ρ) := by push_cast; ring
    rw [this]; linarith)
  have eG : P * hVelᵀ * (hVel * P * hVelᵀ + R)⁻¹ = velGain P ρ := by
    rw [vel_left, vel_right, vel_right, velGain, submatrix_submatrix]; rfl
  have ex : hVel *ᵥ x = x ∘ velCol := by
    ext i; simp [mulVec, dotProduct, hVel_apply]
  have cd : d ^ 2 ≤ 1.0001 * c ^ 2 := by
    rw [hd', mul_pow]
    exact mul_le_mul_of_nonneg_right (by norm_num) (sq_nonneg c)
  refine ⟨ρ, y, Y, ?_, dρ', fun i => ?_, fun i j => ?_⟩
  · simp only [fineAlignmentVelocityUpdate, ne_eq, not_true_eq_false, or_self, if_false]
    rw [eH, eR, ez]
    rw [update_fit] at e ⊢
    rw [e]
    simp [osimp]
  · have h1 := dy i
    rw [eG, ex] at h1
    refine h1.trans ?_
    have h2 := velMag_x R P mK' k1 hX.1 bx bv i
    have h3 : ∑ l, |(v - x ∘ velCol) l| ≤ 4 * X := by
      rw [Fin.sum_univ_two]
      have a : ∀ l, |(v - x ∘ velCol) l| ≤ 2 * X := fun l => (abs_sub _ _).trans (by
        have := bv l; have := bx (velCol l); simp only [Function.comp]; linarith)
      linarith [a 0, a 1]
    have h4 : ((2 * 2 + 2 * 8 + 7 : ℕ) : ℝ) / 2 ^ 51 * ((Gained.update 2 v hVel R K).mags (mgV x, mgM P)).1 i ≤ 27 / 2 ^ 51 * (5.1 * (1024 * d * X)) := by
      have := mul_le_mul_of_nonneg_left h2 (by norm_num : (0 : ℝ) ≤ 27 / 2 ^ 51)
      refine le_trans (le_of_eq ?_) this
      norm_num
    have h5 : ε * ∑ l, |(v - x ∘ velCol) l| ≤ 1.6e-8 * d ^ 2 * (4 * X) :=
      mul_le_mul ε1 h3 (Finset.sum_nonneg fun l _ => abs_nonneg _) (by positivity)
    have h6 : d * X ≤ d ^ 2 * X := mul_le_mul_of_nonneg_right (by nlinarith) X0.le
    have h7 : d ^ 2 * X ≤ 1.0001 * c ^ 2 * X := mul_le_mul_of_nonneg_right cd X0.le
    have h8 : 0 ≤ c ^ 2 * X := by positivity
    refine (add_le_add h4 h5).trans ?_
    rw [show (27 / 2 ^ 51 * (5.1 * (1024 * d * X)) + 1.6e-8 * d ^ 2 * (4 * X) : ℝ) = 27 / 2 ^ 51 * 5.1 * 1024 * (d * X) + 6.4e-8 * (d ^ 2 * X) by ring]
    rw [mul_assoc] at h7
    clear_value ε d
    norm_num at h6 h7 h8 ⊢
    linarith
  · have h1 := dY i j
    rw [eG, sub_mul, one_mul, Matrix.mul_assoc, vel_left] at h1
    refine h1.trans ?_
    have h2 := velMag_P x v mK' k1 hp.1 (ρ16.trans' (by norm_num)) bP nz.R_le i j
    have h4 : ((2 * 2 + 2 * 8 + 7 : ℕ) : ℝ) / 2 ^ 51 * ((Gained.update 2 v hVel R K).mags (mgV x, mgM P)).2 i j ≤ 27 / 2 ^ 51 * (9.2 * ((1024 * d) ^ 2 * (p + ρ))) := by
      have := mul_le_mul_of_nonneg_left h2 (by norm_num : (0 : ℝ) ≤ 27 / 2 ^ 51)
      refine le_trans (le_of_eq ?_) this
      norm_num
    have h5 : ((2 : ℕ) : ℝ) ^ 2 * ε ^ 2 * innovMax 8 p 1 ρ ≤ 4 * (1.6e-8 * d ^ 2) ^ 2 * (64 * (p + ρ)) := by
      have a := pow_le_pow_left₀ ε0 ε1 2
      have b : innovMax 8 p 1 ρ ≤ 64 * (p + ρ) := by rw [innovMax]; push_cast; linarith
      have b0 : 0 ≤ innovMax 8 p 1 ρ := by rw [innovMax]; positivity
      refine le_trans (le_of_eq ?_) (mul_le_mul (mul_le_mul_of_nonneg_left a (by norm_num : (0 : ℝ) ≤ 4)) b b0 (by positivity))
      norm_num
    refine (add_le_add h4 h5).trans ?_
    have h6 : d ^ 2 ≤ 1001 ^ 2 := pow_le_pow_left₀ (by linarith) d2 2
    have h7 : p + ρ ≤ 1.000001 * (p + ρ₀) := by linarith
    have h8 : d ^ 2 * (p + ρ) ≤ 1.0001 * c ^ 2 * (1.000001 * (p + ρ₀)) := mul_le_mul cd h7 (by positivity) (by positivity)
    have h9 : d ^ 2 * (d ^ 2 * (p + ρ)) ≤ 1001 ^ 2 * (d ^ 2 * (p + ρ)) := mul_le_mul_of_nonneg_right h6 (by positivity)
    have h10 : 0 ≤ c ^ 2 * (p + ρ₀) := by positivity
    rw [show (27 / 2 ^ 51 * (9.2 * ((1024 * d) ^ 2 * (p + ρ))) + 4 * (1.6e-8 * d ^ 2) ^ 2 * (64 * (p + ρ)) : ℝ)
      = 27 / 2 ^ 51 * 9.2 * 1024 ^ 2 * (d ^ 2 * (p + ρ)) + 4 * 1.6e-8 ^ 2 * 64 * (d ^ 2 * (d ^ 2 * (p + ρ))) by ring]
    rw [show (1.0001 * c ^ 2 * (1.000001 * (p + ρ₀)) : ℝ) = 1.0001 * 1.000001 * (c ^ 2 * (p + ρ₀)) by ring] at h8
    clear_value ε d ρ₀
    norm_num at h8 h9 h10 ⊢
    linarith

omit [Machine] in
/-- level velocities measured to a tenth of a metre per second, with unit covariance -/
example : IsCov (1 : Matrix (Fin 8) (Fin 8) ℝ) ∧ (∀ i j, |(1 : Matrix (Fin 8) (Fin 8) ℝ) i j| ≤ 1) ∧ (1 : ℝ) + (1 / 10) ^ 2 * 1 ≤ 101 * ((1 / 10) ^ 2 * 1)
    ∧ (1e-15 : ℝ) ≤ (1 / 10) ^ 2 * 1 := by
  refine ⟨isCov_iff.mpr Matrix.PosSemidef.one, fun i j => ?_, by norm_num, by norm_num⟩
  rw [Matrix.one_apply]; split_ifs <;> norm_num

end NavFuse.Props.AlignDbl
