import Verif.Lemmas.RoundRotVec
import Verif.Props.QuaternionDbl
import Verif.Props.NavigatorDbl

/-! # C139: rotation vectors in double precision -/

namespace NavFuse.Props
open Matrix NavFuse.Spec NavFuse.Attitude
variable [Machine] {r : ℝ → ℝ}

omit [Machine] in
theorem sq_of_comp (h : Rounds53 r) (φ : V3 ℝ) (h0 : ∃ i, (2 : ℝ) ^ (-537 : ℤ) ≤ |φ i|) :
    tau ≤ (((⟨φ 0⟩ : Rnd r) * ⟨φ 0⟩) + ((⟨φ 1⟩ : Rnd r) * ⟨φ 1⟩) + ((⟨φ 2⟩ : Rnd r) * ⟨φ 2⟩)).val := by
  obtain ⟨i, hi⟩ := h0
  refine sq3_ge h (fun i => (⟨φ i⟩ : Rnd r)) i (h.le_pow (by norm_num) ?_)
  show _ ≤ φ i * φ i
  rw [← abs_mul_abs_self, show (-1074 : ℤ) = -537 + -537 by norm_num, zpow_add₀ (by norm_num)]
  exact mul_le_mul hi hi (by positivity) (abs_nonneg _)

/-- C139, rotation vector to quaternion, in every rounding mode. A rotation vector of length at most 4 rad with a component of at least 2⁻⁵³⁷ rad is
converted, with success and without overflow or NaN; the scalar part is within 5·10⁻¹⁵ of the cosine of half the angle, and each other component is
accurate to a few units in the last place relative to that component of the rotation vector. -/
theorem C139_quaternion (h : Rounds53 r) (φ : V3 ℝ) (h0 : ∃ i, (2 : ℝ) ^ (-537 : ℤ) ≤ |φ i|) (h4 : len3 φ ≤ 4) (q0 : Fin 4 → Dbl r) :
    ∃ q : Fin 4 → ℝ, computeQuaternionFromRotationVec ⟨3, fun i => .fin (φ i)⟩ ⟨4, q0⟩ = .ok (true, ⟨4, fun i => .fin (q i)⟩)
      ∧ |q 0 - Real.cos (len3 φ / 2)| ≤ 5e-15
      ∧ ∀ i : Fin 3, |q i.succ - Real.sin (len3 φ / 2) / len3 φ * φ i| ≤ 2.6e-15 * |φ i| + (2 : ℝ) ^ (-1074 : ℤ) := by
  have hm := sq_of_comp h φ h0
  have hθ : 0 < len3 φ := by
    obtain ⟨i, hi⟩ := h0
    exact lt_of_lt_of_le (by positivity) (hi.trans (le_len3 φ i))
  have hs := rvq_dbl h (fun i => (⟨φ i⟩ : Rnd r)) hm h4
  obtain ⟨k0, k1⟩ := rvq_parts h (fun i => (⟨φ i⟩ : Rnd r)) hm hθ h4
  have hu := ulp_pos
  have hu2 : ulp ≤ 2.23e-16 := by unfold ulp; norm_num
  refine ⟨fun i => (rvqG (fun i => (⟨φ i⟩ : Rnd r)) i).val, ?_, ?_, fun i => ?_⟩
  · rw [rvq_eval]
    congr 3
    funext i
    exact hs i
  · dsimp only
    rw [rvq_val0 h]
    refine k0.trans ?_
    norm_num at *; linarith
  · dsimp only
    rw [rvq_val h]
    have hS : |Real.sin (len3 φ / 2) / len3 φ| ≤ 1 / 2 := by
      rw [abs_div, abs_of_pos hθ, div_le_iff₀ hθ]
      refine (Real.abs_sin_le_abs).trans ?_
      rw [abs_of_pos (by positivity)]; linarith
    change |r (r (1 / (mag3 fun i => (⟨φ i⟩ : Rnd r)).val) * Machine.lib .sin (r ((mag3 fun i => (⟨φ i⟩ : Rnd r)).val / 2)) 0 (Real.sin (r ((mag3 fun i => (⟨φ i⟩ : Rnd r)).val / 2)))) - Real.sin (len3 φ / 2) / len3 φ| ≤ _ at k1
    generalize r (r (1 / (mag3 fun i => (⟨φ i⟩ : Rnd r)).val) * Machine.lib .sin (r ((mag3 fun i => (⟨φ i⟩ : Rnd r)).val / 2)) 0 (Real.sin (r ((mag3 fun i => (⟨φ i⟩ : Rnd r)).val / 2)))) = c at *
    generalize Real.sin (len3 φ / 2) / len3 φ = S at *
    show |r (c * φ i) - S * φ i| ≤ _
    have hc : |c| ≤ 0.6 := by
      have := abs_add_le (c - S) S
      rw [sub_add_cancel] at this
      norm_num at *; linarith
    have a1 := h.rel_tau (c * φ i)
    have a2 : |c * φ i - S * φ i| ≤ 11 * ulp * |φ i| := by rw [← sub_mul, abs_mul]; exact mul_le_mul_of_nonneg_right k1 (abs_nonneg _)
    have a3 := abs_add_le (r (c * φ i) - c * φ i) (c * φ i - S * φ i)
    rw [sub_add_sub_cancel] at a3
    have a4 : |c * φ i| * ulp ≤ 0.6 * |φ i| * ulp := by
      rw [abs_mul]; exact mul_le_mul_of_nonneg_right (mul_le_mul_of_nonneg_right hc (abs_nonneg _)) hu.le
    have a5 : ulp * |φ i| ≤ 2.23e-16 * |φ i| := mul_le_mul_of_nonneg_right hu2 (abs_nonneg _)
    rw [tau] at a1
    have := abs_nonneg (φ i)
    generalize |φ i| = x at *
    generalize (2 : ℝ) ^ (-1074 : ℤ) = τ at *
    norm_num at *; linarith

/-- a tiny rotation, far below the square root of the smallest double times anything, and a large one -/
example : (∃ i, (2 : ℝ) ^ (-537 : ℤ) ≤ |(![0, 0, (2 : ℝ) ^ (-537 : ℤ)] : Fin 3 → ℝ) i|) ∧ len3 ![1, 2, (2 : ℝ)] ≤ 4 := by
  refine ⟨⟨2, ?_⟩, ?_⟩
  · simp only [Matrix.cons_val]
    exact le_abs_self _
  · rw [len3]
    refine Real.sqrt_le_iff.2 ⟨by norm_num, ?_⟩
    simp; norm_num

/-- C139 is false for smaller rotations: with the default rounding, if the squares of all components are at most 2⁻¹⁰⁷⁵, the quaternion is (1, NaN, NaN, NaN)
and the call reports success. -/
theorem C139_underflow_fails (φ : V3 ℝ) (hφ : ∀ i, φ i ^ 2 ≤ (2 : ℝ) ^ (-1075 : ℤ)) (q0 : Fin 4 → Dbl ieeeEven) :
    computeQuaternionFromRotationVec ⟨3, fun i => .fin (φ i)⟩ ⟨4, q0⟩ = .ok (true, ⟨4, ![.fin 1, ⟨.nan⟩, ⟨.nan⟩, ⟨.nan⟩]⟩) := by
  have h := ieeeEven_rounds
  have sq : ∀ i, (Dbl.fin (φ i) : Dbl ieeeEven) * .fin (φ i) = .fin 0 := fun i => by
    show Dbl.rd ieeeEven (.fin (φ i * φ i)) = _
    have : ieeeEven (φ i * φ i) = 0 := (ieeeEven_half (mul_self_nonneg _)).1 (by rw [← pow_two]; exact hφ i)
    rw [Dbl.rd_fin (by rw [this]; simp), this]
  have zz : (Dbl.fin 0 : Dbl ieeeEven) + .fin 0 = .fin 0 := by
    show Dbl.rd ieeeEven (.fin (0 + 0)) = _
    rw [add_zero, Dbl.rd_fin (by rw [h.zero]; simp), h.zero]
  have hq : Flt.sqrt (Dbl.fin 0 : Dbl ieeeEven) = .fin 0 := by
    show Dbl.rd ieeeEven (Flt.sqrt (.fin 0)) = _
    rw [XR.X_sqrt 0 le_rfl, Real.sqrt_zero, Dbl.rd_fin (by rw [h.zero]; simp), h.zero]
  have l2 : (Flt.lit 2 : Dbl ieeeEven) = .fin 2 := by
    have := Dbl.Sim.lit (r := ieeeEven) 2 (by rw [lit_two h]; norm_num)
    exact this.trans (congrArg Dbl.fin (lit_two h))
  have l1 : (Flt.lit 1 : Dbl ieeeEven) = .fin 1 := by
    have := Dbl.Sim.lit (r := ieeeEven) 1 (by rw [Rnd.lit_one h]; norm_num)
    exact this.trans (congrArg Dbl.fin (Rnd.lit_one h))
  have hd : (Dbl.fin 0 : Dbl ieeeEven) / .fin 2 = .fin 0 := by
    show Dbl.rd ieeeEven (.fin 0 / .fin 2) = _
    rw [XR.fin_div _ _ (by norm_num), zero_div, Dbl.rd_fin (by rw [h.zero]; simp), h.zero]
  have hc : Flt.cos (Dbl.fin 0 : Dbl ieeeEven) = .fin 1 := by
    have hz := (Machine.faithful .cos (0 : ℝ) 0).one
    show Dbl.lb (Machine.lib .cos (0 : ℝ) 0) (.fin (Real.cos 0)) = _
    rw [Real.cos_zero, Dbl.lb_fin (by rw [hz, abs_one]; exact one_lt_pow₀ (by norm_num) (by norm_num)), hz]
  have hs : Flt.sin (Dbl.fin 0 : Dbl ieeeEven) = .fin 0 := by
    have hz := (Machine.faithful .sin (0 : ℝ) 0).zero
    show Dbl.lb (Machine.lib .sin (0 : ℝ) 0) (.fin (Real.sin 0)) = _
    rw [Real.sin_zero, Dbl.lb_fin (by rw [hz]; simp), hz]
  have hn : (Dbl.fin 1 : Dbl ieeeEven) / .fin 0 * .fin 0 = dnan := by
    show Dbl.rd ieeeEven ((Dbl.rd ieeeEven (.fin 1 / .fin 0)).x * .fin 0) = _
    rw [XR.pos_div_zero (1 : ℝ) (by norm_num)]
    show Dbl.rd ieeeEven (XR.pinf * XR.fin 0) = _
    simp [xsimp]
    rfl
  rw [rvq_eval]
  congr 3
  simp only [rvqG, sq, zz, hq, l2, l1, hd, hc, hs, hn, xsimp]
  rfl

/-- such a rotation vector that is not zero -/
example : ((2 : ℝ) ^ (-538 : ℤ)) ^ 2 ≤ (2 : ℝ) ^ (-1075 : ℤ) ∧ IsDouble ((2 : ℝ) ^ (-538 : ℤ)) := by
  refine ⟨?_, ⟨1, -538, by norm_num, by norm_num, by simp⟩⟩
  rw [← zpow_natCast, ← _root_.zpow_mul]
  exact zpow_le_zpow_right₀ (by norm_num) (by norm_num)

theorem lit_micro (h : Rounds53 r) : Aj (Flt.lit 1.0e-6 : Dbl r) (Flt.lit 1.0e-6 : Rnd r) 1e-6 1e-21 1e-6 := by
  have a := Aj.lit h (1.0e-6) (N := 1e-6) (D := 1e-21) (by norm_num) (by norm_num)
  have e : (((1.0e-6 : ℚ)) : ℝ) = 1e-6 := by norm_num
  rwa [e] at a

theorem lit_zero_dbl (h : Rounds53 r) : (Flt.lit 0 : Dbl r) = .fin 0 :=
  (Dbl.Sim.lit (r := r) 0 (by rw [Rnd.lit_zero h]; norm_num)).trans (congrArg Dbl.fin (Rnd.lit_zero h))

/-- the conversion back, above the cut-off and away from the half turn -/
theorem qrv_above (h : Rounds53 r) (q : Fin 4 → ℝ) (hq : 0 ≤ q 0) {L c : ℝ} (hL : len3 ![q 1, q 2, q 3] = L) (h1 : 1.001e-6 ≤ L)
    (hc : c = Real.sqrt (1 - L ^ 2)) (hc1 : 1e-5 ≤ c) (p0 : V3 (Dbl r)) :
    ∃ p : V3 ℝ, computeRotationVecFromQuaternion ⟨4, fun i => .fin (q i)⟩ ⟨3, p0⟩ = .ok (true, ⟨3, fun i => .fin (p i)⟩)
      ∧ ∀ i : Fin 3, |p i - -2 * Real.arcsin L * (![q 1, q 2, q 3] i / L)| ≤ 4.2e-14 / c := by
  set u : Fin 3 → ℝ := ![q 1, q 2, q 3] with hu
  set v : V3 (Rnd r) := fun i => ⟨u i⟩ with hv
  have hup := ulp_pos
  have hu2 : ulp ≤ 2.23e-16 := by unfold ulp; norm_num
  obtain ⟨n1, n2, n3⟩ := back_core h v u (fun i => by
    show |u i - u i| ≤ _
    rw [sub_self, abs_zero]
    have := tau_pos; have := abs_nonneg (u i); positivity) hL (le_trans (by norm_num) h1) hc hc1
  have hvd : (![.fin (q 1), .fin (q 2), .fin (q 3)] : V3 (Dbl r)) = dblV v := by
    funext i; fin_cases i <;> rfl
  have l1 : Flt.lt (Dbl.fin (q 0) : Dbl r) (Flt.lit 0) = false := by
    rw [lit_zero_dbl h]; exact decide_eq_false (not_lt.2 hq)
  have l2 : Flt.lt (Flt.lit 1.0e-6 : Dbl r) (vnorm (dblV v)) = true := by
    have b := (lit_micro h).err
    rw [(lit_micro h).sim, n2]
    refine decide_eq_true (show (Flt.lit 1.0e-6 : Rnd r).val < (vnorm v).val from ?_)
    have b' := abs_le.1 b
    have n1' := abs_le.1 n1
    have : ulp * L ≤ 2.23e-16 * L := mul_le_mul_of_nonneg_right hu2 (by norm_num at *; linarith)
    norm_num at *; linarith
  refine ⟨fun i => (Flt.lit (-2) * Flt.asin (vnorm v) * vdiv v (vnorm v) i).val, ?_, fun i => (n3 i).err⟩
  rw [qrv_eval]
  congr 3
  funext i
  simp only [qrvG, l1, hvd, l2, if_true, Bool.false_eq_true, if_false]
  exact (n3 i).sim

/-- the computed length of a short vector -/
theorem vnorm_short (h : Rounds53 r) (v : V3 (Rnd r)) (hL : len3 (valV v) ≤ 9.991e-7) : (vnorm v).val ≤ 9.995e-7 := by
  have hup := ulp_pos
  have hu2 : ulp ≤ 2.23e-16 := by unfold ulp; norm_num
  rcases le_total 1e-20 (len3 (valV v)) with h1 | h1
  · have k := (abs_le.1 (vnorm_rnd h v h1)).2
    have : 12 * len3 (valV v) * ulp ≤ 12 * 1 * 2.23e-16 :=
      mul_le_mul (by norm_num at *; linarith) hu2 hup.le (by norm_num)
    norm_num at *; linarith
  · have ht : tau ≤ 1e-75 := zpow_1074
    have hr : ∀ x, 0 ≤ x → r x ≤ 1.1 * x + 1e-75 := fun x hx => by
      have := (abs_le.1 (h.rel_tau x)).2
      rw [abs_of_nonneg hx] at this
      have : x * ulp ≤ x * 2.23e-16 := mul_le_mul_of_nonneg_left hu2 hx
      norm_num at *; linarith
    have hs : ∀ i, 0 ≤ (v i * v i).val := fun i => h.nonneg (mul_self_nonneg _)
    have hq : ∀ i, (v i * v i).val ≤ 2e-40 := fun i => by
      have k : (v i).val * (v i).val ≤ 1e-20 * 1e-20 := by
        rw [← abs_mul_abs_self]
        have := (le_len3 (valV v) i).trans h1
        exact mul_le_mul this this (abs_nonneg _) (by norm_num)
      have := hr _ (mul_self_nonneg (v i).val)
      show r ((v i).val * (v i).val) ≤ _
      norm_num at *; linarith
    have hv : (vsqNorm v).val = r (r ((v (ord3 0) * v (ord3 0)).val + (v (ord3 1) * v (ord3 1)).val) + (v (ord3 2) * v (ord3 2)).val) :=
      Rnd.fsum3 fun i => v i * v i
    have g1 := h.nonneg (add_nonneg (hs (ord3 0)) (hs (ord3 1)))
    have g2 := h.nonneg (add_nonneg g1 (hs (ord3 2)))
    have q1 := hr _ (add_nonneg (hs (ord3 0)) (hs (ord3 1)))
    have q2 := hr _ (add_nonneg g1 (hs (ord3 2)))
    rw [← hv] at q2 g2
    have s0 := hq (ord3 0); have s1 := hq (ord3 1); have s2 := hq (ord3 2)
    have hn : (vsqNorm v).val ≤ 1e-38 := by norm_num at *; linarith
    have hw : Real.sqrt (vsqNorm v).val ≤ 1e-19 := Real.sqrt_le_iff.2 ⟨by norm_num, hn.trans (by norm_num)⟩
    have := hr _ (Real.sqrt_nonneg (vsqNorm v).val)
    show r (Real.sqrt (vsqNorm v).val) ≤ _
    norm_num at *; linarith

/-- C139, the cut-off: a quaternion whose vector part is shorter than 9.99·10⁻⁷, a rotation of up to 2·10⁻⁶ rad, is converted into exactly zero, with success. -/
theorem C139_cutoff (h : Rounds53 r) (q : Fin 4 → ℝ) (hL : len3 ![q 1, q 2, q 3] ≤ 9.99e-7) (p0 : V3 (Dbl r)) :
    computeRotationVecFromQuaternion ⟨4, fun i => .fin (q i)⟩ ⟨3, p0⟩ = .ok (true, ⟨3, fun _ => .fin 0⟩) := by
  have hup := ulp_pos
  have hu2 : ulp ≤ 2.23e-16 := by unfold ulp; norm_num
  set u : Fin 3 → ℝ := ![q 1, q 2, q 3] with hu
  have z := lit_zero_dbl h
  have ui : ∀ i, |u i| ≤ 1 := fun i => (le_len3 u i).trans (hL.trans (by norm_num))
  have hm : (Flt.lit (-1) : Rnd r).val = -1 := by
    show r ((-1 : ℚ) : ℝ) = -1
    have := h.int (-1) (by norm_num)
    norm_num at this ⊢; exact this
  have hmS : Dbl.Sim (Flt.lit (-1) : Dbl r) (Flt.lit (-1)) := .lit _ (by rw [hm]; norm_num)
  -- the vector, with its sign
  obtain ⟨v, hv, hvd⟩ : ∃ v : V3 (Rnd r), (∀ i, |(v i).val| ≤ (1 + ulp) * |u i| + tau) ∧
      (if Flt.lt (Dbl.fin (q 0) : Dbl r) (Flt.lit 0) then (fun i => (![.fin (q 1), .fin (q 2), .fin (q 3)] : V3 (Dbl r)) i * Flt.lit (-1))
        else ![.fin (q 1), .fin (q 2), .fin (q 3)]) = dblV v := by
    have hd : (![.fin (q 1), .fin (q 2), .fin (q 3)] : V3 (Dbl r)) = fun i => .fin (u i) := by funext i; fin_cases i <;> rfl
    rw [hd]
    split_ifs
    · refine ⟨fun i => ⟨u i⟩ * Flt.lit (-1), fun i => ?_, ?_⟩
      · show |r (u i * (Flt.lit (-1) : Rnd r).val)| ≤ _
        rw [hm]
        have k := h.rel_tau (u i * -1)
        have e := abs_add_le (r (u i * -1) - u i * -1) (u i * -1)
        rw [sub_add_cancel] at e
        rw [abs_mul, abs_neg, abs_one, mul_one] at k e
        linarith
      · funext i
        refine Dbl.Sim.mul (x := ⟨u i⟩) rfl hmS ?_
        show |r (u i * (Flt.lit (-1) : Rnd r).val)| ≤ _
        rw [hm]
        have := h.pow_le (k := 0) (by norm_num) (x := u i * -1) (by simpa using ui i)
        exact this.trans (by norm_num)
    · refine ⟨fun i => ⟨u i⟩, fun i => ?_, rfl⟩
      show |u i| ≤ _
      have := tau_pos
      have := mul_nonneg hup.le (abs_nonneg (u i))
      linarith
  have ht : tau ≤ 1e-75 := zpow_1074
  have ht0 := tau_pos
  have hl : len3 (valV v) ≤ 9.991e-7 := by
    have k : len3 (valV v) ≤ len3 (((1 + ulp) • fun i => |u i|) + fun _ => tau) := len3_mono fun i => by
      simp only [Pi.add_apply, Pi.smul_apply, smul_eq_mul]
      exact (hv i).trans (le_abs_self _)
    refine k.trans ((len3_add _ _).trans ?_)
    rw [len3_smul, len3_abs, abs_of_pos (by linarith)]
    have k2 := len3_of_entries (v := fun _ => tau) ht0.le (fun _ => (abs_of_pos ht0).le)
    have k3 : ulp * len3 u ≤ 2.23e-16 * 1 := mul_le_mul hu2 (hL.trans (by norm_num)) (len3_nonneg' u) (by norm_num)
    norm_num at *; linarith
  have hn := vnorm_short h v hl
  have l2 : Flt.lt (Flt.lit 1.0e-6 : Dbl r) (vnorm (dblV v)) = false := by
    have b := abs_le.1 (lit_micro h).err
    rw [(lit_micro h).sim, (vnorm_dbl h v (hl.trans (by norm_num))).sim]
    refine decide_eq_false (not_lt.2 (show (vnorm v).val ≤ (Flt.lit 1.0e-6 : Rnd r).val from ?_))
    norm_num at *; linarith
  have one : (Flt.lit 1 : Dbl r) = .fin 1 := (Bd.one h).sim.trans (congrArg Dbl.fin (Rnd.lit_one h))
  rw [qrv_eval]
  congr 3
  simp only [qrvG]
  rw [hvd, l2]
  have zm : ∀ x : ℝ, (Dbl.fin 0 : Dbl r) * .fin x = .fin 0 := fun x => by
    show Dbl.rd r (.fin (0 * x)) = _
    rw [zero_mul, Dbl.rd_fin (by rw [h.zero]; simp), h.zero]
  funext i
  simp only [Bool.false_eq_true, if_false, z, one, vsmul]
  fin_cases i <;> exact zm _

/-- a rotation of 1.8 microradians, and one where the scalar part is negative -/
example : len3 ![(9e-7 : ℝ), 0, 0] ≤ 9.99e-7 := by
  rw [len3]
  refine Real.sqrt_le_iff.2 ⟨by norm_num, ?_⟩
  simp; norm_num

omit [Machine] in
/-- how the exact formula for the conversion back depends on the vector part -/
theorem back_exact {φ v : Fin 3 → ℝ} {θ s c : ℝ} (hθ : len3 φ = θ) (hs : s = Real.sin (θ / 2)) (hc : c = Real.cos (θ / 2)) (hpi : θ < Real.pi)
    (hs1 : 1.1e-6 ≤ s) (hc1 : 2e-5 ≤ c) (hv : ∀ i, |v i - s / θ * φ i| ≤ 2.6e-15 * |φ i| + tau) :
    1.05e-6 ≤ len3 v ∧ 0.999 * c ≤ Real.sqrt (1 - len3 v ^ 2) ∧ ∀ i, |-2 * Real.arcsin (len3 v) * (v i / len3 v) - -φ i| ≤ 9e-14 / c := by
  have ht : tau ≤ 1e-75 := zpow_1074
  have ht0 := tau_pos
  have hθ0 : 0 < θ := by
    rcases eq_or_lt_of_le (len3_nonneg' φ) with h | h
    · exfalso
      rw [← hθ, ← h] at hs
      simp at hs
      rw [hs] at hs1; norm_num at hs1
    · rwa [hθ] at h
  have hs0 : 0 < s := lt_of_lt_of_le (by norm_num) hs1
  have c0 : 0 < c := lt_of_lt_of_le (by norm_num) hc1
  -- the sine is at least the chord
  have jordan : θ ≤ 3.15 * s := by
    have k := Real.mul_le_sin (x := θ / 2) (by positivity) (by linarith)
    rw [← hs] at k
    have e : 2 / Real.pi * (θ / 2) = θ / Real.pi := by ring
    rw [e, div_le_iff₀ Real.pi_pos] at k
    have := Real.pi_lt_d2
    refine k.trans ?_
    rw [mul_comm]
    exact mul_le_mul_of_nonneg_right (by norm_num at *; linarith) hs0.le
  have hsc : s ^ 2 + c ^ 2 = 1 := by rw [hs, hc]; exact Real.sin_sq_add_cos_sq _
  have s1 : s ≤ 1 := by nlinarith
  have cc : c ≤ 1 := by nlinarith
  set W : Fin 3 → ℝ := (s / θ) • φ with hW
  have lW : len3 W = s := by
    rw [hW, len3_smul, hθ, abs_of_pos (by positivity)]; field_simp
  have hWi : ∀ i, |v i - W i| ≤ 8.2e-15 * |W i| + tau := fun i => by
    refine (hv i).trans ?_
    have e : |W i| = s / θ * |φ i| := by rw [hW, Pi.smul_apply, smul_eq_mul, abs_mul, abs_of_pos (by positivity)]
    rw [e]
    have k : 1 / 3.15 ≤ s / θ := by rw [div_le_div_iff₀ (by norm_num) hθ0]; linarith
    have k2 := mul_le_mul_of_nonneg_right k (abs_nonneg (φ i))
    have k3 := abs_nonneg (φ i)
    clear e
    generalize |φ i| = y at *
    generalize s / θ * y = w at *
    norm_num at k2 ⊢; linarith
  have nL := len3_near (by norm_num) ht0.le hWi
  rw [lW] at nL
  have nL' : |len3 v - s| ≤ 8.3e-15 * s := nL.trans (by norm_num at *; linarith)
  have lv := abs_le.1 nL'
  have hLp : 0 < len3 v := by norm_num at *; linarith
  have hvi : ∀ i, |v i| ≤ len3 v := le_len3 v
  generalize len3 v = L at *
  refine ⟨by norm_num at *; linarith, ?_, fun i => ?_⟩
  · refine Real.le_sqrt_of_sq_le ?_
    have hL2 : L ^ 2 ≤ (s * (1 + 8.3e-15)) ^ 2 := pow_le_pow_left₀ hLp.le (by linarith) 2
    have hc2 : (2e-5) ^ 2 ≤ c ^ 2 := pow_le_pow_left₀ (by norm_num) hc1 2
    have : s ^ 2 ≤ 1 := by nlinarith
    have e1 : (s * (1 + 8.3e-15)) ^ 2 = s ^ 2 * (1 + 8.3e-15) ^ 2 := by ring
    have e2 : (0.999 * c) ^ 2 = 0.998001 * c ^ 2 := by ring
    rw [e1] at hL2
    rw [e2]
    norm_num at *; linarith
  · have hp : θ / 2 ∈ Set.Ioo (-(Real.pi / 2)) (Real.pi / 2) := ⟨by linarith [Real.pi_pos], by linarith⟩
    have dA : |L - Real.sin (θ / 2)| ≤ 8.3e-15 := by rw [← hs]; exact nL'.trans (by norm_num at *; linarith)
    obtain ⟨-, as⟩ := arcsin_near hp dA (by rw [← hc]) (by
      have hc2 : (2e-5) ^ 2 ≤ c ^ 2 := pow_le_pow_left₀ (by norm_num) hc1 2
      norm_num at *; linarith) c0 (by norm_num)
    have ez : ∀ k : ℝ, k / c = k * (1 / c) := fun k => by ring
    have hz1 : (1 : ℝ) ≤ 1 / c := by rw [le_div_iff₀ c0]; linarith
    have q1 : |v i / L| ≤ 1 := by rw [abs_div, abs_of_pos hLp, div_le_one hLp]; exact hvi i
    have q2 : |v i / L - W i / s| ≤ 1.7e-14 := by
      have e : v i / L - W i / s = ((v i - W i) + v i / L * (s - L)) / s := by field_simp; ring
      have k1 : |v i / L * (s - L)| ≤ 1 * (8.3e-15 * s) := by
        rw [abs_mul, abs_sub_comm s L]; exact mul_le_mul q1 nL' (abs_nonneg _) (by norm_num)
      have k2 := hWi i
      have k3 : |W i| ≤ s := by rw [← lW]; exact le_len3 W i
      rw [e, abs_div, abs_of_pos hs0, div_le_iff₀ hs0]
      refine (abs_add_le _ _).trans ?_
      norm_num at *; linarith
    have eφ : φ i = θ * (W i / s) := by rw [hW, Pi.smul_apply, smul_eq_mul]; field_simp
    have e : -2 * Real.arcsin L * (v i / L) - -φ i = -2 * (Real.arcsin L - θ / 2) * (v i / L) + -(θ * (v i / L - W i / s)) := by rw [eφ]; ring
    rw [e]
    refine (abs_add_le _ _).trans ?_
    rw [abs_neg, abs_mul, abs_mul, abs_mul θ, abs_of_pos hθ0]
    have a1 : |(-2 : ℝ)| * |Real.arcsin L - θ / 2| * |v i / L| ≤ 2 * (2.1 * 8.3e-15 / c) * 1 := by
      refine mul_le_mul (mul_le_mul (by norm_num) as (abs_nonneg _) (by norm_num)) q1 (abs_nonneg _) (by positivity)
    have a2 : θ * |v i / L - W i / s| ≤ 3.15 * 1.7e-14 := by
      refine mul_le_mul ?_ q2 (abs_nonneg _) (by norm_num)
      have := Real.pi_lt_d2
      norm_num at *; linarith
    rw [ez] at a1 ⊢
    generalize 1 / c = z at *
    norm_num at *; linarith

/-- C139, round trip, in every rounding mode. For a rotation vector whose half angle has a sine of at least 1.1·10⁻⁶ and a cosine of at least 2·10⁻⁵, both
conversions succeed without overflow or NaN, and the result is the negative of the rotation vector, within 1.4·10⁻¹³ divided by that cosine. (Full claim:
the rotation vector itself, for every angle up to a half turn; the sign is wrong, see C31, and close to the half turn the result can be NaN, see below.) -/
theorem C139_round_trip_partial (h : Rounds53 r) (φ : V3 ℝ) (hpi : len3 φ < Real.pi) (hs : 1.1e-6 ≤ Real.sin (len3 φ / 2))
    (hc : 2e-5 ≤ Real.cos (len3 φ / 2)) (q0 : Fin 4 → Dbl r) (p0 : V3 (Dbl r)) :
    ∃ (q : Fin 4 → ℝ) (p : V3 ℝ), computeQuaternionFromRotationVec ⟨3, fun i => .fin (φ i)⟩ ⟨4, q0⟩ = .ok (true, ⟨4, fun i => .fin (q i)⟩)
      ∧ computeRotationVecFromQuaternion ⟨4, fun i => .fin (q i)⟩ ⟨3, p0⟩ = .ok (true, ⟨3, fun i => .fin (p i)⟩)
      ∧ ∀ i, |p i - -φ i| ≤ 1.4e-13 / Real.cos (len3 φ / 2) := by
  have hθ : 1.1e-6 ≤ len3 φ := by
    have k := Real.abs_sin_le_abs (x := len3 φ / 2)
    have := le_abs_self (Real.sin (len3 φ / 2))
    have := len3_nonneg' φ
    rw [abs_of_nonneg (by positivity : 0 ≤ len3 φ / 2)] at k
    linarith
  have h0 : ∃ i, (2 : ℝ) ^ (-537 : ℤ) ≤ |φ i| := by
    by_contra hn
    push Not at hn
    have k := len3_of_entries (v := φ) (c := (2 : ℝ) ^ (-537 : ℤ)) (by positivity) (fun i => (hn i).le)
    have k2 : (2 : ℝ) ^ (-537 : ℤ) ≤ (2 : ℝ) ^ (-100 : ℤ) := zpow_le_zpow_right₀ (by norm_num) (by norm_num)
    rw [_root_.zpow_neg 2 100] at k2
    generalize (2 : ℝ) ^ (-537 : ℤ) = x at *
    norm_num at *; linarith
  obtain ⟨q, e1, k0, k1⟩ := C139_quaternion h φ h0 (by have := Real.pi_lt_d2; norm_num at *; linarith) q0
  have hv : ∀ i, |(![q 1, q 2, q 3] : Fin 3 → ℝ) i - Real.sin (len3 φ / 2) / len3 φ * φ i| ≤ 2.6e-15 * |φ i| + tau := by
    intro i
    have := k1 i
    fin_cases i <;> exact this
  obtain ⟨L1, L2, L3⟩ := back_exact rfl rfl rfl hpi hs hc hv
  have hq0 : 0 ≤ q 0 := by have := abs_le.1 k0; norm_num at *; linarith
  have c0 : 0 < Real.cos (len3 φ / 2) := lt_of_lt_of_le (by norm_num) hc
  obtain ⟨p, e2, k2⟩ := qrv_above h q hq0 rfl (by norm_num at *; linarith) rfl (by norm_num at *; linarith) p0
  refine ⟨q, p, e1, e2, fun i => ?_⟩
  have t := abs_add_le (p i - -2 * Real.arcsin (len3 ![q 1, q 2, q 3]) * (![q 1, q 2, q 3] i / len3 ![q 1, q 2, q 3]))
    (-2 * Real.arcsin (len3 ![q 1, q 2, q 3]) * (![q 1, q 2, q 3] i / len3 ![q 1, q 2, q 3]) - -φ i)
  rw [sub_add_sub_cancel] at t
  have k3 := k2 i
  have k4 := L3 i
  have k5 : 4.2e-14 / Real.sqrt (1 - len3 ![q 1, q 2, q 3] ^ 2) ≤ 4.3e-14 / Real.cos (len3 φ / 2) := by
    rw [div_le_div_iff₀ (lt_of_lt_of_le (by positivity) L2) c0]
    norm_num at *; linarith
  refine t.trans ((add_le_add (k3.trans k5) k4).trans ?_)
  rw [← add_div]
  exact div_le_div_of_nonneg_right (by norm_num) c0.le

/-- a third of a turn -/
example : ∃ φ : V3 ℝ, len3 φ < Real.pi ∧ 1.1e-6 ≤ Real.sin (len3 φ / 2) ∧ 2e-5 ≤ Real.cos (len3 φ / 2) := by
  refine ⟨![2 * Real.pi / 3, 0, 0], ?_⟩
  have e : len3 ![2 * Real.pi / 3, 0, 0] = 2 * (Real.pi / 3) := by
    have := Real.pi_pos
    rw [len3]; simp
    rw [Real.sqrt_sq (by positivity)]; ring
  rw [e, mul_div_cancel_left₀ _ two_ne_zero, Real.sin_pi_div_three, Real.cos_pi_div_three]
  have := Real.pi_pos
  have k : (1 : ℝ) ≤ Real.sqrt 3 := Real.one_le_sqrt.2 (by norm_num)
  refine ⟨by linarith, by norm_num; linarith, by norm_num⟩

/-- a vector part whose computed length exceeds one turns the result into NaN -/
theorem qrv_long {r : ℝ → ℝ} (h : Rounds53 r) (q : Fin 4 → ℝ) (hq : 0 ≤ q 0) {n : ℝ} (hn : vnorm (![.fin (q 1), .fin (q 2), .fin (q 3)] : V3 (Dbl r)) = .fin n)
    (h1 : 1 < n) (p0 : V3 (Dbl r)) :
    computeRotationVecFromQuaternion ⟨4, fun i => .fin (q i)⟩ ⟨3, p0⟩ = .ok (true, ⟨3, fun _ => ⟨.nan⟩⟩) := by
  have l1 : Flt.lt (Dbl.fin (q 0) : Dbl r) (Flt.lit 0) = false := by
    rw [lit_zero_dbl h]; exact decide_eq_false (not_lt.2 hq)
  have l2 : Flt.lt (Flt.lit 1.0e-6 : Dbl r) (.fin n) = true := by
    have b := abs_le.1 (lit_micro h).err
    rw [(lit_micro h).sim]
    refine decide_eq_true (show (Flt.lit 1.0e-6 : Rnd r).val < n from ?_)
    norm_num at *; linarith
  have as : Flt.asin (Dbl.fin n : Dbl r) = dnan := by
    show Dbl.lb (Machine.lib .asin n 0) (Flt.asin (XR.fin n)) = _
    have : Flt.asin (XR.fin n) = XR.nan := if_neg fun hh => by linarith [hh.2]
    rw [this]; rfl
  rw [qrv_eval]
  congr 3
  funext i
  simp only [qrvG, l1, hn, l2, if_true, Bool.false_eq_true, if_false, as, vsmul, xsimp]
  rfl

/-- C139 is false close to the half turn: with the default rounding, the rotation vector (593, 102942, 0)/2¹⁵, a turn by 2.8·10⁻⁹ rad less than a half turn, is
converted into a finite quaternion whose vector part has a computed length above one, so that the conversion back takes the arcsine of a number above one and
returns NaN in all components; both calls report success. -/
theorem C139_half_turn_fails (hl : Machine.Correct ieeeEven) (q0 : Fin 4 → E) (p0 : V3 E) :
    len3 ![593 / 2 ^ 15, 102942 / 2 ^ 15, 0] < Real.pi ∧
    ∃ q : Fin 4 → ℝ, computeQuaternionFromRotationVec ⟨3, fun i => .fin (![593 / 2 ^ 15, 102942 / 2 ^ 15, 0] i)⟩ ⟨4, q0⟩ = .ok (true, ⟨4, fun i => .fin (q i)⟩)
      ∧ computeRotationVecFromQuaternion ⟨4, fun i => .fin (q i)⟩ ⟨3, p0⟩ = .ok (true, ⟨3, fun _ => ⟨.nan⟩⟩) := by
  have h := ieeeEven_rounds
  have pi1 := Real.pi_gt_d20
  have pi2 := Real.pi_lt_d20
  -- the square root
  have sq1 : (7074237745758825.51 * 2 ^ (-51 : ℤ) : ℝ) < Real.sqrt (10597407013 / 2 ^ 30) := Real.lt_sqrt_of_sq_lt (by norm_num)
  have sq2 : Real.sqrt (10597407013 / 2 ^ 30) < (7074237745758826.49 * 2 ^ (-51 : ℤ) : ℝ) := (Real.sqrt_lt' (by norm_num)).2 (by norm_num)
  have m1 : ieeeEven (Real.sqrt (10597407013 / 2 ^ 30)) = 7074237745758826 * 2 ^ (-51 : ℤ) := by
    rw [even_eq 7074237745758826 (-51) (by norm_num)]
    · norm_num
    · norm_num at *; linarith
    · norm_num at *; linarith
    · rw [abs_lt]; constructor <;> norm_num at * <;> linarith
  have hm : Flt.sqrt ((.fin (593 / 2 ^ 15) : E) * .fin (593 / 2 ^ 15) + .fin (102942 / 2 ^ 15) * .fin (102942 / 2 ^ 15) + .fin 0 * .fin 0)
      = .fin (7074237745758826 * 2 ^ (-51 : ℤ)) := by
    rw [mulE (c := 351649 / 2 ^ 30) (by rw [keepE 351649 (-30) _ (by norm_num) (by norm_num) (by norm_num)]; norm_num) (by norm_num),
      mulE (c := 10597055364 / 2 ^ 30) (by rw [keepE 10597055364 (-30) _ (by norm_num) (by norm_num) (by norm_num)]; norm_num) (by norm_num),
      mulE (c := 0) (by rw [mul_zero, h.zero]) (by norm_num),
      addE (c := 10597407013 / 2 ^ 30) (by rw [keepE 10597407013 (-30) _ (by norm_num) (by norm_num) (by norm_num)]; norm_num) (by norm_num),
      addE (c := 10597407013 / 2 ^ 30) (by rw [keepE 10597407013 (-30) _ (by norm_num) (by norm_num) (by norm_num)]; norm_num) (by norm_num)]
    show Dbl.rd ieeeEven (Flt.sqrt (.fin _)) = _
    rw [XR.X_sqrt _ (by norm_num), Dbl.rd_fin (by rw [m1]; exact lt_of_le_of_lt (by norm_num) Dbl.big), m1]
  have two : (Flt.lit 2 : E) = .fin 2 := litE' 2 (by rw [keepE 2 0 _ (by norm_num) (by norm_num) (by norm_num)]; norm_num) (by norm_num)
  have one : (Flt.lit 1 : E) = .fin 1 := litE' 1 (by rw [keepE 1 0 _ (by norm_num) (by norm_num) (by norm_num)]; norm_num) (by norm_num)
  have dv : ∀ {a b c : ℝ}, b ≠ 0 → ieeeEven (a / b) = c → |c| ≤ 1e200 → (.fin a : E) / .fin b = .fin c := by
    intro a b c hb hh hc
    show Dbl.rd ieeeEven (.fin a / .fin b) = _
    rw [XR.fin_div _ _ hb, Dbl.rd_fin (by rw [hh]; exact hc.trans_lt Dbl.big), hh]
  -- half the angle
  set x : ℝ := 7074237745758826 * 2 ^ (-52 : ℤ) with hx
  have hh : (.fin (7074237745758826 * 2 ^ (-51 : ℤ)) : E) / .fin 2 = .fin x :=
    dv (by norm_num) (by rw [keepE 7074237745758826 (-52) _ (by norm_num) (by norm_num) (by norm_num), hx]; norm_num) (by rw [hx]; norm_num)
  have x1 : 0 ≤ x := by rw [hx]; positivity
  have x2 : 1.3e-9 < Real.pi / 2 - x ∧ Real.pi / 2 - x < 1.5e-9 := by rw [hx]; constructor <;> norm_num at * <;> linarith
  have cpos : 0 < Real.cos x := Real.cos_pos_of_mem_Ioo ⟨by linarith [Real.pi_pos], by norm_num at *; linarith⟩
  have s1 : 1 - (1.5e-9) ^ 2 / 2 ≤ Real.sin x := by
    rw [← Real.cos_pi_div_two_sub]
    have k := Real.one_sub_sq_div_two_le_cos (x := Real.pi / 2 - x)
    have k2 : (Real.pi / 2 - x) ^ 2 ≤ (1.5e-9) ^ 2 := pow_le_pow_left₀ (by norm_num at *; linarith) x2.2.le 2
    linarith
  have s2 : Real.sin x < 1 := by nlinarith [Real.sin_sq_add_cos_sq x, Real.sin_le_one x]
  have hs : Flt.sin (.fin x : E) = .fin 1 := by
    show Dbl.lb (Machine.lib .sin x 0) (.fin (Real.sin x)) = _
    have e : ieeeEven (Real.sin x) = 1 := by
      rw [even_eq (2 ^ 53) (-53) (by norm_num)]
      · norm_num
      · norm_num at *; linarith
      · norm_num at *; linarith
      · rw [abs_lt]; constructor <;> norm_num at * <;> linarith
    rw [hl, Dbl.lb_fin (by rw [e]; exact lt_of_le_of_lt (by norm_num) Dbl.big), e]
  have c1 : |ieeeEven (Real.cos x)| ≤ 1 := by
    have := h.pow_le (k := 0) (by norm_num) (x := Real.cos x) (by simpa using Real.abs_cos_le_one x)
    simpa using this
  have hcs : Flt.cos (.fin x : E) = .fin (ieeeEven (Real.cos x)) := by
    show Dbl.lb (Machine.lib .cos x 0) (.fin (Real.cos x)) = _
    rw [hl]
    exact Dbl.lb_fin (lt_of_le_of_lt (c1.trans (by norm_num)) Dbl.big)
  -- the reciprocal
  have hr : (.fin 1 : E) / .fin (7074237745758826 * 2 ^ (-51 : ℤ)) = .fin (5734161144304617 * 2 ^ (-54 : ℤ)) := by
    refine dv (by positivity) ?_ (by norm_num)
    rw [even_eq 5734161144304617 (-54) (by norm_num)]
    · norm_num
    · norm_num
    · norm_num
    · rw [abs_lt]; constructor <;> norm_num
  have hr1 : (.fin (5734161144304617 * 2 ^ (-54 : ℤ)) : E) * .fin 1 = .fin (5734161144304617 * 2 ^ (-54 : ℤ)) :=
    mulE (by rw [keepE 5734161144304617 (-54) _ (by norm_num) (by norm_num) (by norm_num)]; norm_num) (by norm_num)
  have g1 : (.fin (5734161144304617 * 2 ^ (-54 : ℤ)) : E) * .fin (593 / 2 ^ 15) = .fin (6641323356587183 * 2 ^ (-60 : ℤ)) := by
    refine mulE ?_ (by norm_num)
    rw [even_eq 6641323356587183 (-60) (by norm_num)]
    · norm_num
    · norm_num
    · norm_num
    · rw [abs_lt]; constructor <;> norm_num
  have g2 : (.fin (5734161144304617 * 2 ^ (-54 : ℤ)) : E) * .fin (102942 / 2 ^ 15) = .fin (9007049812576384 * 2 ^ (-53 : ℤ)) := by
    refine mulE ?_ (by norm_num)
    rw [even_eq 9007049812576384 (-53) (by norm_num)]
    · norm_num
    · norm_num
    · norm_num
    · rw [abs_lt]; constructor <;> norm_num
  have g3 : (.fin (5734161144304617 * 2 ^ (-54 : ℤ)) : E) * .fin 0 = .fin 0 := mulE (by rw [mul_zero, h.zero]) (by norm_num)
  refine ⟨?_, ![ieeeEven (Real.cos x), 6641323356587183 * 2 ^ (-60 : ℤ), 9007049812576384 * 2 ^ (-53 : ℤ), 0], ?_, ?_⟩
  · have e : len3 ![593 / 2 ^ 15, 102942 / 2 ^ 15, 0] = Real.sqrt (10597407013 / 2 ^ 30) := by rw [len3]; congr 1; simp; norm_num
    rw [e]; norm_num at *; linarith
  · rw [rvq_eval]
    congr 3
    have e : rvqG (fun i => (.fin (![593 / 2 ^ 15, 102942 / 2 ^ 15, 0] i) : E))
        = ![.fin (ieeeEven (Real.cos x)), .fin (6641323356587183 * 2 ^ (-60 : ℤ)), .fin (9007049812576384 * 2 ^ (-53 : ℤ)), .fin 0] := by
      simp only [rvqG, Matrix.cons_val_zero, Matrix.cons_val_one, Matrix.cons_val]
      rw [hm, two, one, hh, hs, hcs, hr, hr1, g1, g2, g3]
    rw [e]
    funext i; fin_cases i <;> rfl
  · refine qrv_long h _ (h.nonneg cpos.le) (n := 4503599627370497 * 2 ^ (-52 : ℤ)) ?_ (by norm_num) p0
    simp only [vnorm, vsqNorm, vdot]
    have a1 : (.fin (6641323356587183 * 2 ^ (-60 : ℤ)) : E) * .fin (6641323356587183 * 2 ^ (-60 : ℤ)) = .fin (4896880226507077 * 2 ^ (-67 : ℤ)) := by
      refine mulE ?_ (by norm_num)
      rw [even_eq 4896880226507077 (-67) (by norm_num)]
      · norm_num
      · norm_num
      · norm_num
      · rw [abs_lt]; constructor <;> norm_num
    have a2 : (.fin (9007049812576384 * 2 ^ (-53 : ℤ)) : E) * .fin (9007049812576384 * 2 ^ (-53 : ℤ)) = .fin (9006900372891233 * 2 ^ (-53 : ℤ)) := by
      refine mulE ?_ (by norm_num)
      rw [even_eq 9006900372891233 (-53) (by norm_num)]
      · norm_num
      · norm_num
      · norm_num
      · rw [abs_lt]; constructor <;> norm_num
    have a3 : (.fin 0 : E) * .fin 0 = .fin 0 := mulE (by rw [mul_zero, h.zero]) (by norm_num)
    have b1 : (.fin 0 : E) + .fin (4896880226507077 * 2 ^ (-67 : ℤ)) = .fin (4896880226507077 * 2 ^ (-67 : ℤ)) :=
      addE (by rw [keepE 4896880226507077 (-67) _ (by norm_num) (by norm_num) (by norm_num)]; norm_num) (by norm_num)
    have b2 : (.fin (4896880226507077 * 2 ^ (-67 : ℤ)) : E) + .fin (9006900372891233 * 2 ^ (-53 : ℤ)) = .fin (4503599627370498 * 2 ^ (-52 : ℤ)) := by
      refine addE ?_ (by norm_num)
      rw [even_eq 4503599627370498 (-52) (by norm_num)]
      · norm_num
      · norm_num
      · norm_num
      · rw [abs_lt]; constructor <;> norm_num
    have b3 : (.fin (4503599627370498 * 2 ^ (-52 : ℤ)) : E) + .fin 0 = .fin (4503599627370498 * 2 ^ (-52 : ℤ)) :=
      addE (by rw [keepE 4503599627370498 (-52) _ (by norm_num) (by norm_num) (by norm_num)]; norm_num) (by norm_num)
    have b4 : (.fin (9006900372891233 * 2 ^ (-53 : ℤ)) : E) + .fin 0 = .fin (9006900372891233 * 2 ^ (-53 : ℤ)) :=
      addE (by rw [keepE 9006900372891233 (-53) _ (by norm_num) (by norm_num) (by norm_num)]; norm_num) (by norm_num)
    rw [Dbl.fsum3_of (c := .fin (4503599627370498 * 2 ^ (-52 : ℤ)))
      (by simp only [Matrix.cons_val_zero, Matrix.cons_val_one, Matrix.cons_val]; rw [a1, a2, a3, b2, b3])
      (by simp only [Matrix.cons_val_zero, Matrix.cons_val_one, Matrix.cons_val]; rw [a1, a2, a3, Dbl.add_comm (.fin _) (.fin 0), b1, b2])
      (by simp only [Matrix.cons_val_zero, Matrix.cons_val_one, Matrix.cons_val]; rw [a1, a2, a3, b4, Dbl.add_comm, b2])]
    show Dbl.rd ieeeEven (Flt.sqrt (.fin _)) = _
    have t1 : (4503599627370496.9 * 2 ^ (-52 : ℤ) : ℝ) < Real.sqrt (4503599627370498 * 2 ^ (-52 : ℤ)) := Real.lt_sqrt_of_sq_lt (by norm_num)
    have t2 : Real.sqrt (4503599627370498 * 2 ^ (-52 : ℤ)) < (4503599627370497.1 * 2 ^ (-52 : ℤ) : ℝ) := (Real.sqrt_lt' (by norm_num)).2 (by norm_num)
    have e : ieeeEven (Real.sqrt (4503599627370498 * 2 ^ (-52 : ℤ))) = 4503599627370497 * 2 ^ (-52 : ℤ) := by
      rw [even_eq 4503599627370497 (-52) (by norm_num)]
      · norm_num
      · norm_num at *; linarith
      · norm_num at *; linarith
      · rw [abs_lt]; constructor <;> norm_num at * <;> linarith
    rw [XR.X_sqrt _ (by positivity), Dbl.rd_fin (by rw [e]; exact lt_of_le_of_lt (by norm_num) Dbl.big), e]

end NavFuse.Props
