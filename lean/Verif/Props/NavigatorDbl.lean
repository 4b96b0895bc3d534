import Verif.Props.NavigatorRnd

/-! # Properties C125 and C126: the navigator on doubles with overflow, infinities and NaN -/

namespace NavFuse.Props
open Matrix NavFuse.Spec NavFuse.Strapdown NavFuse.NavUtils
variable [Machine] {r : ℝ → ℝ}

/-! ## C125 -/

/-- C125. The flights of C124 on doubles as they are, with overflow, infinities and NaN: no operation of `initialize` or of any of the `n` calls of
`integrate` overflows or produces a NaN, every call succeeds, and position and velocity are finite and obey the error bound of C124. -/
theorem C125_navigator_doubles (h : Rounds53 r) (S : St (Dbl r)) (sx : St ℝ) (lla vNed rph : V3 (Rnd r)) (t : Int)
    (cs : List (V3 (Rnd r) × V3 (Rnd r) × Int)) (hc : Sampled t cs)
    (hC : Cruising (Strapdown.init sx (valV lla) (valV vNed) (valV rph) t).2 (exactCalls cs)) (B : ℝ)
    (hB : B = Real.exp (0.0027 * (((lastTime t cs - t : Int) : ℝ) / 1000000))
      * (1.25e-8 * cs.length + 26000 * (((lastTime t cs - t : Int) : ℝ) / 1000000) * (122 + 770 * cs.length) / 2 ^ 52)) (hB1 : B ≤ 1)
    (hn : cs.length ≤ 5 * 10 ^ 11) :
    ∃ (S' : St (Dbl r)) (sx' : St ℝ) (p v px vx : V3 ℝ),
      run S (.init (dblV lla) (dblV vNed) (dblV rph) t :: dblCalls cs) = .ok (true :: List.replicate cs.length true, S')
      ∧ run sx (.init (valV lla) (valV vNed) (valV rph) t :: exactCalls cs) = .ok (true :: List.replicate cs.length true, sx')
      ∧ S'.lla = some (fun i => ⟨.fin (p i)⟩) ∧ S'.vNed = some (fun i => ⟨.fin (v i)⟩) ∧ sx'.lla = some px ∧ sx'.vNed = some vx
      ∧ |p 0 - px 0| ≤ 1.6e-7 * B ∧ |p 1 - px 1| ≤ 5e-7 * B ∧ |p 2 - px 2| ≤ B ∧ ∀ i, |v i - vx i| ≤ 0.002 * B := by
  obtain ⟨s', sx', p, v, px, vx, -, e2, -, -, e5, e6, e7, e8, e9, e10, e11⟩ := navigator_joint h {} sx lla vNed rph t cs hc hC B hB hB1 hn
  obtain ⟨S', f1, f2, f3⟩ := e11 S
  exact ⟨S', sx', valV p, valV v, px, vx, f1, e2, f2, f3, e5, e6, e7, e8, e9, e10⟩

/-- The hypotheses of C125 are met for every sampled sequence of calls of at most one second, in the default rounding mode, from 43 degrees of
latitude, 1000 m and 100 m/s north. -/
example (cs : List (V3 (Rnd ieeeEven) × V3 (Rnd ieeeEven) × Int)) (sx : St ℝ) (hc : Sampled 0 cs) (hT : lastTime 0 cs ≤ 1000000) :
    Rounds53 ieeeEven
    ∧ Cruising (Strapdown.init sx (valV (r := ieeeEven) ![⟨3 / 4⟩, ⟨1⟩, ⟨1000⟩]) (valV (r := ieeeEven) ![⟨100⟩, ⟨0⟩, ⟨0⟩]) (valV (r := ieeeEven) ![⟨0⟩, ⟨0⟩, ⟨0⟩]) 0).2
        (exactCalls cs) :=
  ⟨ieeeEven_rounds, one_second_cruise cs sx hc hT⟩

/-! ## C126 -/

omit [Machine] in
/-- numbers up to half of the smallest subnormal number round to zero, larger ones do not -/
theorem ieeeEven_half {x : ℝ} (h0 : 0 ≤ x) : (x ≤ (2 : ℝ) ^ (-1075 : ℤ) → ieeeEven x = 0) ∧ ((2 : ℝ) ^ (-1075 : ℤ) < x → tau ≤ ieeeEven x) := by
  have ht := tau_pos
  have e2 : (2 : ℝ) ^ (-1075 : ℤ) = tau / 2 := by
    rw [tau, show (-1074 : ℤ) = -1075 + 1 by norm_num, zpow_add₀ (by norm_num)]; norm_num
  rcases le_or_gt tau x with hx | hx
  · exact ⟨fun h => by rw [e2] at h; linarith, fun _ => ieeeEven_rounds.le_pow (by norm_num) hx⟩
  have hq : quantum x = -1074 := by
    by_contra hne
    have hlt : -1074 < quantum x := lt_of_le_of_ne (quantum_ge x) (Ne.symm hne)
    have h1 := le_abs_quantum hlt
    rw [abs_of_nonneg h0] at h1
    have h2 := (zpow_lt_zpow_iff_right₀ (by norm_num : (1 : ℝ) < 2)).1 (h1.trans_lt hx)
    omega
  have hf : ⌊x / tau⌋ = 0 := Int.floor_eq_zero_iff.2 ⟨div_nonneg h0 ht.le, (div_lt_one ht).2 hx⟩
  have hfr : Int.fract (x / tau) = x / tau := by rw [Int.fract, hf]; simp
  constructor
  · intro h
    rw [e2] at h
    have h1 : x / tau ≤ 1 / 2 := by rw [div_le_iff₀ ht]; linarith
    rw [ieeeEven, ieee, hq, ← tau, roundEven, hf, hfr]
    split_ifs with k1 k2 k3 <;> first | (exfalso; linarith) | (exfalso; exact k3 (by simp)) | simp
  · intro h
    rw [e2] at h
    have h1 : 1 / 2 < x / tau := by rw [lt_div_iff₀ ht]; linarith
    rw [ieeeEven, ieee, hq, ← tau, roundEven, hf, hfr]
    split_ifs <;> first | (exfalso; linarith) | simp

/-- NaN as a double -/
def dnan : Dbl r := ⟨.nan⟩

section nan
variable (a : Dbl r)
omit [Machine] in
@[xsimp] theorem dnan_add : dnan + a = dnan := by show Dbl.rd r (XR.nan + a.x) = _; rw [XR.nan_add]; rfl
omit [Machine] in
@[xsimp] theorem add_dnan : a + dnan = dnan := by show Dbl.rd r (a.x + XR.nan) = _; rw [XR.add_nan]; rfl
omit [Machine] in
@[xsimp] theorem dnan_sub : dnan - a = dnan := by show Dbl.rd r (XR.nan - a.x) = _; rw [XR.nan_sub]; rfl
omit [Machine] in
@[xsimp] theorem sub_dnan : a - dnan = dnan := by show Dbl.rd r (a.x - XR.nan) = _; rw [XR.sub_nan]; rfl
omit [Machine] in
@[xsimp] theorem dnan_mul : dnan * a = dnan := by show Dbl.rd r (XR.nan * a.x) = _; rw [XR.nan_mul]; rfl
omit [Machine] in
@[xsimp] theorem mul_dnan : a * dnan = dnan := by show Dbl.rd r (a.x * XR.nan) = _; rw [XR.mul_nan]; rfl
omit [Machine] in
@[xsimp] theorem dnan_div : dnan / a = dnan := by show Dbl.rd r (XR.nan / a.x) = _; rw [XR.nan_div]; rfl
omit [Machine] in
@[xsimp] theorem div_dnan : a / dnan = dnan := by show Dbl.rd r (a.x / XR.nan) = _; rw [XR.div_nan]; rfl
omit [Machine] in
@[xsimp] theorem neg_dnan : -(dnan : Dbl r) = dnan := rfl
end nan

/-- velocity increments that are NaN make the whole step NaN -/
theorem rk4_dnan (gN : V3 (Dbl r)) (dt : Dbl r) (y : Fin 6 → Dbl r) : rk4G (fun _ => dnan) gN dt y = fun _ => dnan := by
  have h1 : ∀ y, ∀ i : Fin 6, 3 ≤ i.val → dynG (fun _ => dnan) gN dt y i = dnan := by
    intro y i hi
    fin_cases i <;> simp at hi <;> simp [dynG, vdiv, xsimp]
  have h2 : ∀ y : Fin 6 → Dbl r, (∀ i : Fin 6, 3 ≤ i.val → y i = dnan) → ∀ i, dynG (fun _ => dnan) gN dt y i = dnan := by
    intro y hy i
    have e3 := hy 3 (by decide); have e4 := hy 4 (by decide); have e5 := hy 5 (by decide)
    fin_cases i <;> simp [dynG, e3, e4, e5, xsimp]
  have hK2 : vsmul dt (dynG (fun _ => dnan) gN dt (vadd y (vdiv (vsmul dt (dynG (fun _ => dnan) gN dt y)) (Flt.lit 2)))) = fun _ => dnan := by
    ext1 i
    rw [vsmul, h2, mul_dnan]
    intro j hj
    rw [vadd, vdiv, vsmul, h1 y j hj, mul_dnan, dnan_div, add_dnan]
  simp only [rk4G]
  rw [hK2]
  ext1 i
  simp [vadd, vsmul, xsimp]

/-- the squares of such an increment underflow and the increment of the attitude becomes 0/0 -/
theorem attInc_tiny (φ : V3 ℝ) (hφ : ∀ i, φ i ^ 2 ≤ (2 : ℝ) ^ (-1075 : ℤ)) : attInc (fun i => (⟨.fin (φ i)⟩ : Dbl ieeeEven)) = Matrix.of fun _ _ => dnan := by
  have h := ieeeEven_rounds
  have sq : ∀ i, (⟨.fin (φ i)⟩ : Dbl ieeeEven) * ⟨.fin (φ i)⟩ = .fin 0 := fun i => by
    show Dbl.rd ieeeEven (.fin (φ i * φ i)) = _
    have : ieeeEven (φ i * φ i) = 0 := (ieeeEven_half (mul_self_nonneg _)).1 (by rw [← pow_two]; exact hφ i)
    rw [Dbl.rd_fin (by rw [this]; simp), this]
  have zz : (Dbl.fin 0 : Dbl ieeeEven) + .fin 0 = .fin 0 := by
    show Dbl.rd ieeeEven (.fin (0 + 0)) = _
    rw [add_zero, Dbl.rd_fin (by rw [h.zero]; simp), h.zero]
  have l0 : (Flt.lit 0 : Dbl ieeeEven) = .fin 0 := by
    show Dbl.rd ieeeEven (.fin ((0 : ℚ) : ℝ)) = _
    rw [Rat.cast_zero, Dbl.rd_fin (by rw [h.zero]; simp), h.zero]
  have hn : vnorm (fun i => (⟨.fin (φ i)⟩ : Dbl ieeeEven)) = .fin 0 := by
    simp only [vnorm, vsqNorm, vdot, Dbl.fsum3, sq, zz]
    show Dbl.rd ieeeEven (Flt.sqrt (.fin 0)) = _
    rw [XR.X_sqrt _ le_rfl, Real.sqrt_zero, Dbl.rd_fin (by rw [h.zero]; simp), h.zero]
  have hs : Flt.sin (Dbl.fin 0 : Dbl ieeeEven) / .fin 0 = dnan := by
    have e : Flt.sin (Dbl.fin 0 : Dbl ieeeEven) = .fin 0 := by
      have hz := (Machine.faithful .sin (0 : ℝ) 0).zero
      show Dbl.lb (Machine.lib .sin (0 : ℝ) 0) (Flt.sin (.fin 0)) = _
      rw [XR.X_sin, Real.sin_zero, Dbl.lb_fin (by rw [hz]; simp), hz]
    rw [e]
    show Dbl.rd ieeeEven (.fin 0 / .fin 0) = _
    rw [XR.zero_div_zero]; rfl
  ext1 i j
  simp only [attInc, hn, hs]
  simp [madd, msmul, xsimp]

/-- C126 fails: the angle increments must not be small either. In the default rounding mode, an angle increment that is not zero but at most 2⁻⁵³⁷·⁵ rad
about each axis turns attitude, position and velocity into NaN, from every state and for every velocity increment and time, and the call reports
success: the squares underflow, so the computed length is zero. (Full claim: a finite non-zero increment leaves a finite attitude finite.) -/
theorem C126_tiny_increment_fails (s : St (Dbl ieeeEven)) (l v dV : V3 (Dbl ieeeEven)) (R : M3 (Dbl ieeeEven)) (t t' : Int) (φ : V3 ℝ)
    (hφ : ∀ i, φ i ^ 2 ≤ (2 : ℝ) ^ (-1075 : ℤ)) (h : s.lla = some l ∧ s.vNed = some v ∧ s.RB2N = some R ∧ s.tov = some t)
    (hf : -2 ^ 63 ≤ t' - t ∧ t' - t < 2 ^ 63) :
    ∃ s', integrate s dV (fun i => ⟨.fin (φ i)⟩) t' = .ok (true, s') ∧ s'.lla = some (fun _ => ⟨.nan⟩) ∧ s'.vNed = some (fun _ => ⟨.nan⟩)
      ∧ s'.RB2N = some (Matrix.of fun _ _ => ⟨.nan⟩) := by
  refine ⟨_, integrate_eval s l v dV _ R t t' h hf, ?_⟩
  have em : mmul R (attInc fun i => (⟨.fin (φ i)⟩ : Dbl ieeeEven)) = Matrix.of fun _ _ => dnan := by
    rw [attInc_tiny φ hφ]
    ext1 i j
    simp [mmul, Dbl.fsum3, xsimp]
  have hY : nextY l v dV R (fun i => ⟨.fin (φ i)⟩) (t' - t) = fun _ => dnan := by
    have ev : mvec (Matrix.of fun _ _ => dnan : M3 (Dbl ieeeEven)) dV = fun _ => dnan := by
      ext1 i
      simp [mvec, Dbl.fsum3, xsimp]
    rw [nextY, em, ev, rk4_dnan]
  rw [hY, em]
  refine ⟨congrArg some ?_, congrArg some ?_, rfl⟩ <;> (funext i; fin_cases i <;> rfl)

/-- the hypotheses of C126 are met by a double that is not zero -/
example : (2 : ℝ) ^ (-600 : ℤ) ≠ 0 ∧ IsDouble ((2 : ℝ) ^ (-600 : ℤ)) ∧ ((2 : ℝ) ^ (-600 : ℤ)) ^ 2 ≤ (2 : ℝ) ^ (-1075 : ℤ) := by
  refine ⟨by positivity, ⟨1, -600, by norm_num, by norm_num, by simp⟩, ?_⟩
  rw [← zpow_natCast, ← _root_.zpow_mul]
  exact zpow_le_zpow_right₀ (by norm_num) (by norm_num)

/-- C126, what does hold: in every rounding mode, one attitude update with an increment of at least 2⁻⁵³⁷ rad about some axis and at most 4 rad in all
leaves a finite attitude close to a rotation finite, and within 444 units in the last place of the exact product of that attitude and the exact increment.
(Missing: smaller increments; those fail.) -/
theorem C126_increment_partial (h : Rounds53 r) (s : St (Dbl r)) (A : M3 (Rnd r)) (hA : ∀ i, len3 (valM A i) ≤ 11 / 10) (φ : V3 (Rnd r))
    (h0 : ∃ i, (2 : ℝ) ^ (-537 : ℤ) ≤ |(φ i).val|) (h4 : len3 (valV φ) ≤ 4) (hs : s.RB2NPrev = some (fun i j => ⟨.fin (A i j).val⟩)) :
    ∃ R : M3 ℝ, updateAttitude s (fun i => ⟨.fin (φ i).val⟩) = .ok (true, { s with RB2N := some fun i j => ⟨.fin (R i j)⟩ })
      ∧ ∀ i j, |R i j - (valM A * attInc (valV φ)) i j| ≤ 444 / 2 ^ 52 := by
  obtain ⟨i, hi⟩ := h0
  have hm : tau ≤ (vsqNorm φ).val := vsqNorm_ge h φ i (h.le_pow (by norm_num) (by
    rw [← abs_mul_abs_self, show (-1074 : ℤ) = -537 + -537 by norm_num, zpow_add₀ (by norm_num)]
    exact mul_le_mul hi hi (by positivity) (abs_nonneg _)))
  refine ⟨valM (mmul A (attInc φ)), ?_, ?_⟩
  · rw [update_eval s _ _ hs]
    have := mmul_attInc_dbl h A hA φ hm h4
    simp only [Except.ok.injEq, Prod.mk.injEq, true_and]
    exact congrArg (fun M => { s with RB2N := some M }) this
  · intro i j
    have := mmul_inc_rnd h A φ hm h4 i (hA i) j
    rw [ulp, mul_one_div] at this
    exact this

/-- an increment of 10⁻¹⁰⁰ rad meets the hypotheses -/
example : (∃ i, (2 : ℝ) ^ (-537 : ℤ) ≤ |((fun _ => ⟨1e-100⟩ : V3 (Rnd ieeeEven)) i).val|) ∧ len3 (valV (fun _ => ⟨1e-100⟩ : V3 (Rnd ieeeEven))) ≤ 4 := by
  refine ⟨⟨0, ?_⟩, ?_⟩
  · rw [abs_of_pos (by norm_num)]
    exact (zpow_le_zpow_right₀ (by norm_num) (by norm_num : (-537 : ℤ) ≤ -250 * 2)).trans (by
      rw [_root_.zpow_mul, _root_.zpow_neg]; norm_num)
  · have := len3_of_entries (v := valV fun _ : Fin 3 => (⟨1e-100⟩ : Rnd ieeeEven)) (c := 1) (by norm_num) (fun i => by simp only [valV]; rw [abs_of_pos] <;> norm_num)
    linarith

/-- C126 characterised, in the default rounding mode and for increments of at most 4 rad: the attitude update leaves a finite attitude finite exactly if
the square of the increment about some axis exceeds 2⁻¹⁰⁷⁵; otherwise every entry becomes NaN. -/
theorem C126_characterised (s : St (Dbl ieeeEven)) (A : M3 (Rnd ieeeEven)) (hA : ∀ i, len3 (valM A i) ≤ 11 / 10) (φ : V3 (Rnd ieeeEven))
    (h4 : len3 (valV φ) ≤ 4) (hs : s.RB2NPrev = some (fun i j => ⟨.fin (A i j).val⟩)) :
    ((∃ R : M3 ℝ, updateAttitude s (fun i => ⟨.fin (φ i).val⟩) = .ok (true, { s with RB2N := some fun i j => ⟨.fin (R i j)⟩ }))
      ↔ ∃ i, (2 : ℝ) ^ (-1075 : ℤ) < (φ i).val ^ 2)
    ∧ ((¬ ∃ i, (2 : ℝ) ^ (-1075 : ℤ) < (φ i).val ^ 2) →
      updateAttitude s (fun i => ⟨.fin (φ i).val⟩) = .ok (true, { s with RB2N := some (Matrix.of fun _ _ => ⟨.nan⟩) })) := by
  have h := ieeeEven_rounds
  have bad : (¬ ∃ i, (2 : ℝ) ^ (-1075 : ℤ) < (φ i).val ^ 2) →
      updateAttitude s (fun i => ⟨.fin (φ i).val⟩) = .ok (true, { s with RB2N := some (Matrix.of fun _ _ => ⟨.nan⟩) }) := by
    intro hn
    push Not at hn
    rw [update_eval s _ _ hs, attInc_tiny (fun i => (φ i).val) hn]
    have em : mmul (fun i j => ⟨.fin (A i j).val⟩) (Matrix.of fun _ _ => dnan : M3 (Dbl ieeeEven)) = Matrix.of fun _ _ => ⟨.nan⟩ := by
      ext1 i j
      simp [mmul, Dbl.fsum3, xsimp]; rfl
    rw [em]
  refine ⟨⟨fun ⟨R, hR⟩ => ?_, fun ⟨i, hi⟩ => ?_⟩, bad⟩
  · by_contra hn
    rw [bad hn] at hR
    have e := congrArg (fun o : Out (Bool × St (Dbl ieeeEven)) => match o with | .ok x => x.2.RB2N | .error _ => none) hR
    have e1 := Option.some.inj e
    have e2 : (⟨.nan⟩ : Dbl ieeeEven) = ⟨.fin (R 0 0)⟩ := congrFun (congrFun e1 0) 0
    injection e2 with hh
    cases hh
  · have hm : tau ≤ (vsqNorm φ).val := vsqNorm_ge h φ i ((ieeeEven_half (mul_self_nonneg _)).2 (by rw [← pow_two]; exact hi))
    refine ⟨valM (mmul A (attInc φ)), ?_⟩
    rw [update_eval s _ _ hs]
    have := mmul_attInc_dbl h A hA φ hm h4
    simp only [Except.ok.injEq, Prod.mk.injEq, true_and]
    exact congrArg (fun M => { s with RB2N := some M }) this

end NavFuse.Props
