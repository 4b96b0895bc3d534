import Verif.Lemmas.RoundAttitude
import Verif.Dbl
import Mathlib.Analysis.Real.Pi.Bounds

/-! # Propagating rounding errors through an expression

`Ap x y d M`: the computed `x` is within `d` of the exact `y`, which is at most `M` in absolute value. -/

namespace NavFuse
variable [Machine] {r : ℝ → ℝ}

structure Ap (x : Rnd r) (y d M : ℝ) : Prop where
  err : |x.val - y| ≤ d
  mag : |y| ≤ M

omit [Machine] in
theorem ulp_le' : ulp ≤ 1 / 4e15 := by unfold ulp; norm_num

namespace Ap
variable {x x' : Rnd r} {y y' d d' M M' D N : ℝ}

omit [Machine] in
theorem mono (a : Ap x y d M) (hd : d ≤ D) (hM : M ≤ N) : Ap x y D N := ⟨a.err.trans hd, a.mag.trans hM⟩
omit [Machine] in
theorem d_nonneg (a : Ap x y d M) : 0 ≤ d := (abs_nonneg _).trans a.err
omit [Machine] in
theorem M_nonneg (a : Ap x y d M) : 0 ≤ M := (abs_nonneg _).trans a.mag
omit [Machine] in
theorem val_le (a : Ap x y d M) : |x.val| ≤ M + d := by
  have := abs_add_le (x.val - y) y
  rw [sub_add_cancel] at this
  linarith [a.err, a.mag]

omit [Machine] in
/-- one rounding -/
theorem round (h : Rounds53 r) {v : ℝ} (hd : |v - y| ≤ d) (hM : |y| ≤ M) (hD : d + (M + d) / 4e15 ≤ D)
    (hp : 1e-50 ≤ M ∨ M + d = 0 := by norm_num) : |r v - y| ≤ D := by
  rcases hp with hp | hp
  swap
  · have d0 := (abs_nonneg _).trans hd
    have m0 := (abs_nonneg _).trans hM
    have y0 : y = 0 := abs_nonpos_iff.1 (hM.trans (by linarith))
    have v0 : v = 0 := by
      rw [y0, sub_zero] at hd; exact abs_nonpos_iff.1 (hd.trans (by linarith))
    have r0 : r 0 = 0 := by simpa using h.int 0 (by norm_num)
    rw [v0, y0, r0, sub_zero, abs_zero]
    refine le_trans ?_ hD
    positivity
  refine (h.step hd hM hp).trans (le_trans ?_ hD)
  have := mul_le_mul_of_nonneg_left ulp_le' (show 0 ≤ M + d by linarith [(abs_nonneg _).trans hd, (abs_nonneg _).trans hM])
  linarith

theorem lit (h : Rounds53 r) (q : ℚ) (hM : |(q : ℝ)| ≤ N) (hD : N / 4e15 ≤ D) (hp : 1e-50 ≤ N ∨ N = 0 := by norm_num) : Ap (Flt.lit q : Rnd r) (q : ℝ) D N :=
  ⟨round h (v := (q : ℝ)) (d := 0) (by simp) hM (by linarith) (by rwa [add_zero]), hM⟩

omit [Machine] in
theorem exact (x : Rnd r) (hM : |x.val| ≤ N) : Ap x x.val 0 N := ⟨by simp, hM⟩

theorem pi (h : Rounds53 r) : Ap (Flt.pi : Rnd r) Real.pi 1e-15 3.1416 := by
  have h1 : |Real.pi| ≤ 3.1416 := by rw [abs_of_pos Real.pi_pos]; exact Real.pi_lt_d4.le
  exact ⟨round h (v := Real.pi) (d := 0) (by simp) h1 (by norm_num), h1⟩

omit [Machine] in
theorem neg (a : Ap x y d M) : Ap (-x) (-y) d M := by
  refine ⟨?_, by rw [abs_neg]; exact a.mag⟩
  show |-x.val - -y| ≤ d
  rw [neg_sub_neg, abs_sub_comm]; exact a.err

omit [Machine] in
theorem add (h : Rounds53 r) (a : Ap x y d M) (b : Ap x' y' d' M') (hD : d + d' + (M + M' + (d + d')) / 4e15 ≤ D) (hN : M + M' ≤ N)
    (hp : 1e-50 ≤ M + M' ∨ M + M' + (d + d') = 0 := by norm_num) :
    Ap (x + x') (y + y') D N := by
  have e : |x.val + x'.val - (y + y')| ≤ d + d' := by
    rw [add_sub_add_comm]; exact (abs_add_le _ _).trans (add_le_add a.err b.err)
  have m : |y + y'| ≤ M + M' := (abs_add_le _ _).trans (add_le_add a.mag b.mag)
  exact ⟨round h e m hD hp, m.trans hN⟩

omit [Machine] in
theorem sub (h : Rounds53 r) (a : Ap x y d M) (b : Ap x' y' d' M') (hD : d + d' + (M + M' + (d + d')) / 4e15 ≤ D) (hN : M + M' ≤ N)
    (hp : 1e-50 ≤ M + M' ∨ M + M' + (d + d') = 0 := by norm_num) :
    Ap (x - x') (y - y') D N := by
  have := add h a b.neg hD hN hp
  have e1 : x + -x' = x - x' := by
    show (⟨r (x.val + -x'.val)⟩ : Rnd r) = ⟨r (x.val - x'.val)⟩
    rw [sub_eq_add_neg]
  rw [e1, ← sub_eq_add_neg] at this
  exact this

omit [Machine] in
/-- a difference whose exact value has a better bound than the sum of the two -/
theorem sub_mag (h : Rounds53 r) (a : Ap x y d M) (b : Ap x' y' d' M') (hN : |y - y'| ≤ N) (hD : d + d' + (N + (d + d')) / 4e15 ≤ D)
    (hp : 1e-50 ≤ N ∨ N + (d + d') = 0 := by norm_num) :
    Ap (x - x') (y - y') D N := by
  have e : |x.val - x'.val - (y - y')| ≤ d + d' := by
    rw [sub_sub_sub_comm]; exact (abs_sub _ _).trans (add_le_add a.err b.err)
  exact ⟨round h e hN hD hp, hN⟩

omit [Machine] in
theorem mul (h : Rounds53 r) (a : Ap x y d M) (b : Ap x' y' d' M') (hD : d * (M' + d') + M * d' + (M * M' + (d * (M' + d') + M * d')) / 4e15 ≤ D)
    (hN : M * M' ≤ N) (hp : 1e-50 ≤ M * M' ∨ M * M' + (d * (M' + d') + M * d') = 0 := by norm_num) : Ap (x * x') (y * y') D N := by
  have e : |x.val * x'.val - y * y'| ≤ d * (M' + d') + M * d' := by
    rw [show x.val * x'.val - y * y' = (x.val - y) * x'.val + y * (x'.val - y') by ring]
    refine (abs_add_le _ _).trans ?_
    rw [abs_mul, abs_mul]
    exact add_le_add (mul_le_mul a.err b.val_le (abs_nonneg _) a.d_nonneg) (mul_le_mul a.mag b.err (abs_nonneg _) a.M_nonneg)
  have m : |y * y'| ≤ M * M' := by rw [abs_mul]; exact mul_le_mul a.mag b.mag (abs_nonneg _) a.M_nonneg
  exact ⟨round h e m hD hp, m.trans hN⟩

omit [Machine] in
/-- division by something at least `m` -/
theorem div (h : Rounds53 r) (a : Ap x y d M) (b : Ap x' y' d' M') {m q : ℝ} (hm : m ≤ |y'|) (hm0 : 0 < m - d') (hq : (d + M / m * d') / (m - d') ≤ q)
    (hD : q + (M / m + q) / 4e15 ≤ D) (hN : M / m ≤ N) (hp : 1e-50 ≤ M / m ∨ M / m + q = 0 := by norm_num) : Ap (x / x') (y / y') D N := by
  have d0 := b.d_nonneg
  have m0 : 0 < m := by linarith
  have y0 : y' ≠ 0 := by intro hy; rw [hy, abs_zero] at hm; linarith
  have hx' : m - d' ≤ |x'.val| := by
    have := abs_add_le (y' - x'.val) x'.val
    rw [sub_add_cancel, abs_sub_comm] at this
    linarith [b.err]
  have x0 : x'.val ≠ 0 := by intro hy; rw [hy, abs_zero] at hx'; linarith
  have mq : |y / y'| ≤ M / m := by
    rw [abs_div, div_le_div_iff₀ (abs_pos.2 y0) m0]
    exact mul_le_mul a.mag hm m0.le a.M_nonneg
  have e : |x.val / x'.val - y / y'| ≤ q := by
    refine le_trans ?_ hq
    rw [show x.val / x'.val - y / y' = ((x.val - y) - y / y' * (x'.val - y')) / x'.val by field_simp; ring, abs_div,
      div_le_div_iff₀ (abs_pos.2 x0) hm0]
    refine mul_le_mul ?_ hx' hm0.le (add_nonneg a.d_nonneg (mul_nonneg ((abs_nonneg _).trans mq) d0))
    refine (abs_sub _ _).trans (add_le_add a.err ?_)
    rw [abs_mul]
    exact mul_le_mul mq b.err (abs_nonneg _) ((abs_nonneg _).trans mq)
  exact ⟨round h e mq hD hp, mq.trans hN⟩

theorem sin (_h : Rounds53 r) (a : Ap x y d M) (hD : d + (1 + d) / 4e15 ≤ D) : Ap (Flt.sin x) (Real.sin y) D 1 :=
  ⟨round (Machine.faithful .sin _ _) ((Real.abs_sin_sub_sin_le _ _).trans a.err) (Real.abs_sin_le_one _) hD, Real.abs_sin_le_one _⟩

theorem cos (_h : Rounds53 r) (a : Ap x y d M) (hD : d + (1 + d) / 4e15 ≤ D) : Ap (Flt.cos x) (Real.cos y) D 1 :=
  ⟨round (Machine.faithful .cos _ _) ((Real.abs_cos_sub_cos_le _ _).trans a.err) (Real.abs_cos_le_one _) hD, Real.abs_cos_le_one _⟩

end Ap

/-- `Ap` together with: the same computation on doubles that can overflow gives the same finite value -/
structure Aj (X : Dbl r) (x : Rnd r) (y d M : ℝ) : Prop where
  sim : Dbl.Sim X x
  ap : Ap x y d M

namespace Aj
variable {X X' : Dbl r} {x x' : Rnd r} {y y' d d' M M' D N : ℝ}

omit [Machine] in
theorem err (a : Aj X x y d M) : |x.val - y| ≤ d := a.ap.err
omit [Machine] in
theorem mag (a : Aj X x y d M) : |y| ≤ M := a.ap.mag
omit [Machine] in
theorem mono (a : Aj X x y d M) (hd : d ≤ D) (hM : M ≤ N) : Aj X x y D N := ⟨a.sim, a.ap.mono hd hM⟩
omit [Machine] in
theorem bound (a : Aj X x y d M) (hM : |y| ≤ N) : Aj X x y d N := ⟨a.sim, a.err, hM⟩
omit [Machine] in
theorem exact (x : Rnd r) (hM : |x.val| ≤ N) : Aj (.fin x.val) x x.val 0 N := ⟨rfl, .exact x hM⟩

omit [Machine] in
theorem small (a : Ap x y D N) (hv : N + D ≤ 1e200) : |x.val| ≤ 1e200 := a.val_le.trans hv

theorem lit (h : Rounds53 r) (q : ℚ) (hM : |(q : ℝ)| ≤ N) (hD : N / 4e15 ≤ D) (hp : 1e-50 ≤ N ∨ N = 0 := by norm_num) (hv : N + D ≤ 1e200 := by norm_num) :
    Aj (Flt.lit q : Dbl r) (Flt.lit q : Rnd r) (q : ℝ) D N :=
  have a := Ap.lit h q hM hD hp
  ⟨.lit q (small a hv), a⟩

theorem pi (h : Rounds53 r) : Aj (Flt.pi : Dbl r) (Flt.pi : Rnd r) Real.pi 1e-15 3.1416 :=
  ⟨.pi (small (.pi h) (by norm_num)), .pi h⟩

omit [Machine] in
theorem neg (a : Aj X x y d M) : Aj (-X) (-x) (-y) d M := ⟨a.sim.neg, a.ap.neg⟩

omit [Machine] in
theorem add (h : Rounds53 r) (a : Aj X x y d M) (b : Aj X' x' y' d' M') (hD : d + d' + (M + M' + (d + d')) / 4e15 ≤ D) (hN : M + M' ≤ N)
    (hp : 1e-50 ≤ M + M' ∨ M + M' + (d + d') = 0 := by norm_num) (hv : N + D ≤ 1e200 := by norm_num) : Aj (X + X') (x + x') (y + y') D N :=
  have c := Ap.add h a.ap b.ap hD hN hp
  ⟨a.sim.add b.sim (small c hv), c⟩

omit [Machine] in
theorem sub (h : Rounds53 r) (a : Aj X x y d M) (b : Aj X' x' y' d' M') (hD : d + d' + (M + M' + (d + d')) / 4e15 ≤ D) (hN : M + M' ≤ N)
    (hp : 1e-50 ≤ M + M' ∨ M + M' + (d + d') = 0 := by norm_num) (hv : N + D ≤ 1e200 := by norm_num) : Aj (X - X') (x - x') (y - y') D N :=
  have c := Ap.sub h a.ap b.ap hD hN hp
  ⟨a.sim.sub b.sim (small c hv), c⟩

omit [Machine] in
theorem sub_mag (h : Rounds53 r) (a : Aj X x y d M) (b : Aj X' x' y' d' M') (hN : |y - y'| ≤ N) (hD : d + d' + (N + (d + d')) / 4e15 ≤ D)
    (hp : 1e-50 ≤ N ∨ N + (d + d') = 0 := by norm_num) (hv : N + D ≤ 1e200 := by norm_num) : Aj (X - X') (x - x') (y - y') D N :=
  have c := Ap.sub_mag h a.ap b.ap hN hD hp
  ⟨a.sim.sub b.sim (small c hv), c⟩

omit [Machine] in
theorem mul (h : Rounds53 r) (a : Aj X x y d M) (b : Aj X' x' y' d' M')
    (hD : d * (M' + d') + M * d' + (M * M' + (d * (M' + d') + M * d')) / 4e15 ≤ D) (hN : M * M' ≤ N)
    (hp : 1e-50 ≤ M * M' ∨ M * M' + (d * (M' + d') + M * d') = 0 := by norm_num) (hv : N + D ≤ 1e200 := by norm_num) :
    Aj (X * X') (x * x') (y * y') D N :=
  have c := Ap.mul h a.ap b.ap hD hN hp
  ⟨a.sim.mul b.sim (small c hv), c⟩

omit [Machine] in
theorem div (h : Rounds53 r) (a : Aj X x y d M) (b : Aj X' x' y' d' M') {m q : ℝ} (hm : m ≤ |y'|) (hm0 : 0 < m - d')
    (hq : (d + M / m * d') / (m - d') ≤ q) (hD : q + (M / m + q) / 4e15 ≤ D) (hN : M / m ≤ N)
    (hp : 1e-50 ≤ M / m ∨ M / m + q = 0 := by norm_num) (hv : N + D ≤ 1e200 := by norm_num) : Aj (X / X') (x / x') (y / y') D N :=
  have c := Ap.div h a.ap b.ap hm hm0 hq hD hN hp
  have hx' : x'.val ≠ 0 := by
    intro hz
    have := b.err
    rw [hz, zero_sub, abs_neg] at this
    linarith
  ⟨a.sim.div b.sim hx' (small c hv), c⟩

theorem sin (h : Rounds53 r) (a : Aj X x y d M) (hD : d + (1 + d) / 4e15 ≤ D) (hv : 1 + D ≤ 1e200 := by norm_num) :
    Aj (Flt.sin X) (Flt.sin x) (Real.sin y) D 1 :=
  have c := Ap.sin h a.ap hD
  ⟨a.sim.sin (small c hv), c⟩

theorem cos (h : Rounds53 r) (a : Aj X x y d M) (hD : d + (1 + d) / 4e15 ≤ D) (hv : 1 + D ≤ 1e200 := by norm_num) :
    Aj (Flt.cos X) (Flt.cos x) (Real.cos y) D 1 :=
  have c := Ap.cos h a.ap hD
  ⟨a.sim.cos (small c hv), c⟩

end Aj
end NavFuse
