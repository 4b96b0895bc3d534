import Verif.Rnd

/-! # The IEEE 754 rounding modes

`ieee ρ x` divides `x` by the spacing of the doubles around it, rounds to an integer with `ρ`, and multiplies again.  The spacing never goes
below 2⁻¹⁰⁷⁴, so results below 2⁻¹⁰²² are subnormal numbers.  `ρ` is the rounding mode: `⌊·⌋`, `⌈·⌉`, truncation, or nearest with ties to even.
All of them satisfy `Rounds53`, the only property of the rounding that the theorems about `Rnd r` assume. -/

namespace NavFuse

/-- exponent of the spacing of the doubles around `x` -/
noncomputable def quantum (x : ℝ) : ℤ := if x = 0 then -1074 else max (Int.log 2 |x| - 52) (-1074)

/-- rounding to a double (with unlimited exponents at the upper end) -/
noncomputable def ieee (ρ : ℝ → ℤ) (x : ℝ) : ℝ := (ρ (x / (2 : ℝ) ^ quantum x) : ℝ) * (2 : ℝ) ^ quantum x

/-- the doubles, except that the exponent is not limited above -/
def IsDouble (x : ℝ) : Prop := ∃ m e : ℤ, |m| ≤ 2 ^ 53 ∧ -1074 ≤ e ∧ x = (m : ℝ) * (2 : ℝ) ^ e

/-- a way of rounding to integers -/
structure RoundsInt (ρ : ℝ → ℤ) : Prop where
  mono : Monotone ρ
  keeps : ∀ n : ℤ, ρ n = n

theorem quantum_ge (x : ℝ) : -1074 ≤ quantum x := by
  rw [quantum]; split_ifs <;> simp

theorem abs_lt_quantum (x : ℝ) : |x| < (2 : ℝ) ^ (quantum x + 53) := by
  rw [quantum]
  split_ifs with h0
  · rw [h0, abs_zero]; positivity
  have h := Int.lt_zpow_succ_log_self (b := 2) (by norm_num) |x|
  refine lt_of_lt_of_le (by exact_mod_cast h) (zpow_le_zpow_right₀ (by norm_num) ?_)
  have := le_max_left (Int.log 2 |x| - 52) (-1074)
  omega

theorem le_abs_quantum {x : ℝ} (h : -1074 < quantum x) : (2 : ℝ) ^ (quantum x + 52) ≤ |x| := by
  rw [quantum] at h ⊢
  split_ifs at h ⊢ with h0
  · omega
  have hq : max (Int.log 2 |x| - 52) (-1074) = Int.log 2 |x| - 52 := by
    rcases max_choice (Int.log 2 |x| - 52) (-1074) with e | e <;> omega
  have := Int.zpow_log_le_self (b := 2) (by norm_num) (abs_pos.2 h0)
  rw [hq, sub_add_cancel]
  exact_mod_cast this

theorem two_pow_split (n : ℕ) (k : ℤ) : (2 : ℝ) ^ (k + n) = ((2 ^ n : ℤ) : ℝ) * (2 : ℝ) ^ k := by
  rw [zpow_add₀ (by norm_num : (2 : ℝ) ≠ 0), zpow_natCast]; push_cast; ring

variable {ρ : ℝ → ℤ}

theorem ieee_le (hρ : RoundsInt ρ) {x : ℝ} {n : ℤ} (h : x ≤ n * (2 : ℝ) ^ quantum x) : ieee ρ x ≤ n * (2 : ℝ) ^ quantum x := by
  have hp : (0 : ℝ) < (2 : ℝ) ^ quantum x := by positivity
  have h1 : ρ (x / (2 : ℝ) ^ quantum x) ≤ n := by
    rw [← hρ.keeps n]; exact hρ.mono ((div_le_iff₀ hp).2 h)
  exact mul_le_mul_of_nonneg_right (by exact_mod_cast h1) hp.le

theorem le_ieee (hρ : RoundsInt ρ) {x : ℝ} {n : ℤ} (h : n * (2 : ℝ) ^ quantum x ≤ x) : n * (2 : ℝ) ^ quantum x ≤ ieee ρ x := by
  have hp : (0 : ℝ) < (2 : ℝ) ^ quantum x := by positivity
  have h1 : n ≤ ρ (x / (2 : ℝ) ^ quantum x) := by
    rw [← hρ.keeps n]; exact hρ.mono ((le_div_iff₀ hp).2 h)
  exact mul_le_mul_of_nonneg_right (by exact_mod_cast h1) hp.le

theorem ieee_abs_le (hρ : RoundsInt ρ) (x : ℝ) : |ieee ρ x| ≤ (2 : ℝ) ^ (quantum x + 53) := by
  have h := abs_lt.1 (abs_lt_quantum x)
  have e := two_pow_split 53 (quantum x)
  norm_num only at e
  rw [abs_le]
  constructor
  · have := le_ieee hρ (x := x) (n := -2 ^ 53) (by push_cast; rw [neg_mul]; linarith)
    push_cast at this; linarith
  · have := ieee_le hρ (x := x) (n := 2 ^ 53) (by push_cast; linarith)
    push_cast at this; linarith

theorem ieee_mono (hρ : RoundsInt ρ) : Monotone (ieee ρ) := by
  intro x y hxy
  rcases lt_trichotomy (quantum x) (quantum y) with h | h | h
  · have hy := le_abs_quantum (x := y) (lt_of_le_of_lt (quantum_ge x) h)
    have hx := abs_lt_quantum x
    have hk : (2 : ℝ) ^ (quantum x + 53) ≤ (2 : ℝ) ^ (quantum y + 52) := zpow_le_zpow_right₀ (by norm_num) (by omega)
    have y0 : 0 ≤ y := by
      by_contra hn
      push Not at hn
      rw [abs_of_neg hn] at hy
      have := abs_lt.1 hx
      linarith
    rw [abs_of_nonneg y0] at hy
    refine (le_of_abs_le (ieee_abs_le hρ x)).trans (hk.trans ?_)
    have e := two_pow_split 52 (quantum y)
    norm_num only at e
    have := le_ieee hρ (x := y) (n := 2 ^ 52) (by push_cast; linarith)
    push_cast at this; linarith
  · rw [ieee, ieee, h]
    have hp : (0 : ℝ) < (2 : ℝ) ^ quantum y := by positivity
    refine mul_le_mul_of_nonneg_right ?_ hp.le
    exact_mod_cast hρ.mono (div_le_div_of_nonneg_right hxy hp.le)
  · have hx := le_abs_quantum (x := x) (lt_of_le_of_lt (quantum_ge y) h)
    have hy := abs_lt_quantum y
    have hk : (2 : ℝ) ^ (quantum y + 53) ≤ (2 : ℝ) ^ (quantum x + 52) := zpow_le_zpow_right₀ (by norm_num) (by omega)
    have x0 : x ≤ 0 := by
      by_contra hn
      push Not at hn
      rw [abs_of_pos hn] at hx
      have := abs_lt.1 hy
      linarith
    rw [abs_of_nonpos x0] at hx
    have h1 := (abs_le.1 (ieee_abs_le hρ y)).1
    refine le_trans ?_ h1
    have e := two_pow_split 52 (quantum x)
    norm_num only at e
    have := ieee_le hρ (x := x) (n := -2 ^ 52) (by push_cast; rw [neg_mul]; linarith)
    push_cast at this; linarith

/-- a double is a multiple of the spacing around any larger number in absolute value -/
theorem double_multiple {m e k : ℤ} (hm : |m| ≤ 2 ^ 53) (h : k ≤ e ∨ (2 : ℝ) ^ (k + 52) ≤ |(m : ℝ) * (2 : ℝ) ^ e|) :
    ∃ n : ℤ, (m : ℝ) * (2 : ℝ) ^ e = n * (2 : ℝ) ^ k := by
  rcases le_or_gt k e with hk | hk
  · obtain ⟨j, hj⟩ : ∃ j : ℕ, e = k + j := ⟨(e - k).toNat, by omega⟩
    refine ⟨m * 2 ^ j, ?_⟩
    rw [hj, two_pow_split]; push_cast; ring
  · have hb : (2 : ℝ) ^ (k + 52) ≤ |(m : ℝ) * (2 : ℝ) ^ e| := h.resolve_left (by omega)
    have hp : (0 : ℝ) < (2 : ℝ) ^ e := by positivity
    have e1 := two_pow_split 53 e
    have e2 : (2 : ℝ) ^ (e + 53) ≤ (2 : ℝ) ^ (k + 52) := zpow_le_zpow_right₀ (by norm_num) (by omega)
    have hm1 : |(m : ℝ) * (2 : ℝ) ^ e| ≤ (2 ^ 53 : ℤ) * (2 : ℝ) ^ e := by
      rw [abs_mul, abs_of_pos hp]
      exact mul_le_mul_of_nonneg_right (by exact_mod_cast hm) hp.le
    have e3 : |(m : ℝ) * (2 : ℝ) ^ e| = (2 : ℝ) ^ (k + 52) := by
      norm_num only at e1 e2 hm1 hb ⊢
      linarith
    have e4 := two_pow_split 52 k
    rcases abs_choice ((m : ℝ) * (2 : ℝ) ^ e) with hc | hc
    · exact ⟨2 ^ 52, by rw [← hc, e3]; exact_mod_cast e4⟩
    · refine ⟨-2 ^ 52, ?_⟩
      rw [← neg_neg ((m : ℝ) * (2 : ℝ) ^ e), ← hc, e3]
      push_cast at e4 ⊢
      rw [neg_mul, ← e4]

theorem ieee_keeps (hρ : RoundsInt ρ) (m e : ℤ) (hm : |m| ≤ 2 ^ 53) (he : -1074 ≤ e) : ieee ρ ((m : ℝ) * (2 : ℝ) ^ e) = (m : ℝ) * (2 : ℝ) ^ e := by
  obtain ⟨n, hn⟩ := double_multiple (e := e) (k := quantum ((m : ℝ) * (2 : ℝ) ^ e)) hm (by
    rcases le_or_gt (quantum ((m : ℝ) * (2 : ℝ) ^ e)) e with h | h
    · exact .inl h
    · exact .inr (le_abs_quantum (lt_of_le_of_lt he h)))
  have hp : (2 : ℝ) ^ quantum ((m : ℝ) * (2 : ℝ) ^ e) ≠ 0 := by positivity
  rw [ieee]
  conv_lhs => rw [show (m : ℝ) * (2 : ℝ) ^ e / (2 : ℝ) ^ quantum ((m : ℝ) * (2 : ℝ) ^ e) = n by rw [div_eq_iff hp, ← hn]]
  rw [hρ.keeps, ← hn]

/-- every rounding mode satisfies the two rules assumed everywhere -/
theorem ieee_rounds (hρ : RoundsInt ρ) : Rounds53 (ieee ρ) := ⟨ieee_mono hρ, ieee_keeps hρ⟩

/-- results are doubles -/
theorem ieee_isDouble (hρ : RoundsInt ρ) (x : ℝ) : IsDouble (ieee ρ x) := by
  refine ⟨ρ (x / (2 : ℝ) ^ quantum x), quantum x, ?_, quantum_ge x, rfl⟩
  have h := ieee_abs_le hρ x
  have hp : (0 : ℝ) < (2 : ℝ) ^ quantum x := by positivity
  have e := two_pow_split 53 (quantum x)
  norm_num only at e h
  rw [e, ieee, abs_mul, abs_of_pos hp, mul_le_mul_iff_left₀ hp] at h
  exact_mod_cast h

/-- to nearest: no double is closer -/
theorem ieee_closest (hρ : ∀ t : ℝ, |ρ t - t| ≤ 1 / 2) (x d : ℝ) (hd : IsDouble d) : |ieee ρ x - x| ≤ |d - x| := by
  have hp : (0 : ℝ) < (2 : ℝ) ^ quantum x := by positivity
  -- multiples of the spacing
  have key : ∀ n : ℤ, |ieee ρ x - x| ≤ |n * (2 : ℝ) ^ quantum x - x| := by
    intro n
    have hs : ∀ a : ℝ, |a * (2 : ℝ) ^ quantum x - x| = |a - x / (2 : ℝ) ^ quantum x| * (2 : ℝ) ^ quantum x := fun a => by
      rw [← abs_of_pos hp, ← abs_mul, abs_of_pos hp, sub_mul, div_mul_cancel₀ _ hp.ne']
    rw [ieee, hs, hs]
    refine mul_le_mul_of_nonneg_right ?_ hp.le
    generalize x / (2 : ℝ) ^ quantum x = t
    rcases eq_or_ne n (ρ t) with h | h
    · rw [h]
    · have h1 := Int.one_le_abs (sub_ne_zero.2 h)
      have h2 : (1 : ℝ) ≤ |(n : ℝ) - ρ t| := by exact_mod_cast h1
      have h3 := abs_sub_abs_le_abs_sub ((n : ℝ) - ρ t) (t - ρ t)
      rw [sub_sub_sub_cancel_right, abs_sub_comm t] at h3
      have := hρ t
      linarith
  obtain ⟨m, e, hm, he, rfl⟩ := hd
  rcases le_or_gt (quantum x) e with h | h
  · obtain ⟨n, hn⟩ := double_multiple (e := e) hm (.inl h)
    rw [hn]; exact key n
  · have hx := le_abs_quantum (x := x) (lt_of_le_of_lt he h)
    have hb : |(m : ℝ) * (2 : ℝ) ^ e| ≤ (2 : ℝ) ^ (quantum x + 52) := by
      rw [abs_mul, abs_of_pos (by positivity : (0 : ℝ) < (2 : ℝ) ^ e)]
      have e1 := two_pow_split 53 e
      have : (2 : ℝ) ^ (e + 53) ≤ (2 : ℝ) ^ (quantum x + 52) := zpow_le_zpow_right₀ (by norm_num) (by omega)
      refine le_trans (mul_le_mul_of_nonneg_right ?_ (by positivity)) ((le_of_eq e1.symm).trans (by exact_mod_cast this))
      exact_mod_cast hm
    have e4 := two_pow_split 52 (quantum x)
    have hb' := abs_le.1 hb
    rcases le_total 0 x with h0 | h0
    · rw [abs_of_nonneg h0] at hx
      refine (key (2 ^ 52)).trans ?_
      norm_num only at e4 hx hb'
      push_cast at e4 ⊢
      rw [← e4, abs_of_nonpos (by linarith), abs_of_nonpos (by linarith)]; linarith
    · rw [abs_of_nonpos h0] at hx
      refine (key (-2 ^ 52)).trans ?_
      push_cast at e4 ⊢
      rw [neg_mul, ← e4, abs_of_nonneg (by linarith), abs_of_nonneg (by linarith)]; linarith

/-! ## The modes -/

/-- to nearest, ties to even -/
noncomputable def roundEven (t : ℝ) : ℤ :=
  if Int.fract t < 1 / 2 then ⌊t⌋ else if 1 / 2 < Int.fract t then ⌊t⌋ + 1 else if Even ⌊t⌋ then ⌊t⌋ else ⌊t⌋ + 1

theorem roundEven_bounds (t : ℝ) : ⌊t⌋ ≤ roundEven t ∧ roundEven t ≤ ⌊t⌋ + 1 := by
  rw [roundEven]; split_ifs <;> constructor <;> omega

theorem roundEven_int : RoundsInt roundEven := by
  constructor
  · intro s t h
    rcases lt_or_eq_of_le (Int.floor_le_floor h) with hf | hf
    · exact (roundEven_bounds s).2.trans (le_trans (by omega) (roundEven_bounds t).1)
    · have hfr : Int.fract s ≤ Int.fract t := by rw [Int.fract, Int.fract, hf]; linarith
      rw [roundEven, roundEven, hf]
      split_ifs <;> first | omega | (exfalso; linarith)
  · intro n
    rw [roundEven, Int.fract_intCast, Int.floor_intCast, if_pos (by norm_num)]

theorem roundEven_half (t : ℝ) : |(roundEven t : ℝ) - t| ≤ 1 / 2 := by
  have e := Int.floor_add_fract t
  have h0 := Int.fract_nonneg t
  have h1 := Int.fract_lt_one t
  rw [abs_le, roundEven]
  split_ifs <;> push_cast <;> constructor <;> linarith

theorem floor_int : RoundsInt (fun t : ℝ => ⌊t⌋) := ⟨Int.floor_mono, fun n => Int.floor_intCast n⟩
theorem ceil_int : RoundsInt (fun t : ℝ => ⌈t⌉) := ⟨Int.ceil_mono, fun n => Int.ceil_intCast n⟩
theorem trunc_int : RoundsInt truncR := by
  constructor
  · intro s t h
    simp only [truncR]
    split_ifs with h1 h2
    · exact Int.floor_le_floor h
    · exfalso; linarith
    · have a : ⌈s⌉ ≤ 0 := Int.ceil_le.2 (by push_cast; linarith)
      exact a.trans (Int.floor_nonneg.2 (by assumption))
    · exact Int.ceil_mono h
  · intro n
    simp only [truncR]; split_ifs <;> simp

/-- round to nearest, ties to even: the default mode -/
noncomputable def ieeeEven : ℝ → ℝ := ieee roundEven

theorem ieeeEven_rounds : Rounds53 ieeeEven := ieee_rounds roundEven_int

end NavFuse
