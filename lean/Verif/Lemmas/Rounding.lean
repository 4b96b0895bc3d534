import Verif.Rnd

/-! # Error of one rounding -/

namespace NavFuse
variable {r : ℝ → ℝ}

/-- numbers up to `2 ^ k` move by at most one unit of the grid of spacing `2 ^ (k - 53)`, in every rounding mode -/
theorem Rounds53.err (h : Rounds53 r) (k : ℤ) (x : ℝ) (hx : |x| ≤ (2 : ℝ) ^ k) (hk : -1021 ≤ k := by norm_num) : |r x - x| ≤ (2 : ℝ) ^ (k - 53) := by
  set u : ℝ := (2 : ℝ) ^ (k - 53) with hu
  have hu0 : 0 < u := by positivity
  have e : (2 : ℝ) ^ k = ((2 ^ 53 : ℤ) : ℝ) * u := by
    rw [hu, show k = (k - 53) + 53 by ring, zpow_add₀ (by norm_num : (2 : ℝ) ≠ 0)]; norm_num; ring
  obtain ⟨l1, l2⟩ := abs_le.1 hx
  rw [e] at l1 l2
  have q1 : x / u ≤ ((2 ^ 53 : ℤ) : ℝ) := by rw [div_le_iff₀ hu0]; exact l2
  have q2 : ((-2 ^ 53 : ℤ) : ℝ) ≤ x / u := by rw [le_div_iff₀ hu0]; push_cast at l1 ⊢; linarith
  have lo : (⌊x / u⌋ : ℝ) * u ≤ x := by rw [← le_div_iff₀ hu0]; exact Int.floor_le _
  have hi : x ≤ (⌈x / u⌉ : ℝ) * u := by rw [← div_le_iff₀ hu0]; exact Int.le_ceil _
  have f1 : -2 ^ 53 ≤ ⌊x / u⌋ := Int.le_floor.2 q2
  have f2 : ⌊x / u⌋ ≤ 2 ^ 53 := by exact_mod_cast (Int.floor_le _).trans q1
  have c1 : ⌈x / u⌉ ≤ 2 ^ 53 := Int.ceil_le.2 q1
  have c2 : -2 ^ 53 ≤ ⌈x / u⌉ := by exact_mod_cast q2.trans (Int.le_ceil _)
  have k1 := h.keeps ⌊x / u⌋ (k - 53) (abs_le.2 ⟨by omega, by omega⟩) (by omega)
  have k2 := h.keeps ⌈x / u⌉ (k - 53) (abs_le.2 ⟨by omega, by omega⟩) (by omega)
  rw [← hu] at k1 k2
  have m1 := h.mono lo
  have m2 := h.mono hi
  rw [k1] at m1
  rw [k2] at m2
  have cf : (⌈x / u⌉ : ℝ) * u ≤ (⌊x / u⌋ : ℝ) * u + u := by
    have : (⌈x / u⌉ : ℝ) ≤ ⌊x / u⌋ + 1 := by exact_mod_cast Int.ceil_le_floor_add_one _
    nlinarith
  rw [abs_le]; constructor <;> linarith

theorem Rounds53.zero (h : Rounds53 r) : r 0 = 0 := by have := h.int 0 (by norm_num); simpa using this

theorem Rounds53.nonneg (h : Rounds53 r) {x : ℝ} (hx : 0 ≤ x) : 0 ≤ r x := by rw [← h.zero]; exact h.mono hx

/-- the relative error of one rounding of a number that is not subnormal -/
theorem Rounds53.rel (h : Rounds53 r) (x : ℝ) (hn : (2 : ℝ) ^ (-1022 : ℤ) ≤ |x|) : |r x - x| ≤ |x| / 2 ^ 52 := by
  have hp : 0 < |x| := lt_of_lt_of_le (by positivity) hn
  have h1 : (2 : ℝ) ^ Int.log 2 |x| ≤ |x| := by have := Int.zpow_log_le_self (b := 2) (by norm_num) hp; exact_mod_cast this
  have h2 : |x| < (2 : ℝ) ^ (Int.log 2 |x| + 1) := by have := Int.lt_zpow_succ_log_self (b := 2) (by norm_num) |x|; exact_mod_cast this
  have h3 : -1022 ≤ Int.log 2 |x| := (Int.zpow_le_iff_le_log (b := 2) (by norm_num) hp).1 (by exact_mod_cast hn)
  refine (h.err _ x h2.le (by omega)).trans ?_
  rw [show Int.log 2 |x| + 1 - 53 = Int.log 2 |x| - 52 by ring, zpow_sub₀ (by norm_num : (2 : ℝ) ≠ 0)]
  exact div_le_div_of_nonneg_right h1 (by positivity)

theorem zpow_1074 : (2 : ℝ) ^ (-1074 : ℤ) ≤ 1e-75 :=
  (zpow_le_zpow_right₀ (by norm_num) (by norm_num : (-1074 : ℤ) ≤ -250)).trans (by rw [zpow_neg]; norm_num)
theorem zpow_1022 : (2 : ℝ) ^ (-1022 : ℤ) ≤ 1e-75 :=
  (zpow_le_zpow_right₀ (by norm_num) (by norm_num : (-1022 : ℤ) ≤ -250)).trans (by rw [zpow_neg]; norm_num)

/-- the error of one rounding: relative, plus the spacing of the subnormal numbers -/
theorem Rounds53.rel_add (h : Rounds53 r) (x : ℝ) : |r x - x| ≤ |x| / 2 ^ 52 + 1e-75 := by
  rcases le_total ((2 : ℝ) ^ (-1022 : ℤ)) |x| with hx | hx
  · have := h.rel x hx
    have : (0 : ℝ) ≤ 1e-75 := by norm_num
    linarith
  · have h1 := h.err (-1021) x (hx.trans (zpow_le_zpow_right₀ (by norm_num) (by norm_num)))
    have h2 := zpow_1074
    rw [show (-1021 : ℤ) - 53 = -1074 by norm_num] at h1
    have : 0 ≤ |x| / 2 ^ 52 := by positivity
    linarith

/-- numbers up to `M`, where `M` is not extremely small -/
theorem Rounds53.rel_le (h : Rounds53 r) {x M : ℝ} (hx : |x| ≤ M) (hM : 1e-50 ≤ M) : |r x - x| ≤ M / 2 ^ 52 := by
  rcases le_total ((2 : ℝ) ^ (-1022 : ℤ)) |x| with h1 | h1
  · exact (h.rel x h1).trans (div_le_div_of_nonneg_right hx (by positivity))
  · have h1 := h.err (-1021) x (h1.trans (zpow_le_zpow_right₀ (by norm_num) (by norm_num)))
    have h2 := zpow_1074
    rw [show (-1021 : ℤ) - 53 = -1074 by norm_num] at h1
    refine (h1.trans h2).trans (le_trans ?_ (div_le_div_of_nonneg_right hM (by positivity)))
    norm_num

/-- the error against a value `y` of an operation whose exact argument is off by `d` -/
theorem Rounds53.near (h : Rounds53 r) (k : ℤ) {x y d : ℝ} (hd : |x - y| ≤ d) (hx : |y| + d ≤ (2 : ℝ) ^ k)
    (hk : -1021 ≤ k := by norm_num) : |r x - y| ≤ d + (2 : ℝ) ^ (k - 53) := by
  have h1 : |x| ≤ (2 : ℝ) ^ k := by
    have := abs_add_le (x - y) y
    rw [sub_add_cancel] at this
    linarith
  have h2 := h.err k x h1 hk
  have h3 := abs_add_le (r x - x) (x - y)
  rw [sub_add_sub_cancel] at h3
  linarith

end NavFuse
