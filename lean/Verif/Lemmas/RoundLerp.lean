import Verif.Dbl
import Verif.Lemmas.Rounding

/-! # Linear interpolation `a + (b - a) f` in doubles -/

namespace NavFuse
variable {r : ℝ → ℝ}

/-- the interpolation as computed: three roundings -/
def lerp (r : ℝ → ℝ) (f a b : ℝ) : ℝ := r (a + r (r (b - a) * f))

theorem IsDouble.round (h : Rounds53 r) {a : ℝ} (ha : IsDouble a) : r a = a := by
  obtain ⟨m, e, hm, he, rfl⟩ := ha
  exact h.keeps m e hm he

theorem IsDouble.grid {a : ℝ} (ha : IsDouble a) : ∃ n : ℤ, a = (n : ℝ) * (2 : ℝ) ^ (-1074 : ℤ) := by
  obtain ⟨m, e, -, he, rfl⟩ := ha
  obtain ⟨k, hk⟩ := Int.eq_ofNat_of_zero_le (show 0 ≤ e + 1074 by omega)
  refine ⟨m * 2 ^ k, ?_⟩
  rw [show e = (k : ℤ) + (-1074) by omega, zpow_add₀ (by norm_num : (2 : ℝ) ≠ 0)]
  push_cast
  rw [zpow_natCast]; ring

theorem IsDouble.neg {a : ℝ} (ha : IsDouble a) : IsDouble (-a) := by
  obtain ⟨m, e, hm, he, rfl⟩ := ha
  exact ⟨-m, e, by rwa [abs_neg], he, by push_cast; ring⟩

/-- a small difference of doubles is exact -/
theorem sub_exact (h : Rounds53 r) {a b : ℝ} (ha : IsDouble a) (hb : IsDouble b) (hd : |b - a| ≤ (2 : ℝ) ^ (-1021 : ℤ)) : r (b - a) = b - a := by
  obtain ⟨m, rfl⟩ := ha.grid
  obtain ⟨n, rfl⟩ := hb.grid
  have e : (n : ℝ) * (2 : ℝ) ^ (-1074 : ℤ) - m * (2 : ℝ) ^ (-1074 : ℤ) = ((n - m : ℤ) : ℝ) * (2 : ℝ) ^ (-1074 : ℤ) := by push_cast; ring
  rw [e] at hd ⊢
  refine h.keeps _ _ ?_ le_rfl
  rw [show (-1021 : ℤ) = 53 + (-1074) by norm_num, zpow_add₀ (by norm_num : (2 : ℝ) ≠ 0), abs_mul, abs_of_pos (by positivity : (0 : ℝ) < 2 ^ (-1074 : ℤ))] at hd
  have := le_of_mul_le_mul_right hd (by positivity)
  have h2 : ((|n - m| : ℤ) : ℝ) ≤ ((2 ^ 53 : ℤ) : ℝ) := by
    rw [Int.cast_abs]; exact this.trans (by norm_num)
  exact_mod_cast h2

/-- the fraction of a day in a time of at least four days is exact and not too close to one -/
theorem fract_double {t : ℝ} (ht : IsDouble t) (h4 : 4 ≤ t) : IsDouble (Int.fract t) ∧ Int.fract t ≤ 1 - 1 / 2 ^ 51 := by
  obtain ⟨m, e, hm, he, rfl⟩ := ht
  set t : ℝ := (m : ℝ) * (2 : ℝ) ^ e with ht
  have pe : (0 : ℝ) < (2 : ℝ) ^ e := by positivity
  have m0 : 0 < m := by
    have : (0 : ℝ) < m := by
      by_contra hn
      have := mul_nonpos_of_nonpos_of_nonneg (not_lt.1 hn) pe.le
      linarith
    exact_mod_cast this
  rw [abs_of_pos m0] at hm
  rcases le_or_gt 0 e with he0 | he0
  · obtain ⟨k, rfl⟩ := Int.eq_ofNat_of_zero_le he0
    have : t = ((m * 2 ^ k : ℤ) : ℝ) := by rw [ht, zpow_natCast]; push_cast; ring
    rw [this, Int.fract_intCast]
    exact ⟨⟨0, 0, by norm_num, by norm_num, by norm_num⟩, by norm_num⟩
  · obtain ⟨k, hk⟩ := Int.eq_ofNat_of_zero_le (show 0 ≤ -e by omega)
    have ek : e = -(k : ℤ) := by omega
    -- `k ≤ 51`
    have hk51 : k ≤ 51 := by
      by_contra hn
      have h1 : (2 : ℝ) ^ e ≤ (2 : ℝ) ^ (-52 : ℤ) := zpow_le_zpow_right₀ (by norm_num) (by omega)
      have h2 : (m : ℝ) ≤ 2 ^ 53 := by exact_mod_cast hm
      have h3 : t ≤ 2 ^ 53 * (2 : ℝ) ^ (-52 : ℤ) := mul_le_mul h2 h1 pe.le (by norm_num)
      norm_num at h3
      linarith
    have hq : (2 : ℝ) ^ e * (2 : ℝ) ^ k = 1 := by rw [ek, zpow_neg, zpow_natCast]; field_simp
    have fl := Int.fract_nonneg t
    have fu := Int.fract_lt_one t
    have e1 : Int.fract t = ((m - ⌊t⌋ * 2 ^ k : ℤ) : ℝ) * (2 : ℝ) ^ e := by
      rw [Int.fract, ht]; push_cast
      linear_combination (⌊(m : ℝ) * 2 ^ e⌋ : ℝ) * hq
    set n : ℤ := m - ⌊t⌋ * 2 ^ k with hn
    have n0 : 0 ≤ n := by
      have : (0 : ℝ) ≤ n := by rw [e1] at fl; exact nonneg_of_mul_nonneg_left fl pe
      exact_mod_cast this
    have n1 : n < 2 ^ k := by
      have h1 : (n : ℝ) < 2 ^ k := by
        rw [e1] at fu
        have h2 := mul_lt_mul_of_pos_right fu (by positivity : (0 : ℝ) < 2 ^ k)
        rwa [mul_assoc, hq, mul_one, one_mul] at h2
      exact_mod_cast h1
    refine ⟨⟨n, e, ?_, he, e1⟩, ?_⟩
    · rw [abs_of_nonneg n0]
      exact n1.le.trans (pow_le_pow_right₀ (by norm_num) (by omega))
    · rw [e1]
      have h1 : (n : ℝ) ≤ 2 ^ k - 1 := by
        have : n ≤ 2 ^ k - 1 := by omega
        exact_mod_cast this
      have h2 := mul_le_mul_of_nonneg_right h1 pe.le
      have h3 : (1 : ℝ) / 2 ^ 51 ≤ (2 : ℝ) ^ e := by
        rw [ek, zpow_neg, zpow_natCast, ← one_div]
        exact one_div_le_one_div_of_le (by positivity) (pow_le_pow_right₀ (by norm_num) hk51)
      have h4 : ((2 : ℝ) ^ k - 1) * 2 ^ e = 1 - 2 ^ e := by linear_combination hq
      linarith

/-- interpolation between doubles never leaves the interval, if the fraction keeps a distance of 2⁻⁵¹ from one -/
theorem lerp_mem (h : Rounds53 r) {f a b : ℝ} (ha : IsDouble a) (hb : IsDouble b) (hab : a ≤ b) (f0 : 0 ≤ f) (f1 : f ≤ 1 - 1 / 2 ^ 51) :
    a ≤ lerp r f a b ∧ lerp r f a b ≤ b := by
  have D0 : 0 ≤ b - a := sub_nonneg.2 hab
  have d0 := h.nonneg D0
  have t0 : 0 ≤ r (r (b - a) * f) := h.nonneg (mul_nonneg d0 f0)
  constructor
  · rw [← ha.round h, lerp, ha.round h]
    conv_lhs => rw [← ha.round h]
    exact h.mono (by linarith)
  · rw [lerp]
    conv_rhs => rw [← hb.round h]
    refine h.mono ?_
    suffices hs : r (r (b - a) * f) ≤ b - a by linarith
    rcases le_or_gt (b - a) ((2 : ℝ) ^ (-1021 : ℤ)) with hD | hD
    · have e := sub_exact h ha hb (by rwa [abs_of_nonneg D0])
      rw [e]
      conv_rhs => rw [← e]
      exact h.mono (by nlinarith)
    · have p1 : (0 : ℝ) < (2 : ℝ) ^ (-1021 : ℤ) := by positivity
      have e22 : (2 : ℝ) ^ (-1021 : ℤ) = 2 * (2 : ℝ) ^ (-1022 : ℤ) := by
        rw [show (-1021 : ℤ) = 1 + (-1022) by norm_num, zpow_add₀ (by norm_num : (2 : ℝ) ≠ 0)]; norm_num
      have r1 := (abs_le.1 (h.rel (b - a) (by rw [abs_of_nonneg D0]; linarith))).2
      rw [abs_of_nonneg D0] at r1
      have dl : (2 : ℝ) ^ (-1021 : ℤ) ≤ r (b - a) := by
        have := h.keeps 1 (-1021) (by norm_num) (by norm_num)
        rw [Int.cast_one, one_mul] at this
        rw [← this]
        exact h.mono hD.le
      set d := r (b - a) with hd
      have y0 : (2 : ℝ) ^ (-1022 : ℤ) ≤ d * (1 - 1 / 2 ^ 51) := by nlinarith
      have ypos : 0 ≤ d * (1 - 1 / 2 ^ 51) := le_trans (by positivity) y0
      have r2 := (abs_le.1 (h.rel (d * (1 - 1 / 2 ^ 51)) (by rwa [abs_of_nonneg ypos]))).2
      rw [abs_of_nonneg ypos] at r2
      have m := h.mono (mul_le_mul_of_nonneg_left f1 d0)
      have : d ≤ (b - a) * (1 + 1 / 2 ^ 52) := by linarith
      have h3 : d * (1 - 1 / 2 ^ 51) * (1 + 1 / 2 ^ 52) ≤ (b - a) * (1 + 1 / 2 ^ 52) * (1 - 1 / 2 ^ 51) * (1 + 1 / 2 ^ 52) := by
        have := mul_le_mul_of_nonneg_right this (by norm_num : (0 : ℝ) ≤ (1 - 1 / 2 ^ 51) * (1 + 1 / 2 ^ 52))
        linarith
      have h4 : (b - a) * ((1 + 1 / 2 ^ 52) * (1 - 1 / 2 ^ 51) * (1 + 1 / 2 ^ 52)) ≤ (b - a) * 1 := mul_le_mul_of_nonneg_left (by norm_num) D0
      linarith

/-- the same for a falling interval -/
theorem lerp_mem' (h : Rounds53 r) {f a b : ℝ} (ha : IsDouble a) (hb : IsDouble b) (hab : b ≤ a) (f0 : 0 ≤ f) (f1 : f ≤ 1 - 1 / 2 ^ 51) :
    b ≤ lerp r f a b ∧ lerp r f a b ≤ a := by
  -- the mirrored rounding function
  have h' : Rounds53 (fun x => -r (-x)) := by
    refine ⟨fun x y hxy => neg_le_neg (h.mono (neg_le_neg hxy)), fun m e hm he => ?_⟩
    show -r (-((m : ℝ) * 2 ^ e)) = _
    have := h.keeps (-m) e (by rwa [abs_neg]) he
    push_cast at this
    rw [← neg_mul, this]; ring
  obtain ⟨l, u⟩ := lerp_mem h' ha.neg hb.neg (neg_le_neg hab) f0 f1
  have e : lerp (fun x => -r (-x)) f (-a) (-b) = -lerp r f a b := by
    simp only [lerp]
    rw [show -(-b - -a) = b - a by ring, show -(-r (b - a) * f) = r (b - a) * f by ring, show -(-a + -r (r (b - a) * f)) = a + r (r (b - a) * f) by ring]
  rw [e] at l u
  constructor <;> linarith

theorem lerp_between (h : Rounds53 r) {f a b : ℝ} (ha : IsDouble a) (hb : IsDouble b) (f0 : 0 ≤ f) (f1 : f ≤ 1 - 1 / 2 ^ 51) :
    min a b ≤ lerp r f a b ∧ lerp r f a b ≤ max a b := by
  rcases le_total a b with hab | hab
  · rw [min_eq_left hab, max_eq_right hab]; exact lerp_mem h ha hb hab f0 f1
  · rw [min_eq_right hab, max_eq_left hab]; exact lerp_mem' h ha hb hab f0 f1

theorem lerp_zero (h : Rounds53 r) {a b : ℝ} (ha : IsDouble a) : lerp r 0 a b = a := by
  rw [lerp, mul_zero, h.zero, add_zero, ha.round h]

/-- rising interval: rising in the fraction -/
theorem lerp_mono (h : Rounds53 r) {f g a b : ℝ} (hab : a ≤ b) (hfg : f ≤ g) : lerp r f a b ≤ lerp r g a b :=
  h.mono (by linarith [h.mono (mul_le_mul_of_nonneg_left hfg (h.nonneg (sub_nonneg.2 hab)))])

theorem Rounds53.nonpos (h : Rounds53 r) {x : ℝ} (hx : x ≤ 0) : r x ≤ 0 := by rw [← h.zero]; exact h.mono hx

theorem lerp_anti (h : Rounds53 r) {f g a b : ℝ} (hab : b ≤ a) (hfg : f ≤ g) : lerp r g a b ≤ lerp r f a b :=
  h.mono (by linarith [h.mono (mul_le_mul_of_nonpos_left hfg (h.nonpos (sub_nonpos.2 hab)))])

theorem lerp_err (h : Rounds53 r) {f a b M : ℝ} (hM : 1e-50 ≤ M) (ha : |a| ≤ M) (hb : |b| ≤ M) (f0 : 0 ≤ f) (f1 : f ≤ 1) :
    |lerp r f a b - ((1 - f) * a + f * b)| ≤ 1.4e-15 * M := by
  have hM0 : 0 < M := lt_of_lt_of_le (by norm_num) hM
  obtain ⟨a1, a2⟩ := abs_le.1 ha
  obtain ⟨b1, b2⟩ := abs_le.1 hb
  obtain ⟨p1, p2⟩ := abs_le.1 (h.rel_le (x := b - a) (M := 2 * M) (by rw [abs_le]; constructor <;> linarith) (by linarith))
  set d := r (b - a)
  have hd : |d| ≤ 2.01 * M := by rw [abs_le]; constructor <;> linarith
  have hdf : |d * f| ≤ 2.01 * M := by
    rw [abs_mul, abs_of_nonneg f0]
    nlinarith [abs_nonneg d]
  obtain ⟨q1, q2⟩ := abs_le.1 (h.rel_le hdf (by linarith))
  set t := r (d * f)
  have hdf' : |d * f - (b - a) * f| ≤ 2 * M / 2 ^ 52 := by
    rw [← sub_mul, abs_mul, abs_of_nonneg f0]
    have : |d - (b - a)| ≤ 2 * M / 2 ^ 52 := abs_le.2 ⟨p1, p2⟩
    nlinarith [abs_nonneg (d - (b - a))]
  obtain ⟨s1, s2⟩ := abs_le.1 hdf'
  have hv : |a + t| ≤ 1.01 * M := by
    have e1 : (1 - f) * a + f * b ≤ M := by nlinarith
    have e2 : -M ≤ (1 - f) * a + f * b := by nlinarith
    rw [abs_le]; constructor <;> linarith
  obtain ⟨u1, u2⟩ := abs_le.1 (h.rel_le hv (by linarith))
  rw [lerp, abs_le]
  constructor <;> linarith

end NavFuse
