import Verif.Props.Mjd
import Verif.Rnd

/-! # Calendar conversions in rounded arithmetic: C05 -/

set_option linter.unusedSimpArgs false

namespace NavFuse.Props
open Spec Rotations
variable [Machine] {r : ℝ → ℝ}

omit [Machine] in
/-- Rounding does not lift a number that is at least 2⁻²⁰ below an integer up to it, nor drop one below the integer under it. -/
theorem round_floor (hr : Rounds53 r) (k : ℤ) (hk : |k| < 2 ^ 33) (x : ℝ) (h1 : (k : ℝ) ≤ x) (h2 : x ≤ k + 1 - 1 / 2 ^ 20) : ⌊r x⌋ = k := by
  rw [Int.floor_eq_iff]
  have hk' := abs_lt.1 hk
  constructor
  · rw [← hr.int k (by rw [abs_le]; constructor <;> omega)]; exact hr.mono h1
  · have e : (k : ℝ) + 1 - 1 / 2 ^ 20 = (((k + 1) * 2 ^ 20 - 1 : ℤ) : ℝ) * (2 : ℝ) ^ (-20 : ℤ) := by
      push_cast; rw [zpow_neg]; norm_num; ring
    have := hr.mono h2
    rw [e, hr.keeps _ _ (by rw [abs_le]; constructor <;> omega) (by norm_num), ← e] at this
    refine lt_of_le_of_lt this ?_
    norm_num

omit [Machine] in
theorem round_neg_ceil (hr : Rounds53 r) (k : ℤ) (hk : |k| < 2 ^ 33) (x : ℝ) (h1 : x ≤ (k : ℝ)) (h2 : k - 1 + 1 / 2 ^ 20 ≤ x) : ⌈r x⌉ = k := by
  rw [Int.ceil_eq_iff]
  have hk' := abs_lt.1 hk
  constructor
  · have e : (k : ℝ) - 1 + 1 / 2 ^ 20 = (((k - 1) * 2 ^ 20 + 1 : ℤ) : ℝ) * (2 : ℝ) ^ (-20 : ℤ) := by
      push_cast; rw [zpow_neg]; norm_num; ring
    have := hr.mono h2
    rw [e, hr.keeps _ _ (by rw [abs_le]; constructor <;> omega) (by norm_num), ← e] at this
    refine lt_of_lt_of_le ?_ this
    norm_num
  · rw [← hr.int k (by rw [abs_le]; constructor <;> omega)]; exact hr.mono h1

/-- the timestamps C05 is about: fewer than 2³³ seconds from the epoch, years 1697 to 2242 -/
def Near (t : Int) : Prop := -(2 ^ 33 * 1000000) < t ∧ t < 2 ^ 33 * 1000000

/-- C05: the rounded quotient truncates to the exact whole second, in every rounding mode. -/
theorem C05_seconds_exact (hr : Rounds53 r) (t : Int) (h : Near t) :
    Flt.toLong (Flt.ofInt t / Flt.lit 1000000 : Rnd r) = some (Int.tdiv t 1000000) := by
  obtain ⟨l1, l2⟩ := h
  have hone : r 1000000 = 1000000 := by have := hr.int 1000000 (by norm_num); push_cast at this; exact this
  have ht : r (t : ℝ) = t := hr.int t (by rw [abs_le]; constructor <;> omega)
  have e : (Flt.ofInt t / Flt.lit 1000000 : Rnd r) = ⟨r ((t : ℝ) / 1000000)⟩ := by
    show (⟨r (r (t : ℝ) / r ((1000000 : ℚ) : ℝ))⟩ : Rnd r) = _
    rw [ht]; push_cast; rw [hone]
  have key : truncR (r ((t : ℝ) / 1000000)) = Int.tdiv t 1000000 := by
    have r0 : r 0 = 0 := by have := hr.int 0 (by norm_num); simpa using this
    rw [truncR]
    rcases le_or_gt 0 t with h0 | h0
    · have hq : (0 : ℝ) ≤ (t : ℝ) / 1000000 := div_nonneg (by exact_mod_cast h0) (by norm_num)
      rw [if_pos (by rw [← r0]; exact hr.mono hq), Int.tdiv_eq_ediv_of_nonneg h0]
      apply round_floor hr
      · rw [abs_lt]; constructor <;> omega
      · rw [le_div_iff₀ (by norm_num)]
        have : t / 1000000 * 1000000 ≤ t := by omega
        exact_mod_cast this
      · have : (t : ℝ) + 1 ≤ (((t / 1000000 : ℤ) : ℝ) + 1) * 1000000 := by
          have : t + 1 ≤ (t / 1000000 + 1) * 1000000 := by omega
          exact_mod_cast this
        rw [div_le_iff₀ (by norm_num)]
        nlinarith
    · have hn := Int.tdiv_eq_ediv_of_nonneg (a := -t) (b := 1000000) (by omega)
      rw [Int.neg_tdiv] at hn
      have hle : r ((t : ℝ) / 1000000) ≤ ((Int.tdiv t 1000000 : ℤ) : ℝ) := by
        rw [← hr.int (Int.tdiv t 1000000) (by rw [abs_le]; constructor <;> omega)]
        apply hr.mono
        rw [div_le_iff₀ (by norm_num)]
        have : t ≤ Int.tdiv t 1000000 * 1000000 := by omega
        exact_mod_cast this
      have hc : ⌈r ((t : ℝ) / 1000000)⌉ = Int.tdiv t 1000000 := by
        apply round_neg_ceil hr
        · rw [abs_lt]; constructor <;> omega
        · rw [div_le_iff₀ (by norm_num)]
          have : t ≤ Int.tdiv t 1000000 * 1000000 := by omega
          exact_mod_cast this
        · have : (((Int.tdiv t 1000000 : ℤ) : ℝ) - 1) * 1000000 ≤ (t : ℝ) - 1 := by
            have : (Int.tdiv t 1000000 - 1) * 1000000 ≤ t - 1 := by omega
            exact_mod_cast this
          rw [le_div_iff₀ (by norm_num)]
          nlinarith
      split_ifs with hs
      · have hz : r ((t : ℝ) / 1000000) = 0 := by
          apply le_antisymm _ hs
          rw [← r0]; apply hr.mono
          exact div_nonpos_of_nonpos_of_nonneg (by exact_mod_cast h0.le) (by norm_num)
        rw [hz] at hc ⊢
        simpa using hc
      · exact hc
  rw [e]
  show (if -2 ^ 63 ≤ truncR (r ((t : ℝ) / 1000000)) ∧ truncR (r ((t : ℝ) / 1000000)) < 2 ^ 63 then _ else _) = _
  rw [key, if_pos]
  rcases le_or_gt 0 t with h0 | h0
  · rw [Int.tdiv_eq_ediv_of_nonneg h0]; constructor <;> omega
  · have hn := Int.tdiv_eq_ediv_of_nonneg (a := -t) (b := 1000000) (by omega)
    rw [Int.neg_tdiv] at hn
    constructor <;> omega

/-- C05, consequence: in rounded arithmetic the date vector is the one of the exact whole second. -/
theorem C05_date_exact (hr : Rounds53 r) (t : Int) (h0 : 0 ≤ t) (h : Near t) (hdec : ¬((utcDate t).month = 12 ∧ (utcDate t).day = 31))
    (v : List (Rnd r)) :
    ∃ hh mm ss : Int, (0 ≤ hh ∧ hh < 24) ∧ (0 ≤ mm ∧ mm < 60) ∧ (0 ≤ ss ∧ ss < 60) ∧ 3600 * hh + 60 * mm + ss = t / 1000000 % 86400 ∧
      ∃ w, unixTimestampToDateVec t v = .ok (true, v ++ w) ∧
        w.map Rnd.val = [((utcDate t).year : ℝ), ((utcDate t).month : ℝ), ((utcDate t).day : ℝ), (hh : ℝ), (mm : ℝ), (ss : ℝ)] := by
  have e : t / 1000000 / 86400 = t / dayMicros := by simp only [dayMicros]; omega
  obtain ⟨hh, mm, ss, a, b, c, d, g⟩ := (dateVec_nonneg (t / 1000000) (Int.ediv_nonneg h0 (by norm_num)) v).1 (by rw [e]; exact hdec)
  refine ⟨hh, mm, ss, a, b, c, d,
    [Flt.ofInt (utcDate t).year, Flt.ofInt (utcDate t).month, Flt.ofInt (utcDate t).day, Flt.ofInt hh, Flt.ofInt mm, Flt.ofInt ss], ?_, ?_⟩
  · simp only [unixTimestampToDateVec, C05_seconds_exact hr t h]
    rw [Int.tdiv_eq_ediv_of_nonneg h0, g, e]; rfl
  · have small : ∀ n : Int, |n| ≤ 2 ^ 53 → (Flt.ofInt n : Rnd r).val = n := fun n hn => hr.int n hn
    have hv := (utc_valid (t / dayMicros).toNat)
    have hz : mjdZ (utcDate t) = 40587 + (t / dayMicros).toNat := hv.2
    have hm := hv.1.month
    have hd := hv.1.day
    have hL := monthLen_le (decide (civilLeap (utcDate t).year)) (utcDate t).month
    have hL' : (utcDate t).day ≤ 31 := hd.2.trans hL
    have hm1 : 1 ≤ (utcDate t).month := hm.1
    have hm2 : (utcDate t).month ≤ 12 := hm.2
    have hd1 : 1 ≤ (utcDate t).day := hd.1
    have hy : -2 ^ 53 ≤ (utcDate t).year ∧ (utcDate t).year ≤ 2 ^ 53 := by
      obtain ⟨t1, t2⟩ := h
      simp only [mjdZ, dayMicros] at hz
      split_ifs at hz <;> omega
    simp only [List.map, small hh (by rw [abs_le]; omega), small mm (by rw [abs_le]; omega), small ss (by rw [abs_le]; omega),
      small _ (abs_le.2 hy), small (utcDate t).month (by rw [abs_le]; omega), small (utcDate t).day (by rw [abs_le]; omega)]

/-- non-vacuity: rounding to nearest is such a rounding -/
example : Rounds53 nearest ∧ Near 1700000000999999 := ⟨nearest_rounds, by constructor <;> norm_num⟩

end NavFuse.Props
