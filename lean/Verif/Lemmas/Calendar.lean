import Verif.Model.Calendar
import Verif.Spec.Calendar
import Mathlib.Tactic.IntervalCases

/-! The date loops compute the civil calendar. -/

namespace NavFuse.Rotations
open Spec

theorem isLeap_iff {y : Int} (h : 0 ≤ y) : isLeap y = decide (gregLeap y) := by
  have e1 : Int.tmod y 400 = y % 400 := Int.tmod_eq_emod_of_nonneg h
  have e2 : Int.tmod y 100 = y % 100 := Int.tmod_eq_emod_of_nonneg h
  have e3 : Int.tmod y 4 = y % 4 := Int.tmod_eq_emod_of_nonneg h
  simp only [isLeap, e1, e2, e3, gregLeap]
  by_cases h1 : y % 400 = 0 <;> by_cases h2 : y % 4 = 0 <;> by_cases h3 : y % 100 = 0 <;>
    simp [h1, h2, h3, Int.dvd_iff_emod_eq_zero] <;> omega

theorem iter_add (f : Date → Date) (a b : Nat) (D : Date) : iter f (a + b) D = iter f b (iter f a D) := by
  induction a generalizing D with
  | zero => simp [iter]
  | succ a ih => rw [Nat.succ_add]; simp only [iter]; exact ih _

/-- counting within a month -/
theorem iter_month (y m : Int) (k : Nat) (d : Int) (h : d + k ≤ monthLen (decide (gregLeap y)) m) :
    iter Date.gregNext k ⟨y, m, d⟩ = ⟨y, m, d + k⟩ := by
  induction k generalizing d with
  | zero => simp [iter]
  | succ k ih =>
    have h1 : d < monthLen (decide (gregLeap y)) m := by omega
    have : Date.gregNext ⟨y, m, d⟩ = ⟨y, m, d + 1⟩ := by simp [Date.gregNext, Date.succWith, h1]
    rw [iter, this, ih _ (by omega)]
    simp; omega

theorem monthLen_pos (l : Bool) (m : Int) : 28 ≤ monthLen l m ∧ monthLen l m ≤ 31 := by
  unfold monthLen; split_ifs <;> constructor <;> omega

/-- counting a whole month -/
theorem iter_whole_month (y m : Int) (k : Nat) (hm : m < 12) (hk : (k : Int) = monthLen (decide (gregLeap y)) m) :
    iter Date.gregNext k ⟨y, m, 1⟩ = ⟨y, m + 1, 1⟩ := by
  have hp := monthLen_pos (decide (gregLeap y)) m
  obtain ⟨j, rfl⟩ : ∃ j, k = j + 1 := ⟨k - 1, by omega⟩
  rw [iter_add, iter_month y m j 1 (by omega)]
  have h1 : ¬ (1 + (j : Int) < monthLen (decide (gregLeap y)) m) := by omega
  simp [iter, Date.gregNext, Date.succWith, h1, hm]

theorem iter_december (y : Int) : iter Date.gregNext 31 ⟨y, 12, 1⟩ = ⟨y + 1, 1, 1⟩ := by
  have hl : monthLen (decide (gregLeap y)) 12 = 31 := by simp [monthLen]
  rw [show 31 = 30 + 1 from rfl, iter_add, iter_month y 12 30 1 (by rw [hl]; norm_num)]
  simp [iter, Date.gregNext, Date.succWith, hl]

/-- days in a Gregorian year -/
def yearLen (y : Int) : Nat := if gregLeap y then 366 else 365

theorem iter_year (y : Int) : iter Date.gregNext (yearLen y) ⟨y, 1, 1⟩ = ⟨y + 1, 1, 1⟩ := by
  have key : ∀ l : Bool, l = decide (gregLeap y) → yearLen y
      = (((((((((((monthLen l 1).toNat + (monthLen l 2).toNat) + (monthLen l 3).toNat) + (monthLen l 4).toNat) + (monthLen l 5).toNat)
        + (monthLen l 6).toNat) + (monthLen l 7).toNat) + (monthLen l 8).toNat) + (monthLen l 9).toNat) + (monthLen l 10).toNat)
        + (monthLen l 11).toNat) + 31 := by
    intro l hl
    subst hl
    by_cases h : gregLeap y <;> simp [yearLen, h, monthLen]
  have st : ∀ m m' : Int, m < 12 → m' = m + 1 → iter Date.gregNext (monthLen (decide (gregLeap y)) m).toNat ⟨y, m, 1⟩ = ⟨y, m', 1⟩ := by
    rintro m _ hm rfl
    exact iter_whole_month y m _ hm (Int.toNat_of_nonneg (by have := monthLen_pos (decide (gregLeap y)) m; omega))
  rw [key _ rfl]
  simp only [iter_add]
  rw [st 1 2 (by omega) rfl, st 2 3 (by omega) rfl, st 3 4 (by omega) rfl, st 4 5 (by omega) rfl, st 5 6 (by omega) rfl, st 6 7 (by omega) rfl,
    st 7 8 (by omega) rfl, st 8 9 (by omega) rfl, st 9 10 (by omega) rfl, st 10 11 (by omega) rfl, st 11 12 (by omega) rfl]
  exact iter_december y

/-- The loop over the years finds the year and the day of the year. -/
theorem yearLoop_spec (y d : Int) (hy : 0 ≤ y) (hd : 0 ≤ d) :
    y ≤ (yearLoop y d).1 ∧ 0 ≤ (yearLoop y d).2 ∧ (yearLoop y d).2 < yearLen (yearLoop y d).1 ∧
      iter Date.gregNext d.toNat ⟨y, 1, 1⟩ = iter Date.gregNext (yearLoop y d).2.toNat ⟨(yearLoop y d).1, 1, 1⟩ := by
  induction h : d.toNat using Nat.strongRecOn generalizing y d with
  | ind n ih =>
    have hl := isLeap_iff hy
    rw [yearLoop]
    by_cases hg : gregLeap y
    · have hlen : yearLen y = 366 := by simp [yearLen, hg]
      simp only [hl, hg, decide_true, if_true]
      split_ifs with h1
      · refine ⟨le_refl _, hd, by rw [hlen]; omega, by rw [h]⟩
      · obtain ⟨a1, a2, a3, a4⟩ := ih (d - 366).toNat (by omega) (y + 1) (d - 366) (by omega) (by omega) rfl
        refine ⟨by omega, a2, a3, ?_⟩
        rw [← a4, ← iter_year y, hlen, ← iter_add]
        congr 1; omega
    · have hlen : yearLen y = 365 := by simp [yearLen, hg]
      simp only [hl, hg, decide_false, Bool.false_eq_true, if_false]
      split_ifs with h1
      · refine ⟨le_refl _, hd, by rw [hlen]; omega, by rw [h]⟩
      · obtain ⟨a1, a2, a3, a4⟩ := ih (d - 365).toNat (by omega) (y + 1) (d - 365) (by omega) (by omega) rfl
        refine ⟨by omega, a2, a3, ?_⟩
        rw [← a4, ← iter_year y, hlen, ← iter_add]
        congr 1; omega

/-! The loops over the months. -/

theorem monthLoop_step (flag : Bool) (f : Nat) (i e : Int) (h0 : 0 ≤ i) (h1 : i < 12) :
    monthLoopF flag (f + 1) i i e
      = if e < monthLen flag (i + 1) then .ok (i, e) else monthLoopF flag f (i + 1) (i + 1) (e - monthLen flag (i + 1)) := by
  have hs : ∀ n : Int, (e - n < 0) ↔ (e < n) := fun n => by omega
  interval_cases i <;> cases flag <;> simp [monthLoopF, daysOfMonth, monthLen, osimp, hs]

theorem monthLoop_end (flag : Bool) (f : Nat) (m e : Int) : monthLoopF flag (f + 1) 12 m e = Out.ub .index := by
  cases flag <;> simp [monthLoopF, daysOfMonth, osimp]

/-- days from the first of month `i + 1` to the end of the year, where `i = 12 - k` -/
def rest (flag : Bool) : Nat → Int
  | 0 => 0
  | k + 1 => monthLen flag (12 - k) + rest flag k

theorem rest_nonneg (flag : Bool) (k : Nat) : 0 ≤ rest flag k := by
  induction k with
  | zero => simp [rest]
  | succ k ih => have := monthLen_pos flag (12 - k); simp only [rest]; omega

theorem finishDate_pos (flag : Bool) (m e : Int) (h : 0 < e) : finishDate flag m e = .ok (m + 1, e) := by
  simp [finishDate, h]

theorem finishDate_zero (flag : Bool) (m : Int) (h0 : 1 ≤ m) (h1 : m ≤ 12) : finishDate flag m 0 = .ok (m, monthLen flag m) := by
  interval_cases m <;> cases flag <;> simp [finishDate, daysOfMonth, monthLen, osimp]

/-- The loops over the months and the final adjustment find the date; `e` counts from 1 on the first of month `i + 1`, and `e = 0` stands for
the last day of month `i`. -/
theorem monthLoop_spec (y : Int) (k : Nat) (hk : k ≤ 12) (e : Int) (he : 0 ≤ e) (hi : k = 12 → 0 < e)
    (hlt : e < rest (decide (gregLeap y)) k) :
    ∃ m e' m' d', monthLoopF (decide (gregLeap y)) (k + 1) (12 - k) (12 - k) e = .ok (m, e') ∧
      finishDate (decide (gregLeap y)) m e' = .ok (m', d') ∧
      (⟨y, m', d'⟩ : Date) = if 0 < e then iter Date.gregNext (e - 1).toNat ⟨y, 12 - k + 1, 1⟩
        else ⟨y, 12 - k, monthLen (decide (gregLeap y)) (12 - k)⟩ := by
  induction k generalizing e with
  | zero => simp only [rest] at hlt; omega
  | succ k ih =>
    have hki : ((12 : Int) - ((k + 1 : Nat) : Int)) + 1 = 12 - k := by omega
    have hL := monthLen_pos (decide (gregLeap y)) (12 - k)
    rw [monthLoop_step _ _ _ _ (by omega) (by omega), hki]
    simp only [rest] at hlt
    by_cases h1 : e < monthLen (decide (gregLeap y)) (12 - k)
    · rw [if_pos h1]
      by_cases h2 : 0 < e
      · refine ⟨_, _, _, _, rfl, finishDate_pos _ _ _ h2, ?_⟩
        rw [if_pos h2, hki, iter_month y (12 - k) (e - 1).toNat 1 (by omega)]
        congr 1; omega
      · have : e = 0 := by omega
        subst this
        refine ⟨_, _, _, _, rfl, finishDate_zero _ _ (by by_contra h; exact absurd (hi (by omega)) (by omega)) (by omega), ?_⟩
        rw [if_neg h2]
    · rw [if_neg h1]
      obtain ⟨m, e', m', d', a1, a2, a3⟩ := ih (by omega) (e - monthLen (decide (gregLeap y)) (12 - k)) (by omega) (by omega) (by omega)
      refine ⟨m, e', m', d', a1, a2, ?_⟩
      rw [a3, if_pos (by omega : 0 < e)]
      by_cases h2 : 0 < e - monthLen (decide (gregLeap y)) (12 - k)
      · rw [if_pos h2]
        have hsplit : (e - 1).toNat = (monthLen (decide (gregLeap y)) (12 - k)).toNat + (e - monthLen (decide (gregLeap y)) (12 - k) - 1).toNat := by omega
        have hk0 : k ≠ 0 := by
          rintro rfl; simp only [rest] at hlt; omega
        rw [hsplit, iter_add, iter_whole_month y (12 - k) _ (by omega) (by omega)]
      · rw [if_neg h2]
        have he' : e = monthLen (decide (gregLeap y)) (12 - k) := by omega
        rw [he', iter_month y (12 - k) _ 1 (by omega)]
        congr 1; omega

/-- After the last day of December the loop reads past the table. -/
theorem monthLoop_over (flag : Bool) (k : Nat) (hk : k ≤ 12) (e : Int) (h : rest flag k ≤ e) :
    monthLoopF flag (k + 1) (12 - k) (12 - k) e = Out.ub .index := by
  induction k generalizing e with
  | zero => exact monthLoop_end flag 0 12 e
  | succ k ih =>
    have hki : ((12 : Int) - ((k + 1 : Nat) : Int)) + 1 = 12 - k := by omega
    have hL := monthLen_pos flag (12 - k)
    have hr := rest_nonneg flag k
    simp only [rest] at h
    rw [monthLoop_step _ _ _ _ (by omega) (by omega), hki, if_neg (by omega)]
    exact ih (by omega) _ (by omega)

theorem rest_year (y : Int) : rest (decide (gregLeap y)) 12 = yearLen y := by
  by_cases h : gregLeap y <;> simp [rest, yearLen, h, monthLen]

/-- day of the year -/
def doy (l : Bool) (m d : Int) : Int :=
  d + if m = 1 then 0 else if m = 2 then 31 else (if l then 1 else 0) + if m = 3 then 59 else if m = 4 then 90 else if m = 5 then 120
    else if m = 6 then 151 else if m = 7 then 181 else if m = 8 then 212 else if m = 9 then 243 else if m = 10 then 273 else if m = 11 then 304 else 334

theorem doy_next (l : Bool) (m d : Int) (hm : 1 ≤ m ∧ m ≤ 12) (hd : 1 ≤ d ∧ d ≤ monthLen l m) :
    doy l m d ≤ (if l then 366 else 365) ∧ (doy l m d = (if l then 366 else 365) ↔ m = 12 ∧ d = 31) ∧
      ∀ y, doy l m d < (if l then 366 else 365) → ∃ m' d', Date.succWith l ⟨y, m, d⟩ = ⟨y, m', d'⟩ ∧ (1 ≤ m' ∧ m' ≤ 12) ∧
        (1 ≤ d' ∧ d' ≤ monthLen l m') ∧ doy l m' d' = doy l m d + 1 := by
  obtain ⟨m1, m2⟩ := hm
  obtain ⟨d1, d2⟩ := hd
  refine ⟨?_, ?_, ?_⟩
  · interval_cases m <;> cases l <;> simp [doy, monthLen] at d2 ⊢ <;> omega
  · interval_cases m <;> cases l <;> simp [doy, monthLen] at d2 ⊢ <;> omega
  · intro y hlt
    by_cases h : d < monthLen l m
    · refine ⟨m, d + 1, by simp [Date.succWith, h], ⟨m1, m2⟩, ⟨by omega, by omega⟩, by simp [doy]; omega⟩
    · have hd : d = monthLen l m := by omega
      have hm : m < 12 := by
        by_contra h12
        have : m = 12 := by omega
        subst this
        cases l <;> simp [doy, monthLen] at hd hlt <;> omega
      have hp := monthLen_pos l (m + 1)
      refine ⟨m + 1, 1, by simp [Date.succWith, h, hm], ⟨by omega, by omega⟩, ⟨by omega, by omega⟩, ?_⟩
      rw [hd]
      interval_cases m <;> cases l <;> simp [doy, monthLen]

theorem iter_doy (y : Int) (d : Nat) (h : d < yearLen y) : ∃ m dd, iter Date.gregNext d ⟨y, 1, 1⟩ = ⟨y, m, dd⟩ ∧ (1 ≤ m ∧ m ≤ 12) ∧
    (1 ≤ dd ∧ dd ≤ monthLen (decide (gregLeap y)) m) ∧ doy (decide (gregLeap y)) m dd = d + 1 := by
  have hlen : (yearLen y : Int) = if decide (gregLeap y) then 366 else 365 := by
    by_cases hg : gregLeap y <;> simp [yearLen, hg]
  induction d with
  | zero => exact ⟨1, 1, rfl, by omega, by simp [monthLen], by simp [doy]⟩
  | succ d ih =>
    obtain ⟨m, dd, e, hm, hd, hy⟩ := ih (by omega)
    obtain ⟨-, -, hn⟩ := doy_next (decide (gregLeap y)) m dd hm hd
    obtain ⟨m', d', e', hm', hd', hy'⟩ := hn y (by rw [hy, ← hlen]; omega)
    refine ⟨m', d', ?_, hm', hd', by rw [hy', hy]; omega⟩
    rw [iter_add, e]
    exact e'

/-- The last day of a year is 31 December, and no other day is. -/
theorem iter_dec31 (y : Int) (d : Nat) (h : d < yearLen y) :
    ((iter Date.gregNext d ⟨y, 1, 1⟩).month = 12 ∧ (iter Date.gregNext d ⟨y, 1, 1⟩).day = 31) ↔ d + 1 = yearLen y := by
  have hlen : (yearLen y : Int) = if decide (gregLeap y) then 366 else 365 := by
    by_cases hg : gregLeap y <;> simp [yearLen, hg]
  obtain ⟨m, dd, e, hm, hd, hy⟩ := iter_doy y d h
  obtain ⟨-, hiff, -⟩ := doy_next (decide (gregLeap y)) m dd hm hd
  rw [e]
  simp only
  rw [← hiff, ← hlen, hy]
  omega

end NavFuse.Rotations
