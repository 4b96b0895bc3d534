import Verif.Lemmas.Calendar
import Verif.RealInst

/-! # Timestamps to dates: C01-C04 -/

set_option linter.unusedSimpArgs false

namespace NavFuse.Props
open Spec Rotations

/-- microseconds in a day -/
abbrev dayMicros : Int := 86400000000

section everyScalar
variable {α : Type} [Flt α]

/-- The date of a non-negative second count, over any scalar type. -/
theorem dateVec_nonneg (sec : Int) (h : 0 ≤ sec) (v : List α) :
    let D := dateOfDay (sec / 86400).toNat
    (¬(D.month = 12 ∧ D.day = 31) → ∃ hh mm ss : Int, (0 ≤ hh ∧ hh < 24) ∧ (0 ≤ mm ∧ mm < 60) ∧ (0 ≤ ss ∧ ss < 60) ∧
      3600 * hh + 60 * mm + ss = sec % 86400 ∧
      dateVecOfSec sec v = .ok (true, v ++ [Flt.ofInt D.year, Flt.ofInt D.month, Flt.ofInt D.day, Flt.ofInt hh, Flt.ofInt mm, Flt.ofInt ss])) ∧
    (D.month = 12 ∧ D.day = 31 → dateVecOfSec sec v = Out.ub .index) := by
  intro D
  have e1 : Int.tdiv sec (24 * 60 * 60) = sec / 86400 := Int.tdiv_eq_ediv_of_nonneg h
  have e2 : Int.tmod sec (24 * 60 * 60) = sec % 86400 := Int.tmod_eq_emod_of_nonneg h
  have hx : 0 ≤ sec % 86400 ∧ sec % 86400 < 86400 := ⟨Int.emod_nonneg _ (by norm_num), Int.emod_lt_of_pos _ (by norm_num)⟩
  have e3 : Int.tdiv (sec % 86400) 3600 = sec % 86400 / 3600 := Int.tdiv_eq_ediv_of_nonneg hx.1
  have e4 : Int.tmod (sec % 86400) 3600 = sec % 86400 % 3600 := Int.tmod_eq_emod_of_nonneg hx.1
  have hy : 0 ≤ sec % 86400 % 3600 := Int.emod_nonneg _ (by norm_num)
  have e5 : Int.tdiv (sec % 86400 % 3600) 60 = sec % 86400 % 3600 / 60 := Int.tdiv_eq_ediv_of_nonneg hy
  have e6 : Int.tmod (sec % 86400 % 3600) 60 = sec % 86400 % 3600 % 60 := Int.tmod_eq_emod_of_nonneg hy
  obtain ⟨y1, y2, y3, y4⟩ := yearLoop_spec 1970 (sec / 86400) (by norm_num) (Int.ediv_nonneg h (by norm_num))
  have hD : D = iter Date.gregNext (yearLoop 1970 (sec / 86400)).2.toNat ⟨(yearLoop 1970 (sec / 86400)).1, 1, 1⟩ := y4
  have hdv : dateVecOfSec sec v = (do
      let (month, extraDays) ← monthLoop (isLeap (yearLoop 1970 (sec / 86400)).1) ((yearLoop 1970 (sec / 86400)).2 + 1)
      let (month, date) ← finishDate (isLeap (yearLoop 1970 (sec / 86400)).1) month extraDays
      Except.ok (true, (v ++ [Flt.ofInt (yearLoop 1970 (sec / 86400)).1, Flt.ofInt month, Flt.ofInt date]) ++
        [Flt.ofInt (sec % 86400 / 3600), Flt.ofInt (sec % 86400 % 3600 / 60), Flt.ofInt (sec % 86400 % 3600 % 60)])) := by
    simp only [dateVecOfSec, e1, e2, e3, e4, e5, e6]
  generalize yearLoop 1970 (sec / 86400) = yd at *
  obtain ⟨y, d⟩ := yd
  simp only at *
  have hl := isLeap_iff (y := y) (by omega)
  rw [hl] at hdv
  have hdec := iter_dec31 y d.toNat (by omega)
  rw [← hD] at hdec
  constructor
  · intro hnot
    have hlt : d + 1 < yearLen y := by
      have := mt hdec.2 hnot; omega
    obtain ⟨m, e', m', d', a1, a2, a3⟩ := monthLoop_spec y 12 (le_refl _) (d + 1) (by omega) (by omega) (by rw [rest_year]; exact hlt)
    refine ⟨sec % 86400 / 3600, sec % 86400 % 3600 / 60, sec % 86400 % 3600 % 60, by omega, by omega, by omega, by omega, ?_⟩
    have a1' : monthLoop (decide (gregLeap y)) (d + 1) = .ok (m, e') := a1
    rw [if_pos (by omega)] at a3
    have a4 : (⟨y, m', d'⟩ : Date) = D := by
      rw [a3, hD]; norm_num
    rw [hdv, a1']
    simp only [osimp, a2, ← a4]
    simp
  · intro hdec'
    have hlt : d + 1 = yearLen y := by have := hdec.1 hdec'; omega
    have a1' : monthLoop (decide (gregLeap y)) (d + 1) = Out.ub .index :=
      monthLoop_over (decide (gregLeap y)) 12 (le_refl _) (d + 1) (by rw [rest_year]; omega)
    rw [hdv, a1']
    rfl

/-- The result for a negative second count, over any scalar type: undefined from one day before the epoch on, and otherwise
1970-01-01 with the (negative) time split into fields. -/
theorem dateVec_neg (sec : Int) (h : sec < 0) (v : List α) :
    (sec ≤ -86400 → dateVecOfSec sec v = Out.ub .index) ∧
    (-86400 < sec → ∃ hh mm ss : Int, (hh ≤ 0 ∧ mm ≤ 0 ∧ ss ≤ 0) ∧ 3600 * hh + 60 * mm + ss = sec ∧
      dateVecOfSec sec v = .ok (true, v ++ [Flt.ofInt 1970, Flt.ofInt 1, Flt.ofInt 1, Flt.ofInt hh, Flt.ofInt mm, Flt.ofInt ss])) := by
  have hl : isLeap 1970 = false := by decide
  constructor
  · intro h1
    have hd : Int.tdiv sec (24 * 60 * 60) ≤ -1 := by
      have : Int.tdiv (-sec) (24 * 60 * 60) = (-sec) / 86400 := Int.tdiv_eq_ediv_of_nonneg (by omega)
      rw [Int.neg_tdiv] at this
      omega
    have hyl : yearLoop 1970 (Int.tdiv sec (24 * 60 * 60)) = (1970, Int.tdiv sec (24 * 60 * 60)) := by
      generalize Int.tdiv sec (24 * 60 * 60) = d at hd ⊢
      rw [yearLoop, hl]; simp; omega
    have hm : monthLoop false (Int.tdiv sec (24 * 60 * 60) + 1) = .ok (0, Int.tdiv sec (24 * 60 * 60) + 1) := by
      generalize Int.tdiv sec (24 * 60 * 60) = d at hd ⊢
      simp [monthLoop, monthLoopF, daysOfMonth, osimp]; omega
    have hf : finishDate false 0 (Int.tdiv sec (24 * 60 * 60) + 1) = Out.ub .index := by
      simp only [finishDate]
      rw [if_neg (by omega)]
      simp [daysOfMonth, osimp]
    simp only [dateVecOfSec, hyl, hl, hm, osimp, hf]
  · intro h1
    have hd : Int.tdiv sec (24 * 60 * 60) = 0 := by
      have : Int.tdiv (-sec) (24 * 60 * 60) = (-sec) / 86400 := Int.tdiv_eq_ediv_of_nonneg (by omega)
      rw [Int.neg_tdiv] at this
      omega
    have ht : Int.tmod sec (24 * 60 * 60) = sec := by
      have := Int.mul_tdiv_add_tmod sec (24 * 60 * 60)
      rw [hd] at this; omega
    have hyl : yearLoop 1970 0 = (1970, 0) := by rw [yearLoop, hl]; simp
    have hm : monthLoop false 1 = .ok (0, 1) := by simp [monthLoop, monthLoopF, daysOfMonth, osimp]
    have hf : finishDate false 0 1 = .ok (1, 1) := by simp [finishDate]
    have n1 : Int.tdiv sec 3600 = -((-sec) / 3600) := by
      have : Int.tdiv (-sec) 3600 = (-sec) / 3600 := Int.tdiv_eq_ediv_of_nonneg (by omega)
      rw [Int.neg_tdiv] at this; omega
    have n2 : Int.tmod sec 3600 = -((-sec) % 3600) := by
      have : Int.tmod (-sec) 3600 = (-sec) % 3600 := Int.tmod_eq_emod_of_nonneg (by omega)
      rw [Int.neg_tmod] at this; omega
    have n3 : Int.tdiv (-((-sec) % 3600)) 60 = -((-sec) % 3600 / 60) := by
      rw [Int.neg_tdiv, Int.tdiv_eq_ediv_of_nonneg (by omega)]
    have n4 : Int.tmod (-((-sec) % 3600)) 60 = -((-sec) % 3600 % 60) := by
      rw [Int.neg_tmod, Int.tmod_eq_emod_of_nonneg (by omega)]
    refine ⟨-((-sec) / 3600), -((-sec) % 3600 / 60), -((-sec) % 3600 % 60), by omega, by omega, ?_⟩
    simp only [dateVecOfSec, hd, ht, hyl, hl, Int.zero_add, hm, osimp, hf, n1, n2, n3, n4]
    simp

/-- C04: a conversion that completes reports success and appends six entries, which do not depend on what the vector held. -/
theorem C04_appends_six [Div α] (t : Int) : (∃ w : List α, w.length = 6 ∧ ∀ v, unixTimestampToDateVec t v = .ok (true, v ++ w)) ∨
    (∃ s, ∀ v : List α, unixTimestampToDateVec t v = .error s) := by
  cases h : (Flt.toLong (Flt.ofInt t / Flt.lit 1000000 : α)) with
  | none => exact Or.inr ⟨_, fun v => by simp only [unixTimestampToDateVec, h]; rfl⟩
  | some sec =>
    have e : ∀ v : List α, unixTimestampToDateVec t v = dateVecOfSec sec v := fun v => by simp only [unixTimestampToDateVec, h]
    simp only [e]
    simp only [dateVecOfSec]
    generalize monthLoop _ _ = m
    cases m with
    | error s => exact Or.inr ⟨s, fun v => rfl⟩
    | ok me =>
      obtain ⟨m, e⟩ := me
      simp only [osimp]
      generalize finishDate _ _ _ = f
      cases f with
      | error s => exact Or.inr ⟨s, fun v => rfl⟩
      | ok md =>
        obtain ⟨m, d⟩ := md
        refine Or.inl ⟨_, ?_, fun v => by simp only [osimp]; rw [List.append_assoc]⟩
        simp

end everyScalar

/-! At ℝ. -/

theorem truncR_div (t : Int) : truncR ((t : ℝ) / 1000000) = Int.tdiv t 1000000 := by
  have key : ∀ n : Int, 0 ≤ n → ⌊(n : ℝ) / 1000000⌋ = n / 1000000 := by
    intro n hn
    rw [Int.floor_eq_iff]
    have h1 := Int.emod_add_mul_ediv n 1000000
    have h2 := Int.emod_nonneg n (by norm_num : (1000000 : Int) ≠ 0)
    have h3 := Int.emod_lt_of_pos n (by norm_num : (0 : Int) < 1000000)
    constructor
    · rw [le_div_iff₀ (by norm_num)]
      have : n / 1000000 * 1000000 ≤ n := by omega
      exact_mod_cast this
    · rw [div_lt_iff₀ (by norm_num)]
      have : n < (n / 1000000 + 1) * 1000000 := by omega
      exact_mod_cast this
  rw [truncR]
  rcases le_or_gt 0 t with h | h
  · have : (0 : ℝ) ≤ (t : ℝ) / 1000000 := div_nonneg (by exact_mod_cast h) (by norm_num)
    rw [if_pos this, key t h, Int.tdiv_eq_ediv_of_nonneg h]
  · have hneg : ¬ (0 : ℝ) ≤ (t : ℝ) / 1000000 := by
      rw [not_le]; exact div_neg_of_neg_of_pos (by exact_mod_cast h) (by norm_num)
    have e : (t : ℝ) / 1000000 = -(((-t : Int) : ℝ) / 1000000) := by push_cast; ring
    rw [if_neg hneg, e, Int.ceil_neg, key (-t) (by omega), ← Int.tdiv_eq_ediv_of_nonneg (by omega), Int.neg_tdiv, neg_neg]

/-- the range of `int64_t` -/
def IsInt64 (t : Int) : Prop := -2 ^ 63 ≤ t ∧ t < 2 ^ 63

theorem toLong_R {t : Int} (h : IsInt64 t) : (Flt.toLong (Flt.ofInt t / Flt.lit 1000000 : ℝ)) = some (Int.tdiv t 1000000) := by
  have e : (Flt.ofInt t / Flt.lit 1000000 : ℝ) = (t : ℝ) / 1000000 := by simp [rsimp]
  rw [e]
  show (if -2 ^ 63 ≤ truncR ((t : ℝ) / 1000000) ∧ truncR ((t : ℝ) / 1000000) < 2 ^ 63 then _ else _) = _
  rw [truncR_div, if_pos]
  have h1 := h.1; have h2 := h.2
  rcases le_or_gt 0 t with h0 | h0
  · rw [Int.tdiv_eq_ediv_of_nonneg h0]; constructor <;> omega
  · have := Int.tdiv_eq_ediv_of_nonneg (a := -t) (b := 1000000) (by omega)
    rw [Int.neg_tdiv] at this
    constructor <;> omega

theorem unix_R {t : Int} (h : IsInt64 t) (v : List ℝ) : unixTimestampToDateVec t v = dateVecOfSec (Int.tdiv t 1000000) v := by
  simp only [unixTimestampToDateVec, toLong_R h]

/-- the UTC date of a timestamp from the epoch on -/
def utcDate (t : Int) : Date := dateOfDay (t / dayMicros).toNat

/-- C01, except on 31 December: the six appended entries are the UTC date and time. -/
theorem C01_date_partial (t : Int) (h0 : 0 ≤ t) (h : IsInt64 t) (hdec : ¬((utcDate t).month = 12 ∧ (utcDate t).day = 31)) (v : List ℝ) :
    ∃ hh mm ss : Int, (0 ≤ hh ∧ hh < 24) ∧ (0 ≤ mm ∧ mm < 60) ∧ (0 ≤ ss ∧ ss < 60) ∧ 3600 * hh + 60 * mm + ss = t / 1000000 % 86400 ∧
      unixTimestampToDateVec t v
        = .ok (true, v ++ [((utcDate t).year : ℝ), ((utcDate t).month : ℝ), ((utcDate t).day : ℝ), (hh : ℝ), (mm : ℝ), (ss : ℝ)]) := by
  have e : t / 1000000 / 86400 = t / dayMicros := by simp only [dayMicros]; omega
  have := (dateVec_nonneg (t / 1000000) (Int.ediv_nonneg h0 (by norm_num)) v).1
  rw [e] at this
  rw [unix_R h, Int.tdiv_eq_ediv_of_nonneg h0]
  exact this hdec

/-- non-vacuity: 29 February 1972 -/
example : utcDate (789 * dayMicros + 5) = ⟨1972, 2, 29⟩ := by
  have h : ((789 * dayMicros + 5) / dayMicros).toNat = yearLen 1970 + (yearLen 1971 + 59) := by decide
  rw [utcDate, dateOfDay, h, iter_add, iter_year, iter_add, show (1970 + 1 : Int) = 1971 from rfl, iter_year]
  decide +kernel

/-- C01/C02 fail on 31 December of every year: the month loop reads past its table. -/
theorem C01_dec31_fails (t : Int) (h0 : 0 ≤ t) (h : IsInt64 t) (hdec : (utcDate t).month = 12 ∧ (utcDate t).day = 31) (v : List ℝ) :
    unixTimestampToDateVec t v = Out.ub .index := by
  have e : t / 1000000 / 86400 = t / dayMicros := by simp only [dayMicros]; omega
  have := (dateVec_nonneg (t / 1000000) (Int.ediv_nonneg h0 (by norm_num)) v).2
  rw [e] at this
  rw [unix_R h, Int.tdiv_eq_ediv_of_nonneg h0]
  exact this hdec

/-- C02: exactly which timestamps run into undefined behaviour. -/
theorem C02_defined_partial (t : Int) (h : IsInt64 t) (v : List ℝ) :
    (∃ r, unixTimestampToDateVec t v = .ok r) ↔ -dayMicros < t ∧ ¬(0 ≤ t ∧ (utcDate t).month = 12 ∧ (utcDate t).day = 31) := by
  constructor
  · rintro ⟨r, hr⟩
    refine ⟨?_, fun hd => ?_⟩
    · by_contra hlt
      have ht : Int.tdiv t 1000000 ≤ -86400 := by
        have := Int.tdiv_eq_ediv_of_nonneg (a := -t) (b := 1000000) (by simp [dayMicros] at hlt; omega)
        rw [Int.neg_tdiv] at this
        simp [dayMicros] at hlt; omega
      rw [unix_R h, (dateVec_neg _ (by omega) v).1 ht] at hr
      cases hr
    · rw [C01_dec31_fails t hd.1 h hd.2] at hr
      cases hr
  · rintro ⟨h1, h2⟩
    rcases le_or_gt 0 t with h0 | h0
    · obtain ⟨_, _, _, -, -, -, -, e⟩ := C01_date_partial t h0 h (fun hd => h2 ⟨h0, hd⟩) v
      exact ⟨_, e⟩
    · have ht : -86400 < Int.tdiv t 1000000 ∧ Int.tdiv t 1000000 ≤ 0 := by
        have := Int.tdiv_eq_ediv_of_nonneg (a := -t) (b := 1000000) (by omega)
        rw [Int.neg_tdiv] at this
        simp [dayMicros] at h1; omega
      rw [unix_R h]
      rcases lt_or_eq_of_le ht.2 with hs | hs
      · obtain ⟨_, _, _, -, -, e⟩ := (dateVec_neg _ hs v).2 ht.1
        exact ⟨_, e⟩
      · rw [hs]
        obtain ⟨_, _, _, -, -, -, -, e⟩ := (dateVec_nonneg 0 (le_refl _) v).1 (by decide)
        exact ⟨_, e⟩

/-- C02 fails: New Year's Eve 1970 and a timestamp in 1969 are undefined behaviour. -/
theorem C02_witness_fails (v : List ℝ) : unixTimestampToDateVec 31535999000000 v = Out.ub .index ∧
    unixTimestampToDateVec (-dayMicros) v = Out.ub .index := by
  constructor
  · exact C01_dec31_fails _ (by norm_num) (by constructor <;> norm_num) (by decide +kernel) v
  · rw [unix_R (by constructor <;> norm_num)]
    exact (dateVec_neg _ (by decide) v).1 (by decide)

/-- C03 fails for every negative timestamp: undefined behaviour, or 1970-01-01 (a date after the instant) with fields that sum to a
negative time of day, or midnight of the epoch for the last second before it. -/
theorem C03_negative_fails (t : Int) (h0 : t < 0) (h : IsInt64 t) (v : List ℝ) :
    unixTimestampToDateVec t v = Out.ub .index ∨
    ∃ hh mm ss : Int, (hh ≤ 0 ∧ mm ≤ 0 ∧ ss ≤ 0) ∧ (t ≤ -1000000 → 3600 * hh + 60 * mm + ss < 0) ∧
      unixTimestampToDateVec t v = .ok (true, v ++ [1970, 1, 1, (hh : ℝ), (mm : ℝ), (ss : ℝ)]) := by
  rw [unix_R h]
  have hn := Int.tdiv_eq_ediv_of_nonneg (a := -t) (b := 1000000) (by omega)
  rw [Int.neg_tdiv] at hn
  rcases lt_or_ge (Int.tdiv t 1000000) 0 with h1 | h1
  · rcases le_or_gt (Int.tdiv t 1000000) (-86400) with h2 | h2
    · exact Or.inl ((dateVec_neg _ h1 v).1 h2)
    · obtain ⟨hh, mm, ss, a, b, c⟩ := (dateVec_neg _ h1 v).2 h2
      refine Or.inr ⟨hh, mm, ss, a, fun _ => by omega, ?_⟩
      rw [c]; simp [rsimp]
  · have hz : Int.tdiv t 1000000 = 0 := by omega
    refine Or.inr ⟨0, 0, 0, by omega, fun _ => by omega, ?_⟩
    rw [hz]
    obtain ⟨hh, mm, ss, b1, b2, b3, b4, b5⟩ := (dateVec_nonneg 0 (le_refl _) v).1 (by decide)
    have z1 : hh = 0 := by omega
    have z2 : mm = 0 := by omega
    have z3 : ss = 0 := by omega
    rw [b5, z1, z2, z3]
    simp [rsimp, dateOfDay, iter]

/-- C03 at a concrete instant: 1969-12-31 23:59:58 UTC comes out as 1970-01-01 00:00:-2. -/
example (v : List ℝ) : unixTimestampToDateVec (-2000000) v = .ok (true, v ++ [1970, 1, 1, 0, 0, -2]) := by
  rw [unix_R (by constructor <;> norm_num)]
  obtain ⟨hh, mm, ss, a, b, c⟩ := (dateVec_neg (Int.tdiv (-2000000) 1000000) (by decide) v).2 (by decide)
  have e : Int.tdiv (-2000000) 1000000 = -2 := by decide
  rw [e] at b c ⊢
  have z1 : hh = 0 := by omega
  have z2 : mm = 0 := by omega
  have z3 : ss = -2 := by omega
  rw [c, z1, z2, z3]; simp [rsimp]

end NavFuse.Props
