import Verif.Lemmas.Mjd
import Verif.Props.Calendar
import Verif.XR

/-! # Modified Julian Dates: C06-C09 -/

set_option linter.unusedSimpArgs false

namespace NavFuse.Props
open Spec Rotations

/-- the date vector of midnight of a date -/
noncomputable def midnightVec (D : Date) : List ℝ := [D.year, D.month, D.day, 0, 0, 0]

theorem dateBad_R (m d h mi s : ℝ) : dateBad m d h mi s = false ↔
    (0 ≤ m ∧ m ≤ 12) ∧ (0 ≤ d ∧ d ≤ 31) ∧ (0 ≤ h ∧ h ≤ 23) ∧ (0 ≤ mi ∧ mi ≤ 59) ∧ (0 ≤ s ∧ s ≤ 59) := by
  have ltF : ∀ x y : ℝ, Flt.lt x y = false ↔ y ≤ x := fun x y => by rw [← not_lt, ← R_lt, Bool.not_eq_true]
  simp only [dateBad, Bool.or_eq_false_iff, ltF, rsimp]
  tauto

theorem convert_R (y m d h mi s : ℝ) (mjd : ℝ) :
    convertDatevec2Mjd [y, m, d, h, mi, s] mjd
      = if dateBad m d h mi s then .ok (false, mjd) else .ok (true, mjdMidnight y m d + fracDay h mi s) := by
  simp [convertDatevec2Mjd, vecGet, osimp]

theorem fracDay_R (h mi s : ℝ) : fracDay h mi s = (3600 * h + 60 * mi + s) / 86400 := by
  simp only [fracDay, rsimp]; ring

theorem monthLen_le (l : Bool) (m : Int) : monthLen l m ≤ 31 := by
  unfold monthLen; split_ifs <;> omega

/-- accepted dates and times, with the date taken from the calendar -/
theorem convert_date {D : Date} (hD : D.Valid) {h mi s : ℝ} (hh : 0 ≤ h ∧ h ≤ 23) (hm : 0 ≤ mi ∧ mi ≤ 59) (hs : 0 ≤ s ∧ s ≤ 59) (mjd : ℝ) :
    convertDatevec2Mjd [(D.year : ℝ), (D.month : ℝ), (D.day : ℝ), h, mi, s] mjd
      = .ok (true, (mjdZ D : ℝ) + (3600 * h + 60 * mi + s) / 86400) := by
  have hb : dateBad (D.month : ℝ) (D.day : ℝ) h mi s = false := by
    rw [dateBad_R]
    refine ⟨⟨?_, ?_⟩, ⟨?_, ?_⟩, hh, hm, hs⟩
    · have := hD.month.1; exact_mod_cast (by omega : 0 ≤ D.month)
    · exact_mod_cast hD.month.2
    · have := hD.day.1; exact_mod_cast (by omega : 0 ≤ D.day)
    · exact_mod_cast hD.day.2.trans (monthLen_le _ _)
  rw [convert_R, hb, mjdMidnight_R, fracDay_R]
  simp

theorem mjdZ_iter (D : Date) (hD : D.Valid) (n : Nat) :
    (iter Date.civilNext n D).Valid ∧ mjdZ (iter Date.civilNext n D) = mjdZ D + n := by
  induction n generalizing D with
  | zero => simp [iter, hD]
  | succ n ih =>
    obtain ⟨a, b⟩ := ih _ (civilNext_valid D hD)
    refine ⟨a, ?_⟩
    rw [iter, b, mjdZ_next D hD]; push_cast; ring

/-- C06: midnight of every calendar date has an integer MJD, `n` days later it is `n` more, and MJD 0 is 17 November 1858. -/
theorem C06_day_counter (D : Date) (hD : D.Valid) (mjd : ℝ) :
    ∃ N : Int, convertDatevec2Mjd (midnightVec D) mjd = .ok (true, (N : ℝ)) ∧
      (∀ n : Nat, convertDatevec2Mjd (midnightVec (iter Date.civilNext n D)) mjd = .ok (true, ((N + n : Int) : ℝ))) ∧
      (D = ⟨1858, 11, 17⟩ → N = 0) := by
  have key : ∀ E : Date, E.Valid → convertDatevec2Mjd (midnightVec E) mjd = .ok (true, (mjdZ E : ℝ)) := by
    intro E hE
    have := convert_date hE (h := 0) (mi := 0) (s := 0) (by norm_num) (by norm_num) (by norm_num) mjd
    rw [midnightVec, this]; simp
  refine ⟨mjdZ D, key D hD, fun n => ?_, ?_⟩
  · obtain ⟨a, b⟩ := mjdZ_iter D hD n
    rw [key _ a, b]
  · rintro rfl; decide

/-- non-vacuity: the Julian calendar's last day, and the day after -/
example : Date.Valid ⟨1582, 10, 4⟩ ∧ Date.civilNext ⟨1582, 10, 4⟩ = ⟨1582, 10, 15⟩ :=
  ⟨⟨by norm_num, by norm_num [monthLen], by norm_num⟩, by simp [Date.civilNext]⟩

theorem greg_civil (n : Nat) : ∀ D : Date, 1582 < D.year →
    iter Date.gregNext n D = iter Date.civilNext n D := by
  induction n with
  | zero => intro D _; rfl
  | succ n ih =>
    intro D h
    have e : D.gregNext = D.civilNext := by
      rw [Date.civilNext, if_neg (by rintro rfl; simp at h), Date.gregNext]
      have : decide (gregLeap D.year) = decide (civilLeap D.year) := by
        have : civilLeap D.year = gregLeap D.year := if_neg (by omega)
        simp only [this]
      rw [this]
    have h2 : 1582 < D.gregNext.year := by
      simp only [Date.gregNext, Date.succWith]; split_ifs <;> simp only <;> omega
    rw [iter, iter, ih _ h2, e]

theorem utc_valid (n : Nat) : (dateOfDay n).Valid ∧ mjdZ (dateOfDay n) = 40587 + n := by
  have h0 : Date.Valid ⟨1970, 1, 1⟩ := ⟨by norm_num, by norm_num [monthLen], by norm_num⟩
  have := mjdZ_iter ⟨1970, 1, 1⟩ h0 n
  rw [dateOfDay, greg_civil n ⟨1970, 1, 1⟩ (by norm_num)]
  exact ⟨this.1, by rw [this.2]; norm_num [mjdZ]⟩

/-- C07: timestamp to date vector to MJD gives 40587 plus the whole seconds since the epoch in days. -/
theorem C07_timestamp_mjd (t : Int) (h0 : 0 ≤ t) (h : IsInt64 t) (hdec : ¬((utcDate t).month = 12 ∧ (utcDate t).day = 31)) (mjd : ℝ) :
    ∃ v : List ℝ, unixTimestampToDateVec t [] = .ok (true, v) ∧
      convertDatevec2Mjd v mjd = .ok (true, 40587 + ((t / 1000000 : Int) : ℝ) / 86400) := by
  obtain ⟨hh, mm, ss, a, b, c, d, e⟩ := C01_date_partial t h0 h hdec []
  refine ⟨_, e, ?_⟩
  obtain ⟨hv, hz⟩ := utc_valid (t / dayMicros).toNat
  have cast : ∀ (x k : Int), 0 ≤ x ∧ x < k + 1 → (0 : ℝ) ≤ x ∧ (x : ℝ) ≤ k := by
    intro x k hx
    exact ⟨by exact_mod_cast hx.1, by exact_mod_cast (by omega : x ≤ k)⟩
  have := convert_date (D := utcDate t) hv (by have := cast hh 23 a; push_cast at this; exact this)
    (by have := cast mm 59 b; push_cast at this; exact this) (by have := cast ss 59 c; push_cast at this; exact this) mjd
  rw [List.nil_append, this]
  have hz' : mjdZ (utcDate t) = 40587 + t / 1000000 / 86400 := by
    rw [utcDate, hz]; simp only [dayMicros] at *; omega
  have hsum : t / 1000000 = 86400 * (t / 1000000 / 86400) + (3600 * hh + 60 * mm + ss) := by rw [d]; omega
  have hsum' : ((t / 1000000 : Int) : ℝ) = 86400 * ((t / 1000000 / 86400 : Int) : ℝ) + (3600 * hh + 60 * mm + ss) := by
    exact_mod_cast hsum
  rw [hz', hsum']
  push_cast
  congr 2
  ring

/-- C08: the integer part of the MJD is the day, and within a day it is strictly increasing in the time of day. -/
theorem C08_order (D : Date) (hD : D.Valid) (h mi s h' mi' s' mjd : ℝ) (hh : 0 ≤ h ∧ h ≤ 23) (hm : 0 ≤ mi ∧ mi ≤ 59)
    (hs : 0 ≤ s ∧ s ≤ 59) (hh' : 0 ≤ h' ∧ h' ≤ 23) (hm' : 0 ≤ mi' ∧ mi' ≤ 59) (hs' : 0 ≤ s' ∧ s' ≤ 59) :
    ∃ x x' N : ℝ, convertDatevec2Mjd [(D.year : ℝ), (D.month : ℝ), (D.day : ℝ), h, mi, s] mjd = .ok (true, x) ∧
      convertDatevec2Mjd [(D.year : ℝ), (D.month : ℝ), (D.day : ℝ), h', mi', s'] mjd = .ok (true, x') ∧
      convertDatevec2Mjd (midnightVec D) mjd = .ok (true, N) ∧ (⌊x⌋ : ℝ) = N ∧
      (x < x' ↔ 3600 * h + 60 * mi + s < 3600 * h' + 60 * mi' + s') := by
  refine ⟨_, _, _, convert_date hD hh hm hs mjd, convert_date hD hh' hm' hs' mjd,
    convert_date (D := D) hD (h := 0) (mi := 0) (s := 0) (by norm_num) (by norm_num) (by norm_num) mjd, ?_, ?_⟩
  · norm_num
    constructor
    · exact div_nonneg (by linarith [hh.1, hm.1, hs.1]) (by norm_num)
    · rw [div_lt_iff₀ (by norm_num)]
      linarith [hh.2, hm.2, hs.2]
  · rw [add_lt_add_iff_left, div_lt_div_iff_of_pos_right (by norm_num)]

example : Date.Valid ⟨2024, 2, 29⟩ := ⟨by norm_num, by decide, by norm_num⟩

/-- what C09 asks for: a date of the calendar and a time of day, as six numbers -/
def RealDate (v : List ℝ) : Prop :=
  ∃ (D : Date) (h mi : Int) (s : ℝ), D.Valid ∧ (0 ≤ h ∧ h < 24) ∧ (0 ≤ mi ∧ mi < 60) ∧ (0 ≤ s ∧ s < 60) ∧
    v = [(D.year : ℝ), (D.month : ℝ), (D.day : ℝ), (h : ℝ), (mi : ℝ), s]

/-- C09, the half that holds: every real date with at most 59 whole seconds is accepted, and exactly the vectors inside the box of field
ranges are. -/
theorem C09_accept_partial (v : List ℝ) (mjd : ℝ) : (RealDate v → (∀ s, v[5]? = some s → s ≤ 59) → ∃ x, convertDatevec2Mjd v mjd = .ok (true, x)) ∧
    (∀ y m d h mi s, v = [y, m, d, h, mi, s] → ((∃ x, convertDatevec2Mjd v mjd = .ok (true, x)) ↔
      (0 ≤ m ∧ m ≤ 12) ∧ (0 ≤ d ∧ d ≤ 31) ∧ (0 ≤ h ∧ h ≤ 23) ∧ (0 ≤ mi ∧ mi ≤ 59) ∧ (0 ≤ s ∧ s ≤ 59))) := by
  constructor
  · rintro ⟨D, h, mi, s, hD, hh, hm, hs, rfl⟩ h59
    have cast : ∀ (x k : Int), 0 ≤ x ∧ x < k + 1 → (0 : ℝ) ≤ x ∧ (x : ℝ) ≤ k := by
      intro x k hx
      exact ⟨by exact_mod_cast hx.1, by exact_mod_cast (by omega : x ≤ k)⟩
    exact ⟨_, convert_date hD (by have := cast h 23 hh; push_cast at this; exact this)
      (by have := cast mi 59 hm; push_cast at this; exact this) ⟨hs.1, h59 s (by simp)⟩ mjd⟩
  · rintro y m d h mi s rfl
    rw [convert_R, ← dateBad_R]
    cases hb : dateBad m d h mi s <;> simp

/-- C09 fails both ways: 31 February and "day 0 of month 0" are accepted, the last second of a minute is refused. -/
theorem C09_real_dates_fails (mjd : ℝ) :
    (∃ x, convertDatevec2Mjd [2023, 2, 31, 0, 0, 0] mjd = .ok (true, x)) ∧ ¬ RealDate [2023, 2, 31, 0, 0, 0] ∧
    (∃ x, convertDatevec2Mjd [2023, 0, 0, 0, 0, 0] mjd = .ok (true, x)) ∧ ¬ RealDate [2023, 0, 0, 0, 0, 0] ∧
    RealDate [2023, 6, 1, 12, 0, 59.5] ∧ convertDatevec2Mjd [2023, 6, 1, 12, 0, 59.5] mjd = .ok (false, mjd) := by
  refine ⟨?_, ?_, ?_, ?_, ?_, ?_⟩
  · exact ((C09_accept_partial _ mjd).2 2023 2 31 0 0 0 rfl).2 (by norm_num)
  · rintro ⟨D, h, mi, s, hD, -, -, -, e⟩
    simp only [List.cons.injEq] at e
    have hy : D.year = 2023 := by exact_mod_cast e.1.symm
    have hm : D.month = 2 := by exact_mod_cast e.2.1.symm
    have hd : D.day = 31 := by exact_mod_cast e.2.2.1.symm
    have := hD.day.2
    rw [hm, hd] at this
    simp only [monthLen] at this
    split_ifs at this <;> omega
  · exact ((C09_accept_partial _ mjd).2 2023 0 0 0 0 0 rfl).2 (by norm_num)
  · rintro ⟨D, h, mi, s, hD, -, -, -, e⟩
    simp only [List.cons.injEq] at e
    have hm : D.month = 0 := by exact_mod_cast e.2.1.symm
    have := hD.month.1
    omega
  · exact ⟨⟨2023, 6, 1⟩, 12, 0, 59.5, ⟨by norm_num, by decide, by norm_num⟩, by norm_num, by norm_num, by norm_num, by norm_num⟩
  · rw [convert_R]
    have : dateBad (6 : ℝ) 1 12 0 59.5 = true := by
      rw [← Bool.not_eq_false, dateBad_R]; norm_num
    rw [this]; simp

/-- C09 fails further in doubles: a vector of NaNs passes every check. -/
theorem C09_nan_fails (mjd : XR) : ∃ x, convertDatevec2Mjd [XR.nan, .nan, .nan, .nan, .nan, .nan] mjd = .ok (true, x) := by
  refine ⟨mjdMidnight XR.nan .nan .nan + fracDay XR.nan .nan .nan, ?_⟩
  have : dateBad XR.nan .nan .nan .nan .nan = false := by simp [dateBad, xsimp]
  simp [convertDatevec2Mjd, vecGet, osimp, this]

end NavFuse.Props
