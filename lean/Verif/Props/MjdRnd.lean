import Verif.Props.CalendarRnd
import Verif.Lemmas.Rounding

/-! # Modified Julian Dates in rounded arithmetic: C106 -/

set_option linter.unusedSimpArgs false

namespace NavFuse.Props
open Spec Rotations
variable [Machine] {r : ℝ → ℝ}

/-- a whole number, as a rounded value -/
noncomputable def whole (n : Int) : Rnd r := ⟨(n : ℝ)⟩

omit [Machine] in
theorem whole_add (hr : Rounds53 r) (a b : Int) (h : |a + b| ≤ 2 ^ 53) : (whole a + whole b : Rnd r) = whole (a + b) := by
  show (⟨r ((a : ℝ) + b)⟩ : Rnd r) = ⟨_⟩
  rw [← Int.cast_add, hr.int _ h]

omit [Machine] in
theorem whole_sub (hr : Rounds53 r) (a b : Int) (h : |a - b| ≤ 2 ^ 53) : (whole a - whole b : Rnd r) = whole (a - b) := by
  show (⟨r ((a : ℝ) - b)⟩ : Rnd r) = ⟨_⟩
  rw [← Int.cast_sub, hr.int _ h]

omit [Machine] in
theorem whole_mul (hr : Rounds53 r) (a b : Int) (h : |a * b| ≤ 2 ^ 53) : (whole a * whole b : Rnd r) = whole (a * b) := by
  show (⟨r ((a : ℝ) * b)⟩ : Rnd r) = ⟨_⟩
  rw [← Int.cast_mul, hr.int _ h]

omit [Machine] in
theorem whole_neg (a : Int) : (-whole a : Rnd r) = whole (-a) := by
  show (⟨-(a : ℝ)⟩ : Rnd r) = ⟨_⟩
  rw [← Int.cast_neg]

theorem lit_whole (hr : Rounds53 r) (q : ℚ) (n : Int) (hq : q = n) (h : |n| ≤ 2 ^ 53) : (Flt.lit q : Rnd r) = whole n := by
  show (⟨r (q : ℝ)⟩ : Rnd r) = ⟨_⟩
  rw [hq, Rat.cast_intCast, hr.int _ h]

theorem whole_le (a b : Int) : Flt.le (whole a : Rnd r) (whole b) = decide (a ≤ b) := by
  show decide ((a : ℝ) ≤ b) = _
  simp

theorem whole_floor_div (hr : Rounds53 r) (a k : Int) (hk : 0 < k) (hk2 : k ≤ 2 ^ 10) (ha : |a| < 2 ^ 33) :
    Flt.floor (whole a / whole k : Rnd r) = whole (a / k) := by
  show (⟨((⌊r ((a : ℝ) / k)⌋ : Int) : ℝ)⟩ : Rnd r) = ⟨_⟩
  have hk' : (0 : ℝ) < k := by exact_mod_cast hk
  have h1 := Int.emod_add_mul_ediv a k
  have h2 := Int.emod_nonneg a hk.ne'
  have h3 := Int.emod_lt_of_pos a hk
  obtain ⟨a1, a2⟩ := abs_lt.1 ha
  rw [round_floor hr (a / k)]
  · rw [abs_lt]
    constructor
    · have : -(2 ^ 33) + 1 ≤ a / k := Int.le_ediv_of_mul_le hk (by nlinarith)
      linarith
    · refine Int.ediv_lt_of_lt_mul hk ?_
      nlinarith
  · rw [le_div_iff₀ hk']
    have : a / k * k ≤ a := by nlinarith
    exact_mod_cast this
  · rw [div_le_iff₀ hk']
    have h5 : (a : ℝ) + 1 ≤ (((a / k : Int) : ℝ) + 1) * k := by
      have : a + 1 ≤ (a / k + 1) * k := by nlinarith
      exact_mod_cast this
    have : (k : ℝ) ≤ 2 ^ 10 := by exact_mod_cast hk2
    nlinarith

/-- the days of the months before, with the constant 30.6001 and the product both rounded -/
theorem months_rnd (hr : Rounds53 r) (m : Int) (h1 : 3 ≤ m) (h2 : m ≤ 14) :
    Flt.floor (Flt.lit 30.6001 * whole (m + 1) : Rnd r) = whole (306001 * (m + 1) / 10000) := by
  show (⟨((⌊r (r ((30.6001 : ℚ) : ℝ) * ((m + 1 : Int) : ℝ))⌋ : Int) : ℝ)⟩ : Rnd r) = ⟨_⟩
  have e := hr.err 5 ((30.6001 : ℚ) : ℝ) (by norm_num [abs_of_pos])
  set c := r ((30.6001 : ℚ) : ℝ)
  have hc : |c - 30.6001| ≤ 1 / 2 ^ 48 := by
    have : (((30.6001 : ℚ) : ℝ)) = 30.6001 := by norm_num
    rw [this] at e
    refine e.trans (le_of_eq ?_)
    norm_num
  obtain ⟨c1, c2⟩ := abs_le.1 hc
  rw [round_floor hr (306001 * (m + 1) / 10000)]
  · rw [abs_lt]; constructor <;> omega
  · interval_cases m <;> norm_num at * <;> linarith
  · interval_cases m <;> norm_num at * <;> linarith

theorem mjdMidnight_rnd (hr : Rounds53 r) (D : Date) (hy : |D.year| ≤ 10 ^ 9) (hm : 1 ≤ D.month ∧ D.month ≤ 12) (hd : 1 ≤ D.day ∧ D.day ≤ 31) :
    mjdMidnight (whole D.year : Rnd r) (whole D.month) (whole D.day) = whole (mjdZ D) := by
  obtain ⟨y, m, d⟩ := D
  simp only at hy hm hd
  obtain ⟨y1, y2⟩ := abs_le.1 hy
  have L : ∀ n : Int, |n| ≤ 2 ^ 53 → (Flt.lit ((n : Int) : ℚ) : Rnd r) = whole n := fun n h => lit_whole hr _ n rfl h
  have l1 := L 1 (by norm_num); have l12 := L 12 (by norm_num); have l10000 := L 10000 (by norm_num); have l100 := L 100 (by norm_num)
  have l2 := L 2 (by norm_num); have l4 := L 4 (by norm_num); have l4716 := L 4716 (by norm_num); have l1179 := L 1179 (by norm_num)
  have l400 := L 400 (by norm_num); have l365 := L 365 (by norm_num); have l6 := L 679004 (by norm_num); have lg := L 15821004 (by norm_num)
  push_cast at l1 l12 l10000 l100 l2 l4 l4716 l1179 l400 l365 l6 lg
  have key : ∀ y m : Int, -10 ^ 9 - 1 ≤ y → y ≤ 10 ^ 9 → 3 ≤ m → m ≤ 14 →
      ((((whole 365 * whole y) - whole 679004) + (if Flt.le (((whole 10000 * whole y) + (whole 100 * whole m)) + whole d) (whole 15821004 : Rnd r) then
          (-whole 2 + Flt.floor ((whole y + whole 4716) / whole 4)) - whole 1179
        else (Flt.floor (whole y / whole 400) - Flt.floor (whole y / whole 100)) + Flt.floor (whole y / whole 4)))
        + Flt.floor (Flt.lit 30.6001 * (whole m + whole 1))) + whole d
      = (whole (365 * y - 679004 + (if 10000 * y + 100 * m + d ≤ 15821004 then y / 4 - 2 else y / 400 - y / 100 + y / 4)
        + 306001 * (m + 1) / 10000 + d) : Rnd r) := by
    intro y m y1 y2 m1 m2
    have ab : ∀ z : Int, -(2 ^ 53) ≤ z ∧ z ≤ 2 ^ 53 → |z| ≤ 2 ^ 53 := fun z h => abs_le.2 h
    rw [whole_mul hr 365 y (ab _ (by omega)), whole_sub hr _ 679004 (ab _ (by omega)), whole_mul hr 10000 y (ab _ (by omega)),
      whole_mul hr 100 m (ab _ (by omega)), whole_add hr _ _ (ab _ (by omega)), whole_add hr _ d (ab _ (by omega)), whole_le,
      whole_add hr y 4716 (ab _ (by omega)), whole_floor_div hr _ 4 (by norm_num) (by norm_num) (abs_lt.2 (by omega)),
      whole_floor_div hr _ 4 (by norm_num) (by norm_num) (abs_lt.2 (by omega)),
      whole_floor_div hr _ 400 (by norm_num) (by norm_num) (abs_lt.2 (by omega)),
      whole_floor_div hr _ 100 (by norm_num) (by norm_num) (abs_lt.2 (by omega)),
      whole_add hr m 1 (ab _ (by omega)), months_rnd hr m m1 m2, whole_neg, whole_add hr _ _ (ab _ (by omega)),
      whole_sub hr _ 1179 (ab _ (by omega)), whole_sub hr _ _ (ab _ (by omega)), whole_add hr _ _ (ab _ (by omega))]
    have hif : (if decide (10000 * y + 100 * m + d ≤ 15821004) = true then (whole (-2 + (y + 4716) / 4 - 1179) : Rnd r)
        else whole (y / 400 - y / 100 + y / 4)) = whole (if 10000 * y + 100 * m + d ≤ 15821004 then y / 4 - 2 else y / 400 - y / 100 + y / 4) := by
      by_cases h : 10000 * y + 100 * m + d ≤ 15821004
      · simp only [h, decide_true, if_true]; congr 1; omega
      · simp only [h, decide_false, if_false]; rfl
    rw [hif]
    generalize hb : (if 10000 * y + 100 * m + d ≤ 15821004 then y / 4 - 2 else y / 400 - y / 100 + y / 4) = b
    have b1 : -10 ^ 9 ≤ b ∧ b ≤ 10 ^ 9 := by rw [← hb]; split_ifs <;> omega
    rw [whole_add hr _ b (ab _ (by omega)), whole_add hr _ _ (ab _ (by omega)), whole_add hr _ d (ab _ (by omega))]
  by_cases h : m ≤ 2
  · have k := key (y - 1) (m + 12) (by omega) (by omega) (by omega) (by omega)
    simp only [mjdMidnight, l1, l12, l10000, l100, l2, l4, l4716, l1179, l400, l365, l6, lg, whole_le, h, decide_true, if_true, mjdZ]
    rw [whole_sub hr y 1 (abs_le.2 (by omega)), whole_add hr m 12 (abs_le.2 (by omega)), k]
  · have k := key y m (by omega) (by omega) (by omega) (by omega)
    simp only [mjdMidnight, l1, l12, l10000, l100, l2, l4, l4716, l1179, l400, l365, l6, lg, whole_le, h, decide_false, if_false, mjdZ]
    exact k

omit [Machine] in
theorem whole_val (n : Int) : (whole n : Rnd r).val = n := rfl

/-- the rounding errors of the fraction of the day -/
theorem fracDay_rnd (hr : Rounds53 r) (h mi s : Rnd r) (hh : 0 ≤ h.val ∧ h.val ≤ 23) (hm : 0 ≤ mi.val ∧ mi.val ≤ 59) (hs : 0 ≤ s.val ∧ s.val ≤ 59) :
    |(fracDay h mi s).val - (3600 * h.val + 60 * mi.val + s.val) / 86400| ≤ 1 / 2 ^ 51 := by
  obtain ⟨h⟩ := h; obtain ⟨mi⟩ := mi; obtain ⟨s⟩ := s
  simp only at hh hm hs ⊢
  have e60 : r ((60 : ℚ) : ℝ) = 60 := by have := hr.int 60 (by norm_num); push_cast at this ⊢; exact this
  have e36 : r ((3600 : ℚ) : ℝ) = 3600 := by have := hr.int 3600 (by norm_num); push_cast at this ⊢; exact this
  have e24 : r ((24 : ℚ) : ℝ) = 24 := by have := hr.int 24 (by norm_num); push_cast at this ⊢; exact this
  show |r (r (r (h + r (mi / r ((60 : ℚ) : ℝ))) + r (s / r ((3600 : ℚ) : ℝ))) / r ((24 : ℚ) : ℝ)) - _| ≤ _
  rw [e60, e36, e24]
  have n1 := hr.err 0 (mi / 60) (by rw [abs_of_nonneg (by linarith [hm.1])]; norm_num; linarith)
  have n2 := hr.err 0 (s / 3600) (by rw [abs_of_nonneg (by linarith [hs.1])]; norm_num; linarith)
  norm_num at n1 n2
  generalize r (mi / 60) = a at *
  generalize r (s / 3600) = b at *
  have n3 := hr.near 5 (x := h + a) (y := h + mi / 60) (d := 1 / 9007199254740992) (by rw [add_sub_add_left_eq_sub]; exact n1)
    (by rw [abs_of_nonneg (by linarith)]; norm_num; linarith)
  norm_num at n3
  generalize r (h + a) = c at *
  have t1 : |c + b - (h + mi / 60 + s / 3600)| ≤ 34 / 9007199254740992 := by
    have := abs_add_le (c - (h + mi / 60)) (b - s / 3600)
    rw [show c - (h + mi / 60) + (b - s / 3600) = c + b - (h + mi / 60 + s / 3600) by ring] at this
    refine this.trans ?_
    norm_num at n2 n3 ⊢
    linarith
  have n4 := hr.near 5 t1 (by rw [abs_of_nonneg (by linarith)]; norm_num; linarith)
  norm_num at n4
  generalize r (c + b) = d at *
  have t2 : |d / 24 - (3600 * h + 60 * mi + s) / 86400| ≤ (33 / 4503599627370496) / 24 := by
    rw [show d / 24 - (3600 * h + 60 * mi + s) / 86400 = (d - (h + mi / 60 + s / 3600)) / 24 by ring, abs_div, abs_of_pos (by norm_num : (0 : ℝ) < 24)]
    refine div_le_div_of_nonneg_right (n4.trans ?_) (by norm_num)
    norm_num
  have n5 := hr.near 0 t2 (by rw [abs_of_nonneg (by linarith)]; norm_num; linarith)
  refine n5.trans ?_
  norm_num

theorem dateBad_rnd (hr : Rounds53 r) (m d h mi s : Rnd r) (h1 : 0 ≤ m.val ∧ m.val ≤ 12) (h2 : 0 ≤ d.val ∧ d.val ≤ 31)
    (h3 : 0 ≤ h.val ∧ h.val ≤ 23) (h4 : 0 ≤ mi.val ∧ mi.val ≤ 59) (h5 : 0 ≤ s.val ∧ s.val ≤ 59) : dateBad m d h mi s = false := by
  have L : ∀ n : Int, |n| ≤ 2 ^ 53 → (Flt.lit ((n : Int) : ℚ) : Rnd r) = whole n := fun n h => lit_whole hr _ n rfl h
  have l0 := L 0 (by norm_num); have l12 := L 12 (by norm_num); have l31 := L 31 (by norm_num); have l23 := L 23 (by norm_num)
  have l59 := L 59 (by norm_num)
  push_cast at l0 l12 l31 l23 l59
  have up : ∀ (n : Int) (x : Rnd r), x.val ≤ n → Flt.lt (whole n) x = false := fun n x hx => decide_eq_false (by rw [whole_val]; exact not_lt.2 hx)
  have lo : ∀ (n : Int) (x : Rnd r), (n : ℝ) ≤ x.val → Flt.lt x (whole n) = false := fun n x hx => decide_eq_false (by rw [whole_val]; exact not_lt.2 hx)
  rw [dateBad, l0, l12, l31, l23, l59, up 12 m (by exact_mod_cast h1.2), lo 0 m (by exact_mod_cast h1.1), up 31 d (by exact_mod_cast h2.2),
    lo 0 d (by exact_mod_cast h2.1), up 23 h (by exact_mod_cast h3.2), lo 0 h (by exact_mod_cast h3.1), up 59 mi (by exact_mod_cast h4.2),
    lo 0 mi (by exact_mod_cast h4.1), up 59 s (by exact_mod_cast h5.2), lo 0 s (by exact_mod_cast h5.1)]
  rfl

theorem convert_rnd (hr : Rounds53 r) {D : Date} (hD : D.Valid) (hy : |D.year| ≤ 10 ^ 9) (h mi s : Rnd r) (hh : 0 ≤ h.val ∧ h.val ≤ 23)
    (hm : 0 ≤ mi.val ∧ mi.val ≤ 59) (hs : 0 ≤ s.val ∧ s.val ≤ 59) (mjd : Rnd r) :
    convertDatevec2Mjd [whole D.year, whole D.month, whole D.day, h, mi, s] mjd = .ok (true, whole (mjdZ D) + fracDay h mi s) := by
  have d31 := hD.day.2.trans (monthLen_le _ _)
  have hb := dateBad_rnd hr (whole D.month) (whole D.day) h mi s
    ⟨by rw [whole_val]; have := hD.month.1; exact_mod_cast (by omega : 0 ≤ D.month), by rw [whole_val]; exact_mod_cast hD.month.2⟩
    ⟨by rw [whole_val]; have := hD.day.1; exact_mod_cast (by omega : 0 ≤ D.day), by rw [whole_val]; exact_mod_cast d31⟩ hh hm hs
  simp only [convertDatevec2Mjd, vecGet, osimp, List.getElem?_cons_zero, List.getElem?_cons_succ, hb, mjdMidnight_rnd hr D hy hD.month ⟨hD.day.1, d31⟩]
  simp

/-- C106: in every rounding mode the MJD of midnight of a civil date up to a thousand million years away is the exact whole number. -/
theorem C106_midnight_exact (hr : Rounds53 r) (D : Date) (hD : D.Valid) (hy : |D.year| ≤ 10 ^ 9) (mjd : Rnd r) (mjd' : ℝ) :
    ∃ N : Int, convertDatevec2Mjd [whole D.year, whole D.month, whole D.day, whole 0, whole 0, whole 0] mjd = .ok (true, whole N) ∧
      convertDatevec2Mjd (midnightVec D) mjd' = .ok (true, (N : ℝ)) := by
  have z : (0 : ℝ) ≤ (whole 0 : Rnd r).val ∧ (whole 0 : Rnd r).val = 0 := by rw [whole_val]; norm_num
  refine ⟨mjdZ D, ?_, ?_⟩
  · rw [convert_rnd hr hD hy _ _ _ ⟨z.1, by rw [z.2]; norm_num⟩ ⟨z.1, by rw [z.2]; norm_num⟩ ⟨z.1, by rw [z.2]; norm_num⟩ mjd]
    have L : ∀ n : Int, |n| ≤ 2 ^ 53 → (Flt.lit ((n : Int) : ℚ) : Rnd r) = whole n := fun n h => lit_whole hr _ n rfl h
    have f0 : fracDay (whole 0 : Rnd r) (whole 0) (whole 0) = whole 0 := by
      have dv : ∀ q : ℚ, (whole 0 / Flt.lit q : Rnd r) = whole 0 := by
        intro q
        show (⟨r (((0 : Int) : ℝ) / _)⟩ : Rnd r) = ⟨_⟩
        rw [Int.cast_zero, zero_div, hr.zero]
      have ad : (whole 0 + whole 0 : Rnd r) = whole 0 := whole_add hr 0 0 (by norm_num)
      rw [fracDay, dv, dv, ad, ad, dv]
    have hz : |mjdZ D + 0| ≤ 2 ^ 53 := by
      obtain ⟨y1, y2⟩ := abs_le.1 hy
      have := hD.month; have := hD.day.1; have := hD.day.2.trans (monthLen_le _ _)
      rw [abs_le]; simp only [mjdZ]; split_ifs <;> constructor <;> omega
    rw [f0, whole_add hr _ _ hz, add_zero]
  · have := convert_date hD (h := 0) (mi := 0) (s := 0) (by norm_num) (by norm_num) (by norm_num) mjd'
    rw [midnightVec, this]; simp

/-- the timestamp, through the date vector, to the MJD, in rounded arithmetic -/
noncomputable def mjdOf (r : ℝ → ℝ) (t : Int) (v : List (Rnd r)) (mjd : Rnd r) : Out (Bool × Rnd r) :=
  unixTimestampToDateVec t v >>= fun w => convertDatevec2Mjd w.2 mjd

/-- the MJD of a time stamp: close to the exact one, and of the same day -/
theorem mjd_core (hr : Rounds53 r) (t : Int) (h0 : 0 ≤ t) (h : Near t) (hdec : ¬((utcDate t).month = 12 ∧ (utcDate t).day = 31)) (mjd : Rnd r) :
    ∃ x : Rnd r, mjdOf r t [] mjd = .ok (true, x) ∧ |x.val - (40587 + ((t / 1000000 : Int) : ℝ) / 86400)| ≤ 3 / 1000000 / 86400 ∧
      ⌊x.val⌋ = 40587 + t / 1000000 / 86400 := by
  obtain ⟨hh, mm, ss, a, b, c, d, w, e, f⟩ := C05_date_exact (r := r) hr t h0 h hdec []
  have inj : Function.Injective (Rnd.val : Rnd r → ℝ) := fun x y h => by cases x; cases y; exact congrArg _ h
  have hw : w = [whole (utcDate t).year, whole (utcDate t).month, whole (utcDate t).day, whole hh, whole mm, whole ss] :=
    List.map_injective_iff.2 inj (f.trans rfl)
  obtain ⟨hv, hz⟩ := utc_valid (t / dayMicros).toNat
  have hz' : mjdZ (utcDate t) = 40587 + t / 1000000 / 86400 := by
    rw [utcDate, hz]; simp only [dayMicros] at *; omega
  obtain ⟨t1, t2⟩ := h
  have hy : |(utcDate t).year| ≤ 10 ^ 9 := by
    have h1 := hv.month; have h2 := hv.day.1; have h3 := hv.day.2.trans (monthLen_le _ _)
    change 1 ≤ (utcDate t).month ∧ (utcDate t).month ≤ 12 at h1
    change 1 ≤ (utcDate t).day at h2
    change (utcDate t).day ≤ 31 at h3
    have hz2 := hz'
    simp only [mjdZ] at hz2
    rw [abs_le]
    split_ifs at hz2 <;> constructor <;> omega
  have cast : ∀ (x k : Int), 0 ≤ x ∧ x < k + 1 → (0 : ℝ) ≤ (whole x : Rnd r).val ∧ (whole x : Rnd r).val ≤ k := by
    intro x k hx
    rw [whole_val]
    exact ⟨by exact_mod_cast hx.1, by exact_mod_cast (by omega : x ≤ k)⟩
  have ca : (0 : ℝ) ≤ (whole hh : Rnd r).val ∧ (whole hh : Rnd r).val ≤ 23 := by have := cast hh 23 a; push_cast at this; exact this
  have cb : (0 : ℝ) ≤ (whole mm : Rnd r).val ∧ (whole mm : Rnd r).val ≤ 59 := by have := cast mm 59 b; push_cast at this; exact this
  have cc : (0 : ℝ) ≤ (whole ss : Rnd r).val ∧ (whole ss : Rnd r).val ≤ 59 := by have := cast ss 59 c; push_cast at this; exact this
  have cv := convert_rnd hr (D := utcDate t) hv hy _ _ _ ca cb cc mjd
  refine ⟨whole (mjdZ (utcDate t)) + fracDay (whole hh) (whole mm) (whole ss), ?_, ?_⟩
  · rw [mjdOf, e]
    show convertDatevec2Mjd ([] ++ w) mjd = _
    rw [List.nil_append, hw, cv]
  · have fe := fracDay_rnd hr _ _ _ ca cb cc
    simp only [whole_val] at fe ca cb cc
    show |r ((mjdZ (utcDate t) : ℝ) + (fracDay (whole hh : Rnd r) (whole mm) (whole ss)).val) - _| ≤ _ ∧
      ⌊r ((mjdZ (utcDate t) : ℝ) + (fracDay (whole hh : Rnd r) (whole mm) (whole ss)).val)⌋ = _
    have q0 : 0 ≤ (fracDay (whole hh : Rnd r) (whole mm) (whole ss)).val := by
      have l : ∀ n : ℤ, 0 ≤ n → |n| ≤ 2 ^ 53 → 0 ≤ (Flt.lit ((n : ℤ) : ℚ) : Rnd r).val := fun n hn hn' => by
        rw [lit_whole hr _ n rfl hn', whole_val]; exact_mod_cast hn
      have l24 := l 24 (by norm_num) (by norm_num); have l60 := l 60 (by norm_num) (by norm_num); have l36 := l 3600 (by norm_num) (by norm_num)
      have w : ∀ n : ℤ, (whole n : Rnd r).val = n := fun n => whole_val n
      refine hr.nonneg (div_nonneg (hr.nonneg (add_nonneg (hr.nonneg (add_nonneg ?_ (hr.nonneg (div_nonneg ?_ l60)))) (hr.nonneg (div_nonneg ?_ l36)))) l24)
      · rw [w]; exact ca.1
      · rw [w]; exact cb.1
      · rw [w]; exact cc.1
    generalize (fracDay (whole hh : Rnd r) (whole mm) (whole ss)).val = q at fe q0
    have hsum : ((t / 1000000 : Int) : ℝ) = 86400 * ((t / 1000000 / 86400 : Int) : ℝ) + (3600 * hh + 60 * mm + ss) := by
      have : t / 1000000 = 86400 * (t / 1000000 / 86400) + (3600 * hh + 60 * mm + ss) := by rw [d]; omega
      exact_mod_cast this
    have ex : (40587 : ℝ) + ((t / 1000000 : Int) : ℝ) / 86400 = (mjdZ (utcDate t) : ℝ) + (3600 * hh + 60 * mm + ss) / 86400 := by
      rw [hz', hsum]; push_cast; ring
    have z1 : (40587 : ℝ) ≤ (mjdZ (utcDate t) : ℝ) := by exact_mod_cast (by omega : 40587 ≤ mjdZ (utcDate t))
    have z2 : (mjdZ (utcDate t) : ℝ) ≤ 140010 := by exact_mod_cast (by omega : mjdZ (utcDate t) ≤ 140010)
    have q1 : (0 : ℝ) ≤ (3600 * hh + 60 * mm + ss) / 86400 := by
      have := ca.1; have := cb.1; have := cc.1; positivity
    have q2 : (3600 * (hh : ℝ) + 60 * mm + ss) / 86400 ≤ 1 := by
      rw [div_le_iff₀ (by norm_num)]; linarith [ca.2, cb.2, cc.2]
    rw [ex]
    have n := hr.near 18 (x := (mjdZ (utcDate t) : ℝ) + q) (y := (mjdZ (utcDate t) : ℝ) + (3600 * hh + 60 * mm + ss) / 86400) (d := 1 / 2 ^ 51)
      (by rw [add_sub_add_left_eq_sub]; exact fe) (by rw [abs_of_nonneg (by linarith)]; norm_num; linarith)
    have bnd : |r ((mjdZ (utcDate t) : ℝ) + q) - ((mjdZ (utcDate t) : ℝ) + (3600 * hh + 60 * mm + ss) / 86400)| ≤ 3 / 1000000 / 86400 := by
      refine n.trans ?_
      norm_num
    refine ⟨bnd, ?_⟩
    have q3 : (3600 * (hh : ℝ) + 60 * mm + ss) / 86400 ≤ 86399 / 86400 := by
      rw [div_le_div_iff_of_pos_right (by norm_num)]; linarith [ca.2, cb.2, cc.2]
    rw [hz'] at *
    show ⌊r (((40587 + t / 1000000 / 86400 : ℤ) : ℝ) + q)⌋ = _
    rw [Int.floor_eq_iff]
    have hi := hr.int (40587 + t / 1000000 / 86400) (by rw [abs_le]; constructor <;> omega)
    have b2 := (abs_le.1 bnd).2
    constructor
    · rw [← hi]; exact hr.mono (by linarith)
    · norm_num at b2 q3 ⊢
      linarith

/-- C106: for time stamps up to the year 2242, not on a 31 December, the MJD computed in any rounding mode is within three microseconds of
the exact one. -/
theorem C106_error (hr : Rounds53 r) (t : Int) (h0 : 0 ≤ t) (h : Near t) (hdec : ¬((utcDate t).month = 12 ∧ (utcDate t).day = 31)) (mjd : Rnd r) :
    ∃ x : Rnd r, mjdOf r t [] mjd = .ok (true, x) ∧ |x.val - (40587 + ((t / 1000000 : Int) : ℝ) / 86400)| ≤ 3 / 1000000 / 86400 := by
  obtain ⟨x, h1, h2, -⟩ := mjd_core hr t h0 h hdec mjd
  exact ⟨x, h1, h2⟩

/-- C106: so a later whole second has a strictly larger computed MJD. -/
theorem C106_order (hr : Rounds53 r) (t t' : Int) (h0 : 0 ≤ t) (h : Near t) (hdec : ¬((utcDate t).month = 12 ∧ (utcDate t).day = 31))
    (h0' : 0 ≤ t') (h' : Near t') (hdec' : ¬((utcDate t').month = 12 ∧ (utcDate t').day = 31)) (hlt : t / 1000000 < t' / 1000000) (mjd : Rnd r) :
    ∃ x x' : Rnd r, mjdOf r t [] mjd = .ok (true, x) ∧ mjdOf r t' [] mjd = .ok (true, x') ∧ x.val < x'.val := by
  obtain ⟨x, e, b⟩ := C106_error hr t h0 h hdec mjd
  obtain ⟨x', e', b'⟩ := C106_error hr t' h0' h' hdec' mjd
  refine ⟨x, x', e, e', ?_⟩
  have hl : ((t / 1000000 : Int) : ℝ) + 1 ≤ ((t' / 1000000 : Int) : ℝ) := by exact_mod_cast hlt
  have l1 := (abs_le.1 b).2
  have l2 := (abs_le.1 b').1
  norm_num at l1 l2
  linarith

/-- non-vacuity: rounding to nearest; the last second of 28 February 1970 and the first of 1 March -/
example : Rounds53 nearest ∧ (Date.Valid ⟨1582, 10, 4⟩ ∧ |(1582 : Int)| ≤ 10 ^ 9) ∧ Near 5097600000000 ∧
    ¬((utcDate 5097600000000).month = 12 ∧ (utcDate 5097600000000).day = 31) ∧ (5097599999999 : Int) / 1000000 < 5097600000000 / 1000000 :=
  ⟨nearest_rounds, ⟨⟨by norm_num, by norm_num [monthLen], by norm_num⟩, by norm_num⟩, by constructor <;> norm_num, by decide +kernel, by norm_num⟩

end NavFuse.Props
