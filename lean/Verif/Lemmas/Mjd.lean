import Verif.Lemmas.Calendar
import Verif.RealInst

/-! # The Modified Julian Date on integer dates -/

set_option linter.unusedSimpArgs false

namespace NavFuse
open Spec Rotations

/-- `mjdMidnight` on integer fields -/
def mjdZ (D : Date) : Int :=
  let y := if D.month ≤ 2 then D.year - 1 else D.year
  let m := if D.month ≤ 2 then D.month + 12 else D.month
  let b := if 10000 * y + 100 * m + D.day ≤ 15821004 then y / 4 - 2 else y / 400 - y / 100 + y / 4
  365 * y - 679004 + b + 306001 * (m + 1) / 10000 + D.day

theorem floor_intdiv (n : Int) (k : Int) (hk : 0 < k) : ⌊(n : ℝ) / (k : ℝ)⌋ = n / k := by
  rw [Int.floor_eq_iff]
  have hk' : (0 : ℝ) < k := by exact_mod_cast hk
  have h1 := Int.emod_add_mul_ediv n k
  have h2 := Int.emod_nonneg n hk.ne'
  have h3 := Int.emod_lt_of_pos n hk
  constructor
  · rw [le_div_iff₀ hk']
    have : n / k * k ≤ n := by nlinarith
    exact_mod_cast this
  · rw [div_lt_iff₀ hk']
    have : n < (n / k + 1) * k := by nlinarith
    exact_mod_cast this

theorem mjdMidnight_R (D : Date) : mjdMidnight (D.year : ℝ) (D.month : ℝ) (D.day : ℝ) = (mjdZ D : ℝ) := by
  obtain ⟨y, m, d⟩ := D
  have key : ∀ y m : Int, ((((365 : ℝ) * y - 679004) + (if (10000 : ℝ) * y + 100 * m + d ≤ 15821004 then (-2 + (⌊((y : ℝ) + 4716) / 4⌋ : ℝ)) - 1179
      else ((⌊(y : ℝ) / 400⌋ : ℝ) - (⌊(y : ℝ) / 100⌋ : ℝ)) + (⌊(y : ℝ) / 4⌋ : ℝ))) + (⌊(306001 / 10000 : ℝ) * ((m : ℝ) + 1)⌋ : ℝ)) + d
      = ((365 * y - 679004 + (if 10000 * y + 100 * m + d ≤ 15821004 then y / 4 - 2 else y / 400 - y / 100 + y / 4)
        + 306001 * (m + 1) / 10000 + d : Int) : ℝ) := by
    intro y m
    have f1 : ⌊((y : ℝ) + 4716) / 4⌋ = (y + 4716) / 4 := by have := floor_intdiv (y + 4716) 4 (by norm_num); push_cast at this; exact this
    have f2 : ⌊(y : ℝ) / 400⌋ = y / 400 := by have := floor_intdiv y 400 (by norm_num); push_cast at this; exact this
    have f3 : ⌊(y : ℝ) / 100⌋ = y / 100 := by have := floor_intdiv y 100 (by norm_num); push_cast at this; exact this
    have f4 : ⌊(y : ℝ) / 4⌋ = y / 4 := by have := floor_intdiv y 4 (by norm_num); push_cast at this; exact this
    have f5 : ⌊(306001 / 10000 : ℝ) * ((m : ℝ) + 1)⌋ = 306001 * (m + 1) / 10000 := by
      have := floor_intdiv (306001 * (m + 1)) 10000 (by norm_num)
      push_cast at this
      rw [← this]; congr 1; ring
    rw [f1, f2, f3, f4, f5]
    by_cases h : 10000 * y + 100 * m + d ≤ 15821004
    · have h' : (10000 : ℝ) * y + 100 * m + d ≤ 15821004 := by exact_mod_cast h
      rw [if_pos h', if_pos h]
      have : (y + 4716) / 4 = y / 4 + 1179 := by omega
      rw [this]; push_cast; ring
    · have h' : ¬ (10000 : ℝ) * y + 100 * m + d ≤ 15821004 := by exact_mod_cast h
      rw [if_neg h', if_neg h]; push_cast; ring
  have e : (Flt.lit 30.6001 : ℝ) = 306001 / 10000 := by
    show ((30.6001 : ℚ) : ℝ) = _
    norm_num
  by_cases hm : m ≤ 2
  · have hm' : (m : ℝ) ≤ 2 := by exact_mod_cast hm
    have := key (y - 1) (m + 12)
    push_cast at this
    simp only [mjdMidnight, e, mjdZ, if_pos hm]
    simp only [rsimp]
    simp only [hm', decide_true, if_true, decide_eq_true_eq]
    push_cast
    simpa using this
  · have hm' : ¬ (m : ℝ) ≤ 2 := by exact_mod_cast hm
    have := key y m
    push_cast at this
    simp only [mjdMidnight, e, mjdZ, if_neg hm]
    simp only [rsimp]
    simp only [hm', decide_false, decide_eq_true_eq]
    push_cast
    simpa using this

theorem civilNext_valid (D : Date) (h : D.Valid) : D.civilNext.Valid := by
  obtain ⟨y, m, d⟩ := D
  obtain ⟨⟨m1, m2⟩, ⟨d1, d2⟩, g⟩ := h
  simp only at m1 m2 d1 d2 g
  rw [Date.civilNext]
  split_ifs with hs
  · exact ⟨by norm_num, by norm_num [monthLen], by norm_num⟩
  · simp only [Date.mk.injEq] at hs
    simp only [Date.succWith]
    have p := @monthLen_pos
    split_ifs with a b
    · exact ⟨⟨m1, m2⟩, ⟨by simp only; omega, by simp only; omega⟩, by simp only; omega⟩
    · refine ⟨⟨by simp only; omega, by simp only; omega⟩, ⟨by simp only; omega, ?_⟩, by simp only; omega⟩
      simp only [monthLen]; split_ifs <;> omega
    · refine ⟨by simp, ⟨by simp, by simp [monthLen]⟩, by simp⟩

theorem mjdZ_next (D : Date) (h : D.Valid) : mjdZ D.civilNext = mjdZ D + 1 := by
  obtain ⟨y, m, d⟩ := D
  obtain ⟨⟨m1, m2⟩, ⟨d1, d2⟩, g⟩ := h
  simp only at m1 m2 d1 d2 g
  rw [Date.civilNext]
  split_ifs with hs
  · simp only [Date.mk.injEq] at hs
    obtain ⟨rfl, rfl, rfl⟩ := hs
    decide
  · simp only [Date.mk.injEq] at hs
    simp only [Date.succWith]
    have hl : decide (civilLeap y) = true ↔ 4 ∣ y ∧ (y ≤ 1582 ∨ ¬ 100 ∣ y ∨ 400 ∣ y) := by
      rw [decide_eq_true_eq, civilLeap, gregLeap]
      by_cases h : y ≤ 1582
      · simp [h]
      · simp [h]
    generalize decide (civilLeap y) = l at *
    have hlen : m = 2 ∧ l = true ∧ monthLen l m = 29 ∨ m = 2 ∧ l = false ∧ monthLen l m = 28 ∨ (m = 4 ∨ m = 6 ∨ m = 9 ∨ m = 11) ∧ monthLen l m = 30 ∨
        (m = 1 ∨ m = 3 ∨ m = 5 ∨ m = 7 ∨ m = 8 ∨ m = 10 ∨ m = 12) ∧ monthLen l m = 31 := by
      rw [monthLen]
      cases l <;> simp <;> split_ifs <;> omega
    generalize monthLen l m = L at *
    by_cases a : d < L
    · rw [if_pos a]
      simp only [mjdZ]
      by_cases hm : m ≤ 2
      · simp only [if_pos hm]
        split_ifs <;> omega
      · simp only [if_neg hm]
        split_ifs <;> omega
    · rw [if_neg a]
      have hd : d = L := by omega
      subst hd
      by_cases b : m < 12
      · rw [if_pos b]
        simp only [mjdZ]
        have hl1 : l = true ∨ l = false := by cases l <;> simp
        by_cases hm : m = 2
        · subst hm
          norm_num
          rcases hl1 with rfl | rfl
          · have hl' := hl.1 rfl
            have hd' : d = 29 := by simp at hlen; omega
            split_ifs <;> omega
          · have hl' : ¬ (4 ∣ y ∧ (y ≤ 1582 ∨ ¬ 100 ∣ y ∨ 400 ∣ y)) := fun h => by simpa using hl.2 h
            have hd' : d = 28 := by simp at hlen; omega
            split_ifs <;> omega
        · by_cases hm1 : m = 1
          · subst hm1
            norm_num
            split_ifs <;> omega
          · have h3 : ¬ m ≤ 2 := by omega
            have h4 : ¬ m + 1 ≤ 2 := by omega
            simp only [if_neg h3, if_neg h4]
            rcases hlen with h | h | h | h
            · omega
            · omega
            · rcases h with ⟨h | h | h | h, hd⟩ <;> subst h <;> subst hd <;> norm_num <;> split_ifs <;> omega
            · rcases h with ⟨h | h | h | h | h | h | h, hd⟩ <;> subst h <;> subst hd <;> norm_num <;> split_ifs <;> omega
      · rw [if_neg b]
        have hm : m = 12 := by omega
        subst hm
        have hd : d = 31 := by omega
        subst hd
        simp only [mjdZ]
        norm_num
        split_ifs <;> omega

end NavFuse
