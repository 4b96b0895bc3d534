import Verif.RealInst
import Mathlib.Data.Int.Log
import Mathlib.Algebra.Order.Round

/-! # The model at `Rnd r`: every operation rounded

`Rnd r` holds reals, and every arithmetic operation, square root, literal and conversion from an integer is the exact one followed by the
rounding `r`.  The other library functions are the exact ones followed by roundings of their own, and sums are evaluated in any order
(`Machine`).  Overflow, NaN and infinities are not represented; `floor`, `fmod`, absolute value, negation and comparisons are exact, as in
IEEE 754. -/

namespace NavFuse

structure Rnd (r : ℝ → ℝ) where
  val : ℝ

variable {r : ℝ → ℝ}

/-- What every IEEE 754 rounding mode satisfies for `double`, leaving overflow aside: it is monotone and keeps the numbers with a 53-bit
significand and an exponent of at least -1074 (the spacing of the subnormal numbers). -/
structure Rounds53 (r : ℝ → ℝ) : Prop where
  mono : Monotone r
  keeps : ∀ (m e : ℤ), |m| ≤ 2 ^ 53 → -1074 ≤ e → r ((m : ℝ) * (2 : ℝ) ^ e) = (m : ℝ) * (2 : ℝ) ^ e

/-- the functions of `<cmath>` that IEEE 754 does not require to be correctly rounded -/
inductive LibFn where
  | sin | cos | tan | asin | atan | atan2 | pow

/-- What is left open about the machine that evaluates the program in doubles: the order in which Eigen evaluates sums, and how each library function
rounds its result.  The result of a library function is faithful: at every argument it is the exact value rounded in some mode, which may
differ from one argument to the next and from the mode of the arithmetic. -/
class Machine where
  order : SumOrder
  /-- the rounding of the library function at the given arguments (the second one is 0 for a function of one argument) -/
  lib : LibFn → ℝ → ℝ → ℝ → ℝ
  faithful : ∀ f x y, Rounds53 (lib f x y)

/-- the library functions round in the mode `r` of the arithmetic -/
def Machine.Correct [Machine] (r : ℝ → ℝ) : Prop := ∀ f x y, Machine.lib f x y = r

/-- the library functions treat both signs alike -/
structure Machine.Symmetric [Machine] : Prop where
  sin : ∀ x v, Machine.lib .sin (-x) 0 (-v) = -Machine.lib .sin x 0 v
  cos : ∀ x v, Machine.lib .cos (-x) 0 v = Machine.lib .cos x 0 v
  sq : ∀ x v, Machine.lib .pow (-x) 2 v = Machine.lib .pow x 2 v

/-- the machine with correctly rounded library functions that adds from left to right -/
@[reducible] def Machine.of (h : Rounds53 r) : Machine := ⟨.left, fun _ _ _ => r, fun _ _ _ => h⟩

noncomputable instance : Add (Rnd r) := ⟨fun x y => ⟨r (x.val + y.val)⟩⟩
noncomputable instance : Sub (Rnd r) := ⟨fun x y => ⟨r (x.val - y.val)⟩⟩
noncomputable instance : Mul (Rnd r) := ⟨fun x y => ⟨r (x.val * y.val)⟩⟩
noncomputable instance : Div (Rnd r) := ⟨fun x y => ⟨r (x.val / y.val)⟩⟩
noncomputable instance : Neg (Rnd r) := ⟨fun x => ⟨-x.val⟩⟩

noncomputable instance [Machine] : Flt (Rnd r) where
  lit q := ⟨r (q : ℝ)⟩
  ofInt n := ⟨r (n : ℝ)⟩
  pi := ⟨r Real.pi⟩
  sqrt x := ⟨r (Real.sqrt x.val)⟩
  sin x := ⟨Machine.lib .sin x.val 0 (Real.sin x.val)⟩
  cos x := ⟨Machine.lib .cos x.val 0 (Real.cos x.val)⟩
  tan x := ⟨Machine.lib .tan x.val 0 (Real.tan x.val)⟩
  asin x := ⟨Machine.lib .asin x.val 0 (Real.arcsin x.val)⟩
  atan x := ⟨Machine.lib .atan x.val 0 (Real.arctan x.val)⟩
  floor x := ⟨(⌊x.val⌋ : ℝ)⟩
  abs x := ⟨|x.val|⟩
  atan2 y x := ⟨Machine.lib .atan2 y.val x.val (Complex.arg ⟨x.val, y.val⟩)⟩
  fmod x y := ⟨fmodR x.val y.val⟩
  powi x n := ⟨Machine.lib .pow x.val n (x.val ^ n)⟩
  powq x q := ⟨Machine.lib .pow x.val q (x.val ^ (q : ℝ))⟩
  toLong x := if -2 ^ 63 ≤ truncR x.val ∧ truncR x.val < 2 ^ 63 then some (truncR x.val) else none
  lt x y := decide (x.val < y.val)
  le x y := decide (x.val ≤ y.val)
  eq x y := decide (x.val = y.val)
  order := Machine.order

theorem Rounds53.int (h : Rounds53 r) (m : ℤ) (hm : |m| ≤ 2 ^ 53) : r (m : ℝ) = m := by
  have := h.keeps m 0 hm (by norm_num); simpa using this

/-! An instance: round to nearest, ties away from zero. -/

/-- rounding of a positive number -/
noncomputable def nearestPos (x : ℝ) : ℝ := (round (x / (2 : ℝ) ^ (Int.log 2 x - 52)) : ℝ) * (2 : ℝ) ^ (Int.log 2 x - 52)

/-- round to nearest, ties away from zero, with 53 significant bits -/
noncomputable def nearest (x : ℝ) : ℝ := if 0 < x then nearestPos x else if x < 0 then -nearestPos (-x) else 0

theorem two_zpow_52 (L : ℤ) : (2 : ℝ) ^ L = ((2 ^ 52 : ℤ) : ℝ) * (2 : ℝ) ^ (L - 52) := by
  rw [zpow_sub₀ (by norm_num : (2 : ℝ) ≠ 0)]
  have : (2 : ℝ) ^ (52 : ℤ) ≠ 0 := by positivity
  rw [show (((2 ^ 52 : ℤ) : ℝ)) = (2 : ℝ) ^ (52 : ℤ) by norm_num]
  field_simp

theorem nearestPos_bounds {x : ℝ} (hx : 0 < x) : (2 : ℝ) ^ Int.log 2 x ≤ nearestPos x ∧ nearestPos x ≤ (2 : ℝ) ^ (Int.log 2 x + 1) := by
  have h1 : (2 : ℝ) ^ Int.log 2 x ≤ x := by have := Int.zpow_log_le_self (b := 2) (by norm_num) hx; exact_mod_cast this
  have h2 : x < (2 : ℝ) ^ (Int.log 2 x + 1) := by have := Int.lt_zpow_succ_log_self (b := 2) (by norm_num) x; exact_mod_cast this
  set L := Int.log 2 x
  have hp : (0 : ℝ) < (2 : ℝ) ^ (L - 52) := by positivity
  have e2 : (2 : ℝ) ^ (L + 1) = ((2 ^ 53 : ℤ) : ℝ) * (2 : ℝ) ^ (L - 52) := by
    rw [zpow_add₀ (by norm_num : (2 : ℝ) ≠ 0), two_zpow_52 L]; push_cast; ring
  constructor
  · rw [two_zpow_52 L, nearestPos]
    apply mul_le_mul_of_nonneg_right _ hp.le
    have : (2 ^ 52 : ℤ) ≤ round (x / (2 : ℝ) ^ (L - 52)) := by
      rw [← round_intCast (α := ℝ) (2 ^ 52), round_eq, round_eq]
      apply Int.floor_le_floor
      have : ((2 ^ 52 : ℤ) : ℝ) ≤ x / (2 : ℝ) ^ (L - 52) := by rw [le_div_iff₀ hp, ← two_zpow_52]; exact h1
      linarith
    exact_mod_cast this
  · rw [e2, nearestPos]
    apply mul_le_mul_of_nonneg_right _ hp.le
    have : round (x / (2 : ℝ) ^ (L - 52)) ≤ (2 ^ 53 : ℤ) := by
      rw [← round_intCast (α := ℝ) (2 ^ 53), round_eq, round_eq]
      apply Int.floor_le_floor
      have : x / (2 : ℝ) ^ (L - 52) ≤ ((2 ^ 53 : ℤ) : ℝ) := by rw [div_le_iff₀ hp, ← e2]; exact h2.le
      linarith
    exact_mod_cast this

theorem nearestPos_pos {x : ℝ} (hx : 0 < x) : 0 < nearestPos x := lt_of_lt_of_le (by positivity) (nearestPos_bounds hx).1

theorem nearestPos_mono {x y : ℝ} (hx : 0 < x) (h : x ≤ y) : nearestPos x ≤ nearestPos y := by
  have hL : Int.log 2 x ≤ Int.log 2 y := Int.log_mono_right hx h
  rcases lt_or_eq_of_le hL with h1 | h1
  · calc nearestPos x ≤ (2 : ℝ) ^ (Int.log 2 x + 1) := (nearestPos_bounds hx).2
      _ ≤ (2 : ℝ) ^ Int.log 2 y := zpow_le_zpow_right₀ (by norm_num) (by omega)
      _ ≤ nearestPos y := (nearestPos_bounds (hx.trans_le h)).1
  · rw [nearestPos, nearestPos, h1]
    have hp : (0 : ℝ) < (2 : ℝ) ^ (Int.log 2 y - 52) := by positivity
    apply mul_le_mul_of_nonneg_right _ hp.le
    have : round (x / (2 : ℝ) ^ (Int.log 2 y - 52)) ≤ round (y / (2 : ℝ) ^ (Int.log 2 y - 52)) := by
      rw [round_eq, round_eq]
      apply Int.floor_le_floor
      have := div_le_div_of_nonneg_right h hp.le
      linarith
    exact_mod_cast this

theorem nearestPos_keeps (m e : ℤ) (h0 : 0 < m) (hm : m ≤ 2 ^ 53) : nearestPos ((m : ℝ) * (2 : ℝ) ^ e) = (m : ℝ) * (2 : ℝ) ^ e := by
  have hx : (0 : ℝ) < (m : ℝ) * (2 : ℝ) ^ e := mul_pos (by exact_mod_cast h0) (by positivity)
  rcases lt_or_eq_of_le hm with h | h
  · have hlog : Int.log 2 ((m : ℝ) * (2 : ℝ) ^ e) ≤ e + 52 := by
      have : (m : ℝ) * (2 : ℝ) ^ e < (2 : ℝ) ^ (e + 53) := by
        rw [add_comm, zpow_add₀ (by norm_num : (2 : ℝ) ≠ 0)]
        apply mul_lt_mul_of_pos_right _ (by positivity)
        have : (m : ℝ) < ((2 ^ 53 : ℤ) : ℝ) := by exact_mod_cast h
        norm_num at this ⊢; exact this
      have := (Int.lt_zpow_iff_log_lt (b := 2) (by norm_num) hx).1 (by exact_mod_cast this)
      omega
    rw [nearestPos]
    obtain ⟨k, hk⟩ : ∃ k : ℕ, e = Int.log 2 ((m : ℝ) * (2 : ℝ) ^ e) - 52 + k := ⟨(e - (Int.log 2 ((m : ℝ) * (2 : ℝ) ^ e) - 52)).toNat, by omega⟩
    generalize Int.log 2 ((m : ℝ) * (2 : ℝ) ^ e) - 52 = L at hk
    have hp : (2 : ℝ) ^ L ≠ 0 := by positivity
    have : (m : ℝ) * (2 : ℝ) ^ e = ((m * 2 ^ k : ℤ) : ℝ) * (2 : ℝ) ^ L := by
      rw [hk, zpow_add₀ (by norm_num : (2 : ℝ) ≠ 0), zpow_natCast]; push_cast; ring
    rw [this, mul_div_cancel_right₀ _ hp, round_intCast]
  · have e1 : (m : ℝ) * (2 : ℝ) ^ e = (2 : ℝ) ^ (e + 53) := by
      rw [h, add_comm, zpow_add₀ (by norm_num : (2 : ℝ) ≠ 0)]; norm_num
    have hlog : Int.log 2 ((2 : ℝ) ^ (e + 53)) = e + 53 := by exact_mod_cast Int.log_zpow (R := ℝ) (b := 2) (by norm_num) (e + 53)
    rw [e1, nearestPos, hlog]
    have hp : (2 : ℝ) ^ (e + 53 - 52) ≠ 0 := by positivity
    rw [two_zpow_52 (e + 53), mul_div_cancel_right₀ _ hp, round_intCast]

theorem nearest_rounds : Rounds53 nearest := by
  constructor
  · intro x y h
    simp only [nearest]
    by_cases hx : 0 < x
    · rw [if_pos hx, if_pos (hx.trans_le h)]; exact nearestPos_mono hx h
    · rw [if_neg hx]
      by_cases hx' : x < 0
      · rw [if_pos hx']
        have p1 := nearestPos_pos (neg_pos.2 hx')
        split_ifs with hy hy'
        · have := nearestPos_pos hy; linarith
        · have := nearestPos_mono (x := -y) (y := -x) (by linarith) (by linarith); linarith
        · linarith
      · rw [if_neg hx']
        have : 0 ≤ y := by linarith
        split_ifs with hy hy'
        · exact (nearestPos_pos hy).le
        · linarith
        · exact le_refl _
  · intro m e hm _
    have hp : (0 : ℝ) < (2 : ℝ) ^ e := by positivity
    rcases lt_trichotomy m 0 with h | h | h
    · have hm' : (m : ℝ) < 0 := by exact_mod_cast h
      have hx : (m : ℝ) * (2 : ℝ) ^ e < 0 := mul_neg_of_neg_of_pos hm' hp
      rw [nearest, if_neg (by linarith), if_pos hx]
      have := nearestPos_keeps (-m) e (by omega) (by rw [abs_of_neg h] at hm; exact hm)
      push_cast at this
      rw [← neg_mul, this]; ring
    · subst h; simp [nearest]
    · have hm' : (0 : ℝ) < m := by exact_mod_cast h
      rw [nearest, if_pos (mul_pos hm' hp)]
      exact nearestPos_keeps m e h (le_of_abs_le hm)

end NavFuse
