import Verif.RealInst

/-! # The model at `XR`: exact reals extended with NaN and infinities

Finite arithmetic is exact; invalid operations and divisions by zero produce NaN and infinities by the IEEE 754 rules.  Zeros are
unsigned, so the sign of an infinity obtained by dividing by zero carries no meaning (no theorem mentions it). -/

set_option linter.unusedSectionVars false

namespace NavFuse

/-- extended reals with NaN -/
inductive XR
  | nan
  | pinf
  | ninf
  | fin (x : ℝ)

namespace XR

/-- the infinity with the sign of `x`; NaN for zero (used for `inf * x`) -/
noncomputable def infSign (x : ℝ) : XR := if 0 < x then pinf else if x < 0 then ninf else nan

protected def neg : XR → XR
  | nan => nan | pinf => ninf | ninf => pinf | fin x => fin (-x)
protected noncomputable def add : XR → XR → XR
  | nan, _ | _, nan => nan
  | pinf, ninf | ninf, pinf => nan
  | pinf, _ | _, pinf => pinf
  | ninf, _ | _, ninf => ninf
  | fin x, fin y => fin (x + y)
protected noncomputable def sub (a b : XR) : XR := XR.add a (XR.neg b)
protected noncomputable def mul : XR → XR → XR
  | nan, _ | _, nan => nan
  | pinf, pinf | ninf, ninf => pinf
  | pinf, ninf | ninf, pinf => ninf
  | pinf, fin x | fin x, pinf => infSign x
  | ninf, fin x | fin x, ninf => infSign (-x)
  | fin x, fin y => fin (x * y)
protected noncomputable def div : XR → XR → XR
  | nan, _ | _, nan => nan
  | pinf, pinf | pinf, ninf | ninf, pinf | ninf, ninf => nan
  | pinf, fin x => if x = 0 then pinf else infSign x
  | ninf, fin x => if x = 0 then ninf else infSign (-x)
  | fin _, pinf | fin _, ninf => fin 0
  | fin x, fin y => if y = 0 then infSign x else fin (x / y)

noncomputable instance : Neg XR := ⟨XR.neg⟩
noncomputable instance : Add XR := ⟨XR.add⟩
noncomputable instance : Sub XR := ⟨XR.sub⟩
noncomputable instance : Mul XR := ⟨XR.mul⟩
noncomputable instance : Div XR := ⟨XR.div⟩

/-- lift a function that is defined for all finite arguments and undefined at infinities -/
noncomputable def lift (f : ℝ → ℝ) : XR → XR
  | fin x => fin (f x)
  | _ => nan

noncomputable instance : Flt XR where
  lit q := fin (q : ℝ)
  ofInt n := fin (n : ℝ)
  pi := fin Real.pi
  sqrt | fin x => if x < 0 then nan else fin (Real.sqrt x) | pinf => pinf | _ => nan
  sin := lift Real.sin
  cos := lift Real.cos
  tan | fin x => if Real.cos x = 0 then nan else fin (Real.tan x) | _ => nan
  asin | fin x => if -1 ≤ x ∧ x ≤ 1 then fin (Real.arcsin x) else nan | _ => nan
  atan | fin x => fin (Real.arctan x) | pinf => fin (Real.pi / 2) | ninf => fin (-(Real.pi / 2)) | nan => nan
  floor | fin x => fin (⌊x⌋ : ℝ) | x => x
  abs | fin x => fin |x| | pinf => pinf | ninf => pinf | nan => nan
  atan2
    | fin y, fin x => fin (Complex.arg ⟨x, y⟩)
    | nan, _ | _, nan => nan
    | fin _, pinf => fin 0
    | fin y, ninf => fin (if y < 0 then -Real.pi else Real.pi)
    | pinf, fin _ => fin (Real.pi / 2)
    | ninf, fin _ => fin (-(Real.pi / 2))
    | pinf, pinf => fin (Real.pi / 4)
    | pinf, ninf => fin (3 * Real.pi / 4)
    | ninf, pinf => fin (-(Real.pi / 4))
    | ninf, ninf => fin (-(3 * Real.pi / 4))
  fmod
    | fin x, fin y => if y = 0 then nan else fin (fmodR x y)
    | fin x, pinf | fin x, ninf => fin x
    | _, _ => nan
  powi
    | fin x, n => fin (x ^ n)
    | _, 0 => fin 1
    | pinf, _ => pinf
    | ninf, n => if n % 2 = 0 then pinf else ninf
    | nan, _ => nan
  powq
    | fin x, q => if x < 0 then nan else if x = 0 ∧ q < 0 then pinf else fin (x ^ (q : ℝ))
    | pinf, q => if 0 < q then pinf else if q < 0 then fin 0 else fin 1
    | _, _ => nan
  toLong
    | fin x => if -2 ^ 63 ≤ truncR x ∧ truncR x < 2 ^ 63 then some (truncR x) else none
    | _ => none
  lt
    | fin x, fin y => decide (x < y)
    | ninf, fin _ | ninf, pinf | fin _, pinf => true
    | _, _ => false
  le
    | fin x, fin y => decide (x ≤ y)
    | ninf, fin _ | ninf, pinf | fin _, pinf | pinf, pinf | ninf, ninf => true
    | _, _ => false
  eq
    | fin x, fin y => decide (x = y)
    | pinf, pinf | ninf, ninf => true
    | _, _ => false
  order := .left

/-- neither NaN nor infinite -/
def Finite (a : XR) : Prop := ∃ x, a = fin x

section
variable (x y : ℝ)

@[xsimp] theorem fin_inj : fin x = fin y ↔ x = y := ⟨fun h => by injection h, fun h => by rw [h]⟩
@[xsimp] theorem fin_finite : (fin x).Finite := ⟨x, rfl⟩
@[xsimp] theorem not_finite_nan : ¬ nan.Finite := by rintro ⟨x, h⟩; cases h
theorem not_finite_pinf : ¬ pinf.Finite := by rintro ⟨x, h⟩; cases h
theorem not_finite_ninf : ¬ ninf.Finite := by rintro ⟨x, h⟩; cases h

@[xsimp] theorem fin_add : fin x + fin y = fin (x + y) := rfl
@[xsimp] theorem fin_sub : fin x - fin y = fin (x - y) := by
  show fin (x + -y) = _; rw [sub_eq_add_neg]
@[xsimp] theorem fin_mul : fin x * fin y = fin (x * y) := rfl
@[xsimp] theorem fin_neg : -fin x = fin (-x) := rfl
theorem fin_div (h : y ≠ 0) : fin x / fin y = fin (x / y) := by
  show XR.div _ _ = _; simp [XR.div, h]
@[xsimp] theorem zero_div_zero : fin 0 / fin 0 = nan := by
  show XR.div _ _ = _; simp [XR.div, infSign]
theorem pos_div_zero (h : 0 < x) : fin x / fin 0 = pinf := by
  show XR.div _ _ = _; simp [XR.div, infSign, h]
theorem neg_div_zero (h : x < 0) : fin x / fin 0 = ninf := by
  show XR.div _ _ = _; simp [XR.div, infSign, h, not_lt.2 h.le]
@[xsimp] theorem zero_mul_pinf : fin 0 * pinf = nan := by
  show XR.mul _ _ = _; simp [XR.mul, infSign]
@[xsimp] theorem zero_mul_ninf : fin 0 * ninf = nan := by
  show XR.mul _ _ = _; simp [XR.mul, infSign]
@[xsimp] theorem pinf_mul_zero : pinf * fin 0 = nan := by
  show XR.mul _ _ = _; simp [XR.mul, infSign]
@[xsimp] theorem ninf_mul_zero : ninf * fin 0 = nan := by
  show XR.mul _ _ = _; simp [XR.mul, infSign]
/-- a division by zero is never finite -/
theorem div_zero_not_finite (a : XR) : ¬ (a / fin 0).Finite := by
  rintro ⟨z, h⟩
  change XR.div a (fin 0) = _ at h
  cases a <;> simp [XR.div] at h
  rename_i x
  simp only [infSign] at h
  split_ifs at h

@[xsimp] theorem nan_add (a : XR) : nan + a = nan := by cases a <;> rfl
@[xsimp] theorem add_nan (a : XR) : a + nan = nan := by cases a <;> rfl
@[xsimp] theorem neg_nan : -nan = nan := rfl
@[xsimp] theorem nan_sub (a : XR) : nan - a = nan := by cases a <;> rfl
@[xsimp] theorem sub_nan (a : XR) : a - nan = nan := by cases a <;> rfl
@[xsimp] theorem nan_mul (a : XR) : nan * a = nan := by cases a <;> rfl
@[xsimp] theorem mul_nan (a : XR) : a * nan = nan := by cases a <;> rfl
@[xsimp] theorem nan_div (a : XR) : nan / a = nan := by cases a <;> rfl
@[xsimp] theorem div_nan (a : XR) : a / nan = nan := by cases a <;> rfl

@[xsimp] theorem X_lit (q : ℚ) : (Flt.lit q : XR) = fin (q : ℝ) := rfl
@[xsimp] theorem X_ofInt (n : ℤ) : (Flt.ofInt n : XR) = fin (n : ℝ) := rfl
@[xsimp] theorem X_pi : (Flt.pi : XR) = fin Real.pi := rfl
theorem X_sqrt (h : 0 ≤ x) : Flt.sqrt (fin x) = fin (Real.sqrt x) := by
  show (if x < 0 then nan else fin (Real.sqrt x)) = _; rw [if_neg (not_lt.2 h)]
@[xsimp] theorem X_sqrt_nan : Flt.sqrt nan = nan := rfl
@[xsimp] theorem X_sin : Flt.sin (fin x) = fin (Real.sin x) := rfl
@[xsimp] theorem X_cos : Flt.cos (fin x) = fin (Real.cos x) := rfl
@[xsimp] theorem X_sin_nan : Flt.sin nan = nan := rfl
@[xsimp] theorem X_cos_nan : Flt.cos nan = nan := rfl
theorem X_tan (h : Real.cos x ≠ 0) : Flt.tan (fin x) = fin (Real.tan x) := by
  show (if Real.cos x = 0 then nan else fin (Real.tan x)) = _; rw [if_neg h]
theorem X_asin (h : -1 ≤ x ∧ x ≤ 1) : Flt.asin (fin x) = fin (Real.arcsin x) := by
  show (if -1 ≤ x ∧ x ≤ 1 then fin (Real.arcsin x) else nan) = _; rw [if_pos h]
@[xsimp] theorem X_asin_nan : Flt.asin nan = nan := rfl
@[xsimp] theorem X_atan : Flt.atan (fin x) = fin (Real.arctan x) := rfl
@[xsimp] theorem X_atan_nan : Flt.atan nan = nan := rfl
@[xsimp] theorem X_floor : Flt.floor (fin x) = fin (⌊x⌋ : ℝ) := rfl
@[xsimp] theorem X_abs : Flt.abs (fin x) = fin |x| := rfl
@[xsimp] theorem X_abs_nan : Flt.abs nan = nan := rfl
@[xsimp] theorem X_atan2 : Flt.atan2 (fin y) (fin x) = fin (Complex.arg ⟨x, y⟩) := rfl
theorem X_fmod (h : y ≠ 0) : Flt.fmod (fin x) (fin y) = fin (fmodR x y) := by
  show (if y = 0 then nan else fin (fmodR x y)) = _; rw [if_neg h]
@[xsimp] theorem X_powi (n : ℕ) : Flt.powi (fin x) n = fin (x ^ n) := rfl
theorem X_powi_nan (n : ℕ) (h : n ≠ 0) : Flt.powi nan n = nan := by
  cases n
  · exact absurd rfl h
  · rfl
theorem X_powq (q : ℚ) (h : 0 < x) : Flt.powq (fin x) q = fin (x ^ (q : ℝ)) := by
  show (if x < 0 then nan else if x = 0 ∧ q < 0 then pinf else fin (x ^ (q : ℝ))) = _
  rw [if_neg (not_lt.2 h.le), if_neg (by rintro ⟨rfl, -⟩; exact lt_irrefl _ h)]
@[xsimp] theorem X_lt : Flt.lt (fin x) (fin y) = Flt.lt x y := rfl
@[xsimp] theorem X_le : Flt.le (fin x) (fin y) = Flt.le x y := rfl
@[xsimp] theorem X_eq : Flt.eq (fin x) (fin y) = Flt.eq x y := rfl
@[xsimp] theorem X_lt_nan (a : XR) : Flt.lt a nan = false := by cases a <;> rfl
@[xsimp] theorem X_nan_lt (a : XR) : Flt.lt nan a = false := by cases a <;> rfl
@[xsimp] theorem X_le_nan (a : XR) : Flt.le a nan = false := by cases a <;> rfl
@[xsimp] theorem X_nan_le (a : XR) : Flt.le nan a = false := by cases a <;> rfl
@[xsimp] theorem X_eq_nan (a : XR) : Flt.eq a nan = false := by cases a <;> rfl
@[xsimp] theorem X_nan_eq (a : XR) : Flt.eq nan a = false := by cases a <;> rfl
end

/-! Vectors and matrices with finite entries. -/
section mat
variable {n m k : ℕ}

/-- a vector of reals as a vector of finite extended reals -/
def finV (v : Fin n → ℝ) : Fin n → XR := fun i => fin (v i)
/-- a matrix of reals as a matrix of finite extended reals -/
def finM (A : Matrix (Fin n) (Fin m) ℝ) : Matrix (Fin n) (Fin m) XR := Matrix.of fun i j => fin (A i j)

@[xsimp] theorem finV_apply (v : Fin n → ℝ) (i : Fin n) : finV v i = fin (v i) := rfl
@[xsimp] theorem finM_apply (A : Matrix (Fin n) (Fin m) ℝ) (i : Fin n) (j : Fin m) : finM A i j = fin (A i j) := rfl

theorem eval_fin {ι : Type} (f : ι → ℝ) (t : SumTree ι) : t.eval (fun i => fin (f i)) = fin (t.eval f) := by
  induction t with
  | leaf i => rfl
  | node s t hs ht => simp only [SumTree.eval, hs, ht, fin_add]

protected theorem add_comm (a b : XR) : a + b = b + a := by
  cases a <;> cases b <;> first | rfl | exact congrArg fin (add_comm _ _)
protected theorem add_assoc (a b c : XR) : a + b + c = a + (b + c) := by
  cases a <;> cases b <;> cases c <;> first | rfl | exact congrArg fin (add_assoc _ _ _)

/-- the order of evaluation does not matter at `XR` -/
theorem fsum_any_order (o : SumOrder) (f : Fin (n + 1) → XR) : (o.tree n).eval f = fsum f := by
  have z : ∀ a : XR, a + fin 0 = a := by intro a; cases a <;> first | rfl | exact congrArg fin (add_zero _)
  have step : ∀ (t : SumTree (Fin (n + 1))) (b : XR), t.eval f + b = (t.leaves.map f).foldr (· + ·) b := by
    intro t
    induction t with
    | leaf i => intro b; rfl
    | node s t hs ht => intro b; rw [SumTree.eval, XR.add_assoc, ht, hs, SumTree.leaves, List.map_append, List.foldr_append]
  have key : ∀ o : SumOrder, (o.tree n).eval f = ((List.finRange (n + 1)).map f).foldr (· + ·) (fin 0) := by
    intro o
    rw [← z ((o.tree n).eval f), step]
    have : LeftCommutative (α := XR) (β := XR) (· + ·) := ⟨fun a b c => by rw [← XR.add_assoc, XR.add_comm a b, XR.add_assoc]⟩
    exact ((o.perm n).map f).foldr_eq _
  rw [key, fsum, key]

theorem eval_nan {ι : Type} (f : ι → XR) (t : SumTree ι) (i : ι) (hi : i ∈ t.leaves) (h : f i = nan) : t.eval f = nan := by
  induction t with
  | leaf j => rw [SumTree.leaves, List.mem_singleton] at hi; rw [SumTree.eval, ← hi, h]
  | node s t hs ht =>
    rw [SumTree.leaves, List.mem_append] at hi
    rcases hi with hi | hi
    · rw [SumTree.eval, hs hi, nan_add]
    · rw [SumTree.eval, ht hi, add_nan]

@[xsimp] theorem X_fsum (f : Fin n → ℝ) : fsum (fun i => fin (f i)) = fin (∑ i, f i) := by
  rw [← R_fsum]
  cases n with
  | zero => rfl
  | succ n => exact eval_fin f _
@[xsimp] theorem X_fsum' (f : Fin n → ℝ) : fsum (finV f) = fin (∑ i, f i) := X_fsum f
@[xsimp] theorem X_mmul (A : Matrix (Fin n) (Fin k) ℝ) (B : Matrix (Fin k) (Fin m) ℝ) : mmul (finM A) (finM B) = finM (A * B) := by
  ext i j; simp only [mmul, finM_apply, fin_mul, X_fsum, Matrix.of_apply, Matrix.mul_apply]
@[xsimp] theorem X_mvec (A : Matrix (Fin n) (Fin k) ℝ) (v : Fin k → ℝ) : mvec (finM A) (finV v) = finV (A.mulVec v) := by
  ext i; simp only [mvec, finM_apply, finV_apply, fin_mul, X_fsum, Matrix.mulVec, dotProduct]
@[xsimp] theorem X_madd (A B : Matrix (Fin n) (Fin m) ℝ) : madd (finM A) (finM B) = finM (A + B) := rfl
@[xsimp] theorem X_msub (A B : Matrix (Fin n) (Fin m) ℝ) : msub (finM A) (finM B) = finM (A - B) := by
  ext i j; simp [msub, finM, fin_sub]
@[xsimp] theorem X_mneg (A : Matrix (Fin n) (Fin m) ℝ) : mneg (finM A) = finM (-A) := rfl
@[xsimp] theorem X_msmul (s : ℝ) (A : Matrix (Fin n) (Fin m) ℝ) : msmul (fin s) (finM A) = finM (s • A) := rfl
@[xsimp] theorem X_mtr (A : Matrix (Fin n) (Fin m) ℝ) : mtr (finM A) = finM A.transpose := rfl
@[xsimp] theorem X_mid : (mid : Matrix (Fin n) (Fin n) XR) = finM 1 := by
  ext i j; by_cases h : i = j <;> simp [mid, finM, h, X_lit]
@[xsimp] theorem X_mzero : (mzero : Matrix (Fin n) (Fin m) XR) = finM 0 := by ext i j; simp [mzero, finM, X_lit]
@[xsimp] theorem X_vadd (u v : Fin n → ℝ) : vadd (finV u) (finV v) = finV (u + v) := rfl
@[xsimp] theorem X_vsub (u v : Fin n → ℝ) : vsub (finV u) (finV v) = finV (u - v) := by
  ext i; simp [vsub, finV, fin_sub]
@[xsimp] theorem X_vsmul (s : ℝ) (v : Fin n → ℝ) : vsmul (fin s) (finV v) = finV (s • v) := rfl
theorem X_vdiv (v : Fin n → ℝ) (s : ℝ) (h : s ≠ 0) : vdiv (finV v) (fin s) = finV (s⁻¹ • v) := by
  ext i; simp [vdiv, finV, fin_div _ _ h, div_eq_inv_mul]
@[xsimp] theorem X_vdot (u v : Fin n → ℝ) : vdot (finV u) (finV v) = fin (u ⬝ᵥ v) := by
  simp only [vdot, finV_apply, fin_mul, X_fsum, dotProduct]
@[xsimp] theorem X_vsqNorm (v : Fin n → ℝ) : vsqNorm (finV v) = fin (v ⬝ᵥ v) := by simp only [vsqNorm, X_vdot]
@[xsimp] theorem X_vnorm (v : Fin n → ℝ) : vnorm (finV v) = fin (Real.sqrt (v ⬝ᵥ v)) := by
  rw [vnorm, X_vsqNorm, X_sqrt]
  exact Finset.sum_nonneg fun i _ => mul_self_nonneg (v i)

end mat

end XR

attribute [xsimp] Rat.cast_zero Rat.cast_one Rat.cast_ofNat Rat.cast_ofScientific Rat.cast_neg Rat.cast_div Rat.cast_mul Rat.cast_natCast
  Rat.cast_intCast

end NavFuse
