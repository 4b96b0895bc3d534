import Verif.XR
import Verif.Ieee

/-! # The model at `Dbl r`: doubles with rounding, overflow, infinities and NaN

The values are those of `XR`.  A finite result of an operation is rounded by `r`, and becomes an infinity when the rounded value reaches 2¹⁰²⁴, as in
the rounding modes to nearest (towards zero, IEEE 754 would give the largest finite double).  Zeros are unsigned, as in `XR`.  `floor`, `fmod`,
absolute value, negation and comparisons are exact. -/

namespace NavFuse

/-- a double -/
structure Dbl (r : ℝ → ℝ) where
  x : XR

namespace Dbl
variable {r : ℝ → ℝ}

/-- a finite double -/
def fin (v : ℝ) : Dbl r := ⟨.fin v⟩

/-- the double for an exact result -/
noncomputable def rd (r : ℝ → ℝ) : XR → Dbl r
  | .fin v => if |r v| < 2 ^ 1024 then ⟨.fin (r v)⟩ else if 0 < v then ⟨.pinf⟩ else ⟨.ninf⟩
  | z => ⟨z⟩

/-- the double for an exact result of a library function that rounds by `ρ` -/
noncomputable def lb (ρ : ℝ → ℝ) (z : XR) : Dbl r := ⟨(rd ρ z).x⟩

/-- the value of a finite argument -/
noncomputable def arg (a : Dbl r) : ℝ := match a.x with | .fin v => v | _ => 0

noncomputable instance : Neg (Dbl r) := ⟨fun a => ⟨-a.x⟩⟩
noncomputable instance : Add (Dbl r) := ⟨fun a b => rd r (a.x + b.x)⟩
noncomputable instance : Sub (Dbl r) := ⟨fun a b => rd r (a.x - b.x)⟩
noncomputable instance : Mul (Dbl r) := ⟨fun a b => rd r (a.x * b.x)⟩
noncomputable instance : Div (Dbl r) := ⟨fun a b => rd r (a.x / b.x)⟩

noncomputable instance [Machine] : Flt (Dbl r) where
  lit q := rd r (Flt.lit q)
  ofInt n := rd r (Flt.ofInt n)
  pi := rd r Flt.pi
  sqrt a := rd r (Flt.sqrt a.x)
  sin a := lb (Machine.lib .sin a.arg 0) (Flt.sin a.x)
  cos a := lb (Machine.lib .cos a.arg 0) (Flt.cos a.x)
  tan a := lb (Machine.lib .tan a.arg 0) (Flt.tan a.x)
  asin a := lb (Machine.lib .asin a.arg 0) (Flt.asin a.x)
  atan a := lb (Machine.lib .atan a.arg 0) (Flt.atan a.x)
  floor a := ⟨Flt.floor a.x⟩
  abs a := ⟨Flt.abs a.x⟩
  atan2 a b := lb (Machine.lib .atan2 a.arg b.arg) (Flt.atan2 a.x b.x)
  fmod a b := ⟨Flt.fmod a.x b.x⟩
  powi a n := lb (Machine.lib .pow a.arg n) (Flt.powi a.x n)
  powq a q := lb (Machine.lib .pow a.arg q) (Flt.powq a.x q)
  toLong a := Flt.toLong a.x
  lt a b := Flt.lt a.x b.x
  le a b := Flt.le a.x b.x
  eq a b := Flt.eq a.x b.x
  order := Machine.order

/-- the double `X` is finite and has the value of `x` -/
def Sim (X : Dbl r) (x : Rnd r) : Prop := X = fin x.val

theorem rd_fin {v : ℝ} (h : |r v| < 2 ^ 1024) : rd r (.fin v) = fin (r v) := by rw [rd, if_pos h]; rfl

theorem lb_fin {ρ : ℝ → ℝ} {v : ℝ} (h : |ρ v| < 2 ^ 1024) : (lb ρ (.fin v) : Dbl r) = fin (ρ v) := by rw [lb, rd_fin h]; rfl

theorem big : (1e200 : ℝ) < 2 ^ 1024 := by
  have h1 : (1e200 : ℝ) = 10 ^ 200 := by norm_num
  have h2 : (10 : ℝ) ^ 200 ≤ 16 ^ 200 := pow_le_pow_left₀ (by norm_num) (by norm_num) 200
  have h3 : (16 : ℝ) ^ 200 = (2 ^ 4) ^ 200 := congrArg (· ^ 200) (by norm_num)
  have h4 : ((2 : ℝ) ^ 4) ^ 200 < 2 ^ 1024 := by rw [← pow_mul]; exact pow_lt_pow_right₀ (by norm_num) (by norm_num)
  rw [h1]
  rw [h3] at h2
  exact lt_of_le_of_lt h2 h4

variable {X Y : Dbl r} {x y : Rnd r}

theorem Sim.neg (a : Sim X x) : Sim (-X) (-x) := by rw [a]; rfl
theorem Sim.add (a : Sim X x) (b : Sim Y y) (h : |(x + y).val| ≤ 1e200) : Sim (X + Y) (x + y) := by
  rw [a, b]; exact rd_fin (h.trans_lt big)
theorem Sim.sub (a : Sim X x) (b : Sim Y y) (h : |(x - y).val| ≤ 1e200) : Sim (X - Y) (x - y) := by
  rw [a, b]
  show rd r (XR.fin x.val - XR.fin y.val) = _
  rw [XR.fin_sub]; exact rd_fin (h.trans_lt big)
theorem Sim.mul (a : Sim X x) (b : Sim Y y) (h : |(x * y).val| ≤ 1e200) : Sim (X * Y) (x * y) := by
  rw [a, b]; exact rd_fin (h.trans_lt big)
theorem Sim.div (a : Sim X x) (b : Sim Y y) (h0 : y.val ≠ 0) (h : |(x / y).val| ≤ 1e200) : Sim (X / Y) (x / y) := by
  rw [a, b]
  show rd r (XR.fin x.val / XR.fin y.val) = _
  rw [XR.fin_div _ _ h0]; exact rd_fin (h.trans_lt big)
variable [Machine]

theorem Sim.lit (q : ℚ) (h : |(Flt.lit q : Rnd r).val| ≤ 1e200) : Sim (Flt.lit q : Dbl r) (Flt.lit q) := rd_fin (h.trans_lt big)
theorem Sim.ofInt (n : ℤ) (h : |(Flt.ofInt n : Rnd r).val| ≤ 1e200) : Sim (Flt.ofInt n : Dbl r) (Flt.ofInt n) := rd_fin (h.trans_lt big)
theorem Sim.pi (h : |(Flt.pi : Rnd r).val| ≤ 1e200) : Sim (Flt.pi : Dbl r) Flt.pi := rd_fin (h.trans_lt big)
theorem Sim.sqrt (a : Sim X x) (h0 : 0 ≤ x.val) (h : |(Flt.sqrt x).val| ≤ 1e200) : Sim (Flt.sqrt X) (Flt.sqrt x) := by
  rw [a]
  show rd r (Flt.sqrt (XR.fin x.val)) = _
  rw [XR.X_sqrt _ h0]; exact rd_fin (h.trans_lt big)
theorem Sim.sin (a : Sim X x) (h : |(Flt.sin x).val| ≤ 1e200) : Sim (Flt.sin X) (Flt.sin x) := by
  rw [a]; exact lb_fin (h.trans_lt big)
theorem Sim.cos (a : Sim X x) (h : |(Flt.cos x).val| ≤ 1e200) : Sim (Flt.cos X) (Flt.cos x) := by
  rw [a]; exact lb_fin (h.trans_lt big)
theorem Sim.powi (a : Sim X x) (n : ℕ) (h : |(Flt.powi x n).val| ≤ 1e200) : Sim (Flt.powi X n) (Flt.powi x n) := by
  rw [a]; exact lb_fin (h.trans_lt big)
theorem Sim.powq (a : Sim X x) (q : ℚ) (h0 : 0 < x.val) (h : |(Flt.powq x q).val| ≤ 1e200) : Sim (Flt.powq X q) (Flt.powq x q) := by
  rw [a]
  show lb (Machine.lib .pow x.val q) (Flt.powq (XR.fin x.val) q) = _
  rw [XR.X_powq _ _ h0]; exact lb_fin (h.trans_lt big)

end Dbl
end NavFuse
