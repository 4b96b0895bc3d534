import Verif.XR

/-! # The model at `SZ`: exact reals extended with NaN, infinities and signed zeros

As `XR`, but every zero has a sign.  The sign follows IEEE 754 and the C standard (rounding to nearest, in which `x - x` is `+0`); it
decides the sign of an infinity obtained by dividing by zero and the result of `atan2` on the negative x-axis. -/

namespace NavFuse

/-- a value of `XR`, with a sign bit that is used when the value is zero -/
structure SZ where
  x : XR
  s : Bool

namespace SZ
open XR

/-- the sign bit -/
noncomputable def sg (a : SZ) : Bool :=
  match a.x with
  | .fin v => if v = 0 then a.s else decide (v < 0)
  | .ninf => true
  | _ => false

/-- the value is a negative zero -/
def NegZero (a : SZ) : Prop := a.x = .fin 0 ∧ a.s = true

noncomputable instance : Neg SZ := ⟨fun a => ⟨-a.x, !a.sg⟩⟩
noncomputable instance : Add SZ := ⟨fun a b => ⟨a.x + b.x, a.sg && b.sg⟩⟩
noncomputable instance : Sub SZ := ⟨fun a b => a + -b⟩
noncomputable instance : Mul SZ := ⟨fun a b => ⟨a.x * b.x, Bool.xor a.sg b.sg⟩⟩
open Classical in
noncomputable instance : Div SZ := ⟨fun a b => ⟨if b.NegZero then -(a.x / b.x) else a.x / b.x, Bool.xor a.sg b.sg⟩⟩

open Classical in
noncomputable instance : Flt SZ where
  lit q := ⟨Flt.lit q, false⟩
  ofInt n := ⟨Flt.ofInt n, false⟩
  pi := ⟨Flt.pi, false⟩
  sqrt a := ⟨Flt.sqrt a.x, a.sg⟩
  sin a := ⟨Flt.sin a.x, a.sg⟩
  cos a := ⟨Flt.cos a.x, false⟩
  tan a := ⟨Flt.tan a.x, a.sg⟩
  asin a := ⟨Flt.asin a.x, a.sg⟩
  atan a := ⟨Flt.atan a.x, a.sg⟩
  floor a := ⟨Flt.floor a.x, a.sg⟩
  abs a := ⟨Flt.abs a.x, false⟩
  atan2 a b := ⟨if a.x = .fin 0 ∧ b.x ≠ .nan then (if b.sg then (if a.s then .fin (-Real.pi) else .fin Real.pi) else .fin 0) else Flt.atan2 a.x b.x, a.sg⟩
  fmod a b := ⟨Flt.fmod a.x b.x, a.sg⟩
  powi a n := ⟨Flt.powi a.x n, a.sg && n % 2 == 1⟩
  powq a q := ⟨Flt.powq a.x q, false⟩
  toLong a := Flt.toLong a.x
  lt a b := Flt.lt a.x b.x
  le a b := Flt.le a.x b.x
  eq a b := Flt.eq a.x b.x
  order := .left

/-! ## values -/

@[simp] theorem neg_x (a : SZ) : (-a).x = -a.x := rfl
@[simp] theorem add_x (a b : SZ) : (a + b).x = a.x + b.x := rfl
@[simp] theorem mul_x (a b : SZ) : (a * b).x = a.x * b.x := rfl
@[simp] theorem sub_x (a b : SZ) : (a - b).x = a.x - b.x := rfl
theorem div_x (a : SZ) {b : SZ} (h : ¬ b.NegZero) : (a / b).x = a.x / b.x := by
  exact if_neg h
@[simp] theorem lit_x (q : ℚ) : (Flt.lit q : SZ).x = Flt.lit q := rfl
@[simp] theorem ofInt_x (n : ℤ) : (Flt.ofInt n : SZ).x = Flt.ofInt n := rfl
@[simp] theorem pi_x : (Flt.pi : SZ).x = Flt.pi := rfl
@[simp] theorem sqrt_x (a : SZ) : (Flt.sqrt a).x = Flt.sqrt a.x := rfl
@[simp] theorem sin_x (a : SZ) : (Flt.sin a).x = Flt.sin a.x := rfl
@[simp] theorem cos_x (a : SZ) : (Flt.cos a).x = Flt.cos a.x := rfl
@[simp] theorem tan_x (a : SZ) : (Flt.tan a).x = Flt.tan a.x := rfl
@[simp] theorem asin_x (a : SZ) : (Flt.asin a).x = Flt.asin a.x := rfl
@[simp] theorem atan_x (a : SZ) : (Flt.atan a).x = Flt.atan a.x := rfl
@[simp] theorem floor_x (a : SZ) : (Flt.floor a).x = Flt.floor a.x := rfl
@[simp] theorem abs_x (a : SZ) : (Flt.abs a).x = Flt.abs a.x := rfl
@[simp] theorem fmod_x (a b : SZ) : (Flt.fmod a b).x = Flt.fmod a.x b.x := rfl
@[simp] theorem powi_x (a : SZ) (n : ℕ) : (Flt.powi a n).x = Flt.powi a.x n := rfl
@[simp] theorem powq_x (a : SZ) (q : ℚ) : (Flt.powq a q).x = Flt.powq a.x q := rfl
@[simp] theorem toLong_x (a : SZ) : Flt.toLong a = Flt.toLong a.x := rfl
@[simp] theorem lt_x (a b : SZ) : Flt.lt a b = Flt.lt a.x b.x := rfl
@[simp] theorem le_x (a b : SZ) : Flt.le a b = Flt.le a.x b.x := rfl
@[simp] theorem eq_x (a b : SZ) : Flt.eq a b = Flt.eq a.x b.x := rfl

/-! ## where no negative zero can arise -/

/-- not a negative zero -/
abbrev Pl (a : SZ) : Prop := ¬ a.NegZero

theorem sg_zero {a : SZ} (h : a.x = .fin 0) : a.sg = a.s := by simp [sg, h]

theorem pl_of_s {a : SZ} (h : a.s = false) : Pl a := fun ⟨_, e⟩ => by rw [h] at e; cases e
theorem pl_of_ne {a : SZ} (h : a.x ≠ .fin 0) : Pl a := fun ⟨e, _⟩ => h e
theorem pl_lit (q : ℚ) : Pl (Flt.lit q : SZ) := pl_of_s rfl
theorem pl_ofInt (n : ℤ) : Pl (Flt.ofInt n : SZ) := pl_of_s rfl
theorem pl_pi : Pl (Flt.pi : SZ) := pl_of_s rfl
theorem pl_cos (a : SZ) : Pl (Flt.cos a) := pl_of_s rfl
theorem pl_powq (a : SZ) (q : ℚ) : Pl (Flt.powq a q) := pl_of_s rfl
theorem pl_powi_even (a : SZ) {n : ℕ} (h : n % 2 = 0) : Pl (Flt.powi a n) := pl_of_s (by show (a.sg && n % 2 == 1) = false; simp [h])
theorem sg_sq (a : SZ) : (Flt.powi a 2).sg = false := by
  obtain ⟨a, s⟩ := a
  show (match Flt.powi a 2 with | .fin v => if v = 0 then (sg ⟨a, s⟩ && 2 % 2 == 1) else decide (v < 0) | .ninf => true | _ => false) = false
  cases a with
  | fin v => simp [xsimp, not_lt.2 (sq_nonneg v)]
  | nan => rfl
  | pinf => rfl
  | ninf => rfl
theorem pl_mul {a b : SZ} (ha : a.sg = false) (hb : b.sg = false) : Pl (a * b) := pl_of_s (by show Bool.xor a.sg b.sg = false; simp [ha, hb])
theorem mul_fin_eq_zero {v : ℝ} (hv : 0 < v) {b : XR} (h : XR.fin v * b = .fin 0) : b = .fin 0 := by
  cases b with
  | fin w => rw [XR.fin_mul, XR.fin_inj] at h; rw [(mul_eq_zero.1 h).resolve_left hv.ne']
  | nan => cases h
  | pinf => exact absurd h (by show XR.mul _ _ ≠ _; simp [XR.mul, XR.infSign, hv])
  | ninf => exact absurd h (by show XR.mul _ _ ≠ _; simp [XR.mul, XR.infSign, hv, not_lt.2 hv.le])
theorem sg_pos {a : SZ} {v : ℝ} (h : a.x = .fin v) (hv : 0 < v) : a.sg = false := by simp [sg, h, hv.ne', hv.le]
theorem pl_mul_pos {a b : SZ} {v : ℝ} (ha : a.x = .fin v) (hv : 0 < v) (hb : Pl b) : Pl (a * b) := fun ⟨e, es⟩ => by
  have e' : b.x = .fin 0 := mul_fin_eq_zero hv (by rw [← ha]; exact e)
  change Bool.xor a.sg b.sg = true at es
  rw [sg_pos ha hv, sg_zero e', Bool.false_xor] at es
  exact hb ⟨e', es⟩
theorem pl_self (a : SZ) : Pl (a * a) := pl_of_s (by show Bool.xor a.sg a.sg = false; simp)

theorem add_eq_zero {a b : XR} (h : a + b = .fin 0) : ∃ v, a = .fin v ∧ b = .fin (-v) := by
  cases a <;> cases b <;> first | (exact absurd h (by intro h; cases h)) | skip
  rename_i v w
  rw [XR.fin_add, XR.fin_inj] at h
  exact ⟨v, rfl, by rw [show w = -v by linarith]⟩

theorem pl_add_left {a : SZ} (b : SZ) (h : Pl a) : Pl (a + b) := fun ⟨e, es⟩ => by
  obtain ⟨v, ha, hb⟩ := add_eq_zero e
  change (a.sg && b.sg) = true at es
  rw [Bool.and_eq_true] at es
  rcases eq_or_ne v 0 with rfl | hv
  · exact h ⟨ha, by rw [← sg_zero ha]; exact es.1⟩
  · have h1 := es.1
    have h2 := es.2
    simp only [sg, ha, hb, hv, neg_eq_zero, if_false, decide_eq_true_eq] at h1 h2
    linarith

theorem pl_add_right (a : SZ) {b : SZ} (h : Pl b) : Pl (a + b) := fun ⟨e, es⟩ => by
  obtain ⟨v, ha, hb⟩ := add_eq_zero e
  change (a.sg && b.sg) = true at es
  rw [Bool.and_eq_true] at es
  rcases eq_or_ne v 0 with rfl | hv
  · rw [neg_zero] at hb
    exact h ⟨hb, by rw [← sg_zero hb]; exact es.2⟩
  · have h1 := es.1
    have h2 := es.2
    simp only [sg, ha, hb, hv, neg_eq_zero, if_false, decide_eq_true_eq] at h1 h2
    linarith

theorem pl_sub {a : SZ} (b : SZ) (h : Pl a) : Pl (a - b) := pl_add_left _ h

theorem sqrt_eq_zero {a : XR} (h : Flt.sqrt a = .fin 0) : a = .fin 0 := by
  cases a with
  | fin v =>
    by_cases hv : v < 0
    · simp [Flt.sqrt, hv] at h
    · simp only [Flt.sqrt, hv, if_false, XR.fin_inj] at h
      rw [Real.sqrt_eq_zero (not_lt.1 hv)] at h
      rw [h]
  | nan => cases h
  | pinf => cases h
  | ninf => cases h

theorem pl_sqrt {a : SZ} (h : Pl a) : Pl (Flt.sqrt a) := fun ⟨e, es⟩ => by
  have ha := sqrt_eq_zero e
  exact h ⟨ha, by rw [← sg_zero ha]; exact es⟩

/-! ## sums and fixed-size algebra -/

theorem eval_x {ι : Type} (t : SumTree ι) (f : ι → SZ) : (t.eval f).x = t.eval fun i => (f i).x := by
  induction t with
  | leaf i => rfl
  | node s t hs ht => simp [SumTree.eval, hs, ht]

theorem pl_eval {ι : Type} (t : SumTree ι) (f : ι → SZ) (h : ∀ i, Pl (f i)) : Pl (t.eval f) := by
  induction t with
  | leaf i => exact h i
  | node s t hs _ => exact pl_add_left _ hs

@[simp] theorem fsum_x : {n : ℕ} → (f : Fin n → SZ) → (fsum f).x = fsum fun i => (f i).x
  | 0, _ => rfl
  | _ + 1, f => eval_x _ f

theorem pl_fsum : {n : ℕ} → (f : Fin n → SZ) → (∀ i, Pl (f i)) → Pl (fsum f)
  | 0, _, _ => pl_lit 0
  | _ + 1, f, h => pl_eval _ f h

/-- the values of a vector -/
def vx {n : ℕ} (v : Fin n → SZ) : Fin n → XR := fun i => (v i).x
/-- the values of a matrix -/
def mx {n m : ℕ} (A : Matrix (Fin n) (Fin m) SZ) : Matrix (Fin n) (Fin m) XR := Matrix.of fun i j => (A i j).x

@[simp] theorem vx_apply {n : ℕ} (v : Fin n → SZ) (i : Fin n) : vx v i = (v i).x := rfl
@[simp] theorem mx_apply {n m : ℕ} (A : Matrix (Fin n) (Fin m) SZ) (i : Fin n) (j : Fin m) : mx A i j = (A i j).x := rfl

variable {n m k : ℕ}

@[simp] theorem mmul_x (A : Matrix (Fin n) (Fin k) SZ) (B : Matrix (Fin k) (Fin m) SZ) : mx (mmul A B) = mmul (mx A) (mx B) := by
  ext i j; exact fsum_x _
@[simp] theorem mvec_x (A : Matrix (Fin n) (Fin k) SZ) (v : Fin k → SZ) : vx (mvec A v) = mvec (mx A) (vx v) := by
  ext i; exact fsum_x _
@[simp] theorem madd_x (A B : Matrix (Fin n) (Fin m) SZ) : mx (madd A B) = madd (mx A) (mx B) := rfl
@[simp] theorem msub_x (A B : Matrix (Fin n) (Fin m) SZ) : mx (msub A B) = msub (mx A) (mx B) := rfl
@[simp] theorem mneg_x (A : Matrix (Fin n) (Fin m) SZ) : mx (mneg A) = mneg (mx A) := rfl
@[simp] theorem msmul_x (s : SZ) (A : Matrix (Fin n) (Fin m) SZ) : mx (msmul s A) = msmul s.x (mx A) := rfl
@[simp] theorem mtr_x (A : Matrix (Fin n) (Fin m) SZ) : mx (mtr A) = mtr (mx A) := rfl
@[simp] theorem mid_x : mx (mid : Matrix (Fin n) (Fin n) SZ) = mid := by
  ext i j
  simp only [mx, mid, Matrix.of_apply]
  split <;> rfl
@[simp] theorem mzero_x : mx (mzero : Matrix (Fin n) (Fin m) SZ) = mzero := rfl
@[simp] theorem vouter_x (u : Fin n → SZ) (v : Fin m → SZ) : mx (vouter u v) = vouter (vx u) (vx v) := rfl
@[simp] theorem vadd_x (u v : Fin n → SZ) : vx (vadd u v) = vadd (vx u) (vx v) := rfl
@[simp] theorem vsub_x (u v : Fin n → SZ) : vx (vsub u v) = vsub (vx u) (vx v) := rfl
@[simp] theorem vsmul_x (s : SZ) (v : Fin n → SZ) : vx (vsmul s v) = vsmul s.x (vx v) := rfl
theorem vdiv_x (v : Fin n → SZ) {s : SZ} (h : Pl s) : vx (vdiv v s) = vdiv (vx v) s.x := by ext i; exact div_x _ h
@[simp] theorem vdot_x (u v : Fin n → SZ) : (vdot u v).x = vdot (vx u) (vx v) := fsum_x _
@[simp] theorem vsqNorm_x (v : Fin n → SZ) : (vsqNorm v).x = vsqNorm (vx v) := fsum_x _
@[simp] theorem vnorm_x (v : Fin n → SZ) : (vnorm v).x = vnorm (vx v) := by show Flt.sqrt (vsqNorm v).x = _; rw [vsqNorm_x]; rfl
theorem pl_vsqNorm (v : Fin n → SZ) : Pl (vsqNorm v) := pl_fsum _ fun _ => pl_self _
theorem pl_vnorm (v : Fin n → SZ) : Pl (vnorm v) := pl_sqrt (pl_vsqNorm v)
@[simp] theorem vnormalized_x (v : Fin n → SZ) : vx (vnormalized v) = vnormalized (vx v) := by
  unfold vnormalized
  rw [lt_x, vsqNorm_x, lit_x]
  split
  · rw [vdiv_x _ (pl_sqrt (pl_vsqNorm v)), sqrt_x, vsqNorm_x]
  · rfl
@[simp] theorem vcross_x (u v : V3 SZ) : vx (vcross u v) = vcross (vx u) (vx v) := by
  ext i; fin_cases i <;> rfl

/-! ## `atan2` -/

open Classical in
theorem atan2_x {a b : SZ} {u v : ℝ} (ha : a.x = .fin u) (hb : b.x = .fin v) (h : u = 0 → b.sg = true → a.s = false ∧ v < 0) :
    (Flt.atan2 a b).x = .fin (Complex.arg ⟨v, u⟩) := by
  show (if a.x = .fin 0 ∧ b.x ≠ .nan then (if b.sg then (if a.s then XR.fin (-Real.pi) else .fin Real.pi) else .fin 0) else Flt.atan2 a.x b.x) = _
  rw [ha, hb]
  by_cases hu : u = 0
  · subst hu
    rw [if_pos ⟨rfl, by intro h; cases h⟩]
    by_cases hs : b.sg = true
    · obtain ⟨h1, h2⟩ := h rfl hs
      rw [if_pos hs, h1, if_neg (by simp), XR.fin_inj]
      exact (Complex.arg_eq_pi_iff.2 ⟨h2, rfl⟩).symm
    · rw [if_neg hs, XR.fin_inj]
      have hv : 0 ≤ v := by
        by_contra hv
        exact hs (by simp [sg, hb, (not_le.1 hv).ne, not_le.1 hv])
      exact (Complex.arg_ofReal_of_nonneg hv).symm
  · rw [if_neg (by rintro ⟨h, -⟩; exact hu ((XR.fin_inj _ _).1 h))]
    rfl

open Classical in
theorem atan2_x_zero {a b : SZ} {v : ℝ} (ha : a.x = .fin 0) (hb : b.x = .fin v) (hs : b.sg = true) :
    (Flt.atan2 a b).x = .fin (if a.s then -Real.pi else Real.pi) := by
  show (if a.x = .fin 0 ∧ b.x ≠ .nan then (if b.sg then (if a.s then XR.fin (-Real.pi) else .fin Real.pi) else .fin 0) else Flt.atan2 a.x b.x) = _
  rw [if_pos ⟨ha, by rw [hb]; intro h; cases h⟩, if_pos hs]
  split <;> rfl

end SZ
end NavFuse
