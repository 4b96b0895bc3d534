import Verif.Lemmas.DblBound
import Verif.Lemmas.SumOrder
import Mathlib.Analysis.SpecialFunctions.Exp
import Mathlib.Analysis.Complex.ExponentialBounds

/-! # Rounding errors of sums and matrix products of any size

`Rl X y k M`: the double `X` is finite, and after at most `k` roundings it is within `((1 + 2⁻⁵²)ᵏ - 1) M` of the exact `y`, which is at most `M` in
absolute value. -/

namespace NavFuse
open Matrix
variable [Machine] {r : ℝ → ℝ}

omit [Machine] in
theorem tiny_1022 : (2 : ℝ) ^ (-1022 : ℤ) ≤ 1e-250 := by
  have h1 : (10 : ℝ) ^ 250 ≤ 2 ^ 1022 := by
    have e1 : ((10 : ℝ) ^ 3) ^ 84 ≤ (2 ^ 10) ^ 84 := pow_le_pow_left₀ (by norm_num) (by norm_num) 84
    have e2 : (10 : ℝ) ^ 250 ≤ (10 ^ 3) ^ 84 := by rw [← pow_mul]; exact pow_le_pow_right₀ (by norm_num) (by norm_num)
    have e3 : ((2 : ℝ) ^ 10) ^ 84 ≤ 2 ^ 1022 := by rw [← pow_mul]; exact pow_le_pow_right₀ (by norm_num) (by norm_num)
    exact e2.trans (e1.trans e3)
  have h2 : (1e-250 : ℝ) = (10 ^ 250)⁻¹ := by norm_num
  have h3 : (2 : ℝ) ^ (-1022 : ℤ) = (2 ^ 1022)⁻¹ := by
    rw [show (-1022 : ℤ) = -((1022 : ℕ) : ℤ) by norm_num, _root_.zpow_neg, zpow_natCast]
  rw [h2, h3]
  exact inv_anti₀ (by positivity) h1

omit [Machine] in
theorem Rounds53.rel_floor (h : Rounds53 r) {x M : ℝ} (hx : |x| ≤ M) (hM : 1e-250 ≤ M) : |r x - x| ≤ ulp * M := by
  unfold ulp
  rcases le_total ((2 : ℝ) ^ (-1022 : ℤ)) |x| with h1 | h1
  · exact (h.rel x h1).trans (by rw [div_eq_mul_inv, mul_comm]; norm_num; linarith)
  · have h2 := h.err (-1021) x (h1.trans (zpow_le_zpow_right₀ (by norm_num) (by norm_num)))
    rw [show (-1021 : ℤ) - 53 = -1022 + -52 by norm_num, zpow_add₀ (by norm_num : (2 : ℝ) ≠ 0)] at h2
    have h3 := tiny_1022
    refine h2.trans ?_
    have h4 : (2 : ℝ) ^ (-52 : ℤ) = 1 / 2 ^ 52 := by norm_num [_root_.zpow_neg]
    rw [h4, mul_comm]
    exact mul_le_mul_of_nonneg_left (h3.trans hM) (by positivity)

/-- `(1 + 2⁻⁵²)ᵏ` -/
noncomputable def gr (k : ℕ) : ℝ := (1 + ulp) ^ k

omit [Machine] in
theorem one_le_gr (k : ℕ) : 1 ≤ gr k := one_le_pow₀ (by linarith [ulp_pos])
omit [Machine] in
theorem gr_mono {k l : ℕ} (h : k ≤ l) : gr k ≤ gr l := pow_le_pow_right₀ (by linarith [ulp_pos]) h
omit [Machine] in
theorem gr_add (k l : ℕ) : gr (k + l) = gr k * gr l := pow_add _ _ _
omit [Machine] in
theorem gr_succ (k : ℕ) : gr (k + 1) = gr k * (1 + ulp) := pow_succ _ _

omit [Machine] in
theorem gr_le {k : ℕ} (hk : k ≤ 10 ^ 15) : gr k ≤ 1 + k / 2 ^ 51 := by
  have h1 : gr k ≤ Real.exp (k * ulp) := by
    rw [gr, Real.exp_nat_mul]
    exact pow_le_pow_left₀ (by linarith [ulp_pos]) (by linarith [Real.add_one_le_exp ulp]) k
  have hk' : (k : ℝ) ≤ 10 ^ 15 := by exact_mod_cast hk
  have h2 : (k : ℝ) * ulp ≤ 1 / 4 := by
    have : (k : ℝ) * ulp ≤ 10 ^ 15 * ulp := mul_le_mul_of_nonneg_right hk' ulp_pos.le
    refine this.trans ?_
    unfold ulp; norm_num
  have h0 : 0 ≤ (k : ℝ) * ulp := mul_nonneg (by positivity) ulp_pos.le
  have h3 : Real.exp (k * ulp) ≤ 1 + 2 * (k * ulp) := by
    have := Real.abs_exp_sub_one_sub_id_le (x := k * ulp) (by rw [abs_of_nonneg h0]; linarith)
    have h5 := (abs_le.1 this).2
    nlinarith
  refine h1.trans (h3.trans (le_of_eq ?_))
  unfold ulp; ring

omit [Machine] in
theorem gr_le_two {k : ℕ} (hk : k ≤ 10 ^ 15) : gr k ≤ 2 := by
  refine (gr_le hk).trans ?_
  have hk' : (k : ℝ) ≤ 10 ^ 15 := by exact_mod_cast hk
  have : (k : ℝ) / 2 ^ 51 ≤ 10 ^ 15 / 2 ^ 51 := div_le_div_of_nonneg_right hk' (by positivity)
  have : (10 : ℝ) ^ 15 / 2 ^ 51 ≤ 1 := by norm_num
  linarith

structure Rl (X : Dbl r) (y : ℝ) (k : ℕ) (M : ℝ) : Prop where
  near : ∃ x : ℝ, X = .fin x ∧ |x - y| ≤ (gr k - 1) * M
  mag : |y| ≤ M

namespace Rl
variable {X X' : Dbl r} {y y' M M' : ℝ} {k k' : ℕ}

omit [Machine] in
theorem M_nonneg (a : Rl X y k M) : 0 ≤ M := (abs_nonneg _).trans a.mag

omit [Machine] in
theorem mono (a : Rl X y k M) (h : k ≤ k') : Rl X y k' M := by
  obtain ⟨x, e, b⟩ := a.near
  exact ⟨⟨x, e, b.trans (mul_le_mul_of_nonneg_right (by linarith [gr_mono h]) a.M_nonneg)⟩, a.mag⟩

omit [Machine] in
theorem exact {x : ℝ} (h : |x| ≤ M) : Rl (.fin x : Dbl r) x 0 M := ⟨⟨x, rfl, by simp [gr]⟩, h⟩

omit [Machine] in
theorem val_le {x : ℝ} (e : |x - y| ≤ (gr k - 1) * M) (hm : |y| ≤ M) : |x| ≤ gr k * M := by
  have := abs_add_le (x - y) y
  rw [sub_add_cancel] at this
  linarith

omit [Machine] in
theorem round (h : Rounds53 r) {v : ℝ} (e : |v - y| ≤ (gr k - 1) * M) (hm : |y| ≤ M) (hM : 1e-250 ≤ M) (hC : M ≤ 1e199) (hk : k + 1 ≤ 10 ^ 15) :
    Rl (Dbl.rd r (.fin v)) y (k + 1) M := by
  have hv := val_le e hm
  have M0 : 0 ≤ M := (abs_nonneg _).trans hm
  have hg := one_le_gr k
  have h1 := h.rel_floor hv (hM.trans (by nlinarith))
  have e' : |r v - y| ≤ (gr (k + 1) - 1) * M := by
    have := abs_add_le (r v - v) (v - y)
    rw [sub_add_sub_cancel] at this
    rw [gr_succ]
    nlinarith
  refine ⟨⟨r v, Dbl.rd_fin (lt_of_le_of_lt ((val_le e' hm).trans ?_) Dbl.big), e'⟩, hm⟩
  have := mul_le_mul_of_nonneg_right (gr_le_two hk) M0
  refine this.trans ?_
  norm_num at hC ⊢; linarith

omit [Machine] in
theorem add (h : Rounds53 r) (a : Rl X y k M) (b : Rl X' y' k M') (hM : 1e-250 ≤ M + M') (hC : M + M' ≤ 1e199) (hk : k + 1 ≤ 10 ^ 15) :
    Rl (X + X') (y + y') (k + 1) (M + M') := by
  obtain ⟨x, rfl, e⟩ := a.near
  obtain ⟨x', rfl, e'⟩ := b.near
  refine round h (v := x + x') ?_ ((abs_add_le _ _).trans (add_le_add a.mag b.mag)) hM hC hk
  rw [add_sub_add_comm, mul_add]
  exact (abs_add_le _ _).trans (add_le_add e e')

omit [Machine] in
theorem sub (h : Rounds53 r) (a : Rl X y k M) (b : Rl X' y' k M') (hM : 1e-250 ≤ M + M') (hC : M + M' ≤ 1e199) (hk : k + 1 ≤ 10 ^ 15) :
    Rl (X - X') (y - y') (k + 1) (M + M') := by
  obtain ⟨x, rfl, e⟩ := a.near
  obtain ⟨x', rfl, e'⟩ := b.near
  show Rl (Dbl.rd r (XR.fin x - XR.fin x')) _ _ _
  rw [XR.fin_sub]
  refine round h (v := x - x') ?_ ((abs_sub _ _).trans (add_le_add a.mag b.mag)) hM hC hk
  rw [sub_sub_sub_comm, mul_add]
  exact (abs_sub _ _).trans (add_le_add e e')

omit [Machine] in
theorem mul (h : Rounds53 r) (a : Rl X y k M) (b : Rl X' y' k' M') (hM : 1e-250 ≤ M * M') (hC : M * M' ≤ 1e199) (hk : k + k' + 1 ≤ 10 ^ 15) :
    Rl (X * X') (y * y') (k + k' + 1) (M * M') := by
  obtain ⟨x, rfl, e⟩ := a.near
  obtain ⟨x', rfl, e'⟩ := b.near
  refine round h (v := x * x') ?_ ?_ hM hC hk
  · rw [show x * x' - y * y' = (x - y) * x' + y * (x' - y') by ring]
    refine (abs_add_le _ _).trans ?_
    rw [abs_mul, abs_mul]
    have h1 := mul_le_mul e (val_le e' b.mag) (abs_nonneg _) (mul_nonneg (by linarith [one_le_gr k]) a.M_nonneg)
    have h2 := mul_le_mul a.mag e' (abs_nonneg _) a.M_nonneg
    rw [gr_add]
    linarith
  · rw [abs_mul]; exact mul_le_mul a.mag b.mag (abs_nonneg _) a.M_nonneg

theorem zero (h : Rounds53 r) : Rl (Flt.lit 0 : Dbl r) 0 0 0 := by
  have : (Flt.lit 0 : Dbl r) = .fin 0 := by
    show Dbl.rd r (.fin ((0 : ℚ) : ℝ)) = _
    rw [Rat.cast_zero, Dbl.rd_fin] <;> rw [h.zero]
    rw [abs_zero]; positivity
  rw [this]; exact exact (by simp)

theorem one (h : Rounds53 r) : Rl (Flt.lit 1 : Dbl r) 1 0 1 := by
  have : (Flt.lit 1 : Dbl r) = .fin 1 := by
    show Dbl.rd r (.fin ((1 : ℚ) : ℝ)) = _
    rw [Rat.cast_one, Dbl.rd_fin] <;> rw [h.one]
    rw [abs_one]; exact one_lt_pow₀ (by norm_num) (by norm_num)
  rw [this]; exact exact (by simp)

end Rl

omit [Machine] in
/-- a sum in any order -/
theorem Rl.eval (h : Rounds53 r) {ι : Type} {F : ι → Dbl r} {y M : ι → ℝ} {k : ℕ} (a : ∀ i, Rl (F i) (y i) k (M i)) (hM : ∀ i, 1e-250 ≤ M i)
    (t : SumTree ι) (hC : (t.leaves.map M).sum ≤ 1e199) (hk : k + t.leaves.length ≤ 10 ^ 15) :
    Rl (t.eval F) (t.leaves.map y).sum (k + t.leaves.length) (t.leaves.map M).sum := by
  induction t with
  | leaf i => simpa [SumTree.eval, SumTree.leaves] using (a i).mono (Nat.le_succ k)
  | node t u iht ihu =>
    have m0 : ∀ v : SumTree ι, 0 ≤ (v.leaves.map M).sum := fun v => List.sum_nonneg fun x hx => by
      obtain ⟨i, -, rfl⟩ := List.mem_map.1 hx
      exact (a i).M_nonneg
    have m1 : ∀ v : SumTree ι, 1e-250 ≤ (v.leaves.map M).sum := fun v => by
      induction v with
      | leaf i => simpa [SumTree.leaves] using hM i
      | node v w ihv _ => rw [SumTree.leaves, List.map_append, List.sum_append]; linarith [m0 w]
    have lt := t.leaves_length_pos
    have lu := u.leaves_length_pos
    rw [SumTree.leaves, List.map_append, List.sum_append] at hC
    rw [SumTree.leaves, List.length_append] at hk
    rw [SumTree.leaves, List.map_append, List.sum_append, List.map_append, List.sum_append, List.length_append]
    have e : k + (t.leaves.length + u.leaves.length) = k + (t.leaves.length + u.leaves.length - 1) + 1 := by omega
    rw [e]
    refine Rl.add h ((iht (by linarith [m0 u]) (by omega)).mono (by omega)) ((ihu (by linarith [m0 t]) (by omega)).mono (by omega))
      (by linarith [m0 t, m1 u]) hC (by omega)

theorem Rl.fsum (h : Rounds53 r) {n : ℕ} {F : Fin n → Dbl r} {y M : Fin n → ℝ} {k : ℕ} (a : ∀ i, Rl (F i) (y i) k (M i)) (hM : ∀ i, 1e-250 ≤ M i)
    (hC : ∑ i, M i ≤ 1e199) (hk : k + n ≤ 10 ^ 15) : Rl (NavFuse.fsum F) (∑ i, y i) (k + n) (∑ i, M i) := by
  cases n with
  | zero => simpa [NavFuse.fsum] using (Rl.zero h).mono (Nat.zero_le k)
  | succ n =>
    have p := Machine.order.perm n
    have e : ∀ f : Fin (n + 1) → ℝ, ((Machine.order.tree n).leaves.map f).sum = ∑ i, f i := fun f => by
      rw [(p.map f).sum_eq, Fin.sum_univ_def]
    have l : (Machine.order.tree n).leaves.length = n + 1 := by rw [p.length_eq, List.length_finRange]
    have := Rl.eval h a hM (Machine.order.tree n) (by rw [e]; exact hC) (by rw [l]; exact hk)
    rw [e, e, l] at this
    exact this

/-- entrywise -/
def MRl {n m : ℕ} (A : Matrix (Fin n) (Fin m) (Dbl r)) (Y : Matrix (Fin n) (Fin m) ℝ) (k : ℕ) (M : Matrix (Fin n) (Fin m) ℝ) : Prop :=
  ∀ i j, Rl (A i j) (Y i j) k (M i j)
/-- entrywise -/
def VRl {n : ℕ} (v : Fin n → Dbl r) (y : Fin n → ℝ) (k : ℕ) (M : Fin n → ℝ) : Prop := ∀ i, Rl (v i) (y i) k (M i)

section
variable {n m c : ℕ} {k k' : ℕ}

theorem dot_rl (h : Rounds53 r) {F G : Fin n → Dbl r} {y z M N : Fin n → ℝ} (a : ∀ l, Rl (F l) (y l) k (M l)) (b : ∀ l, Rl (G l) (z l) k' (N l))
    (hM : ∀ l, 1e-250 ≤ M l * N l) (hC : ∑ l, M l * N l ≤ 1e199) (hk : k + k' + 1 + n ≤ 10 ^ 15) :
    Rl (fsum fun l => F l * G l) (∑ l, y l * z l) (k + k' + 1 + n) (∑ l, M l * N l) := by
  refine Rl.fsum h (fun l => (a l).mul h (b l) (hM l) (le_trans ?_ hC) (by omega)) hM hC hk
  exact Finset.single_le_sum (f := fun l => M l * N l) (fun i _ => mul_nonneg (a i).M_nonneg (b i).M_nonneg) (Finset.mem_univ l)

theorem MRl.mmul (h : Rounds53 r) {A : Matrix (Fin n) (Fin c) (Dbl r)} {B : Matrix (Fin c) (Fin m) (Dbl r)} {Y M : Matrix (Fin n) (Fin c) ℝ}
    {Z N : Matrix (Fin c) (Fin m) ℝ} (a : MRl A Y k M) (b : MRl B Z k' N) (hM : ∀ i l j, 1e-250 ≤ M i l * N l j)
    (hC : ∀ i j, (M * N) i j ≤ 1e199) (hk : k + k' + 1 + c ≤ 10 ^ 15) : MRl (NavFuse.mmul A B) (Y * Z) (k + k' + 1 + c) (M * N) := by
  intro i j
  rw [Matrix.mul_apply, Matrix.mul_apply]
  exact dot_rl h (a i) (fun l => b l j) (fun l => hM i l j) (by rw [← Matrix.mul_apply]; exact hC i j) hk

theorem MRl.mvec (h : Rounds53 r) {A : Matrix (Fin n) (Fin c) (Dbl r)} {v : Fin c → Dbl r} {Y M : Matrix (Fin n) (Fin c) ℝ}
    {z N : Fin c → ℝ} (a : MRl A Y k M) (b : VRl v z k' N) (hM : ∀ i l, 1e-250 ≤ M i l * N l)
    (hC : ∀ i, (M *ᵥ N) i ≤ 1e199) (hk : k + k' + 1 + c ≤ 10 ^ 15) : VRl (NavFuse.mvec A v) (Y *ᵥ z) (k + k' + 1 + c) (M *ᵥ N) := by
  intro i
  exact dot_rl h (a i) b (hM i) (hC i) hk

omit [Machine] in
theorem MRl.tr {A : Matrix (Fin n) (Fin m) (Dbl r)} {Y M : Matrix (Fin n) (Fin m) ℝ} (a : MRl A Y k M) : MRl (mtr A) Yᵀ k Mᵀ := fun i j => a j i

omit [Machine] in
theorem MRl.mono {A : Matrix (Fin n) (Fin m) (Dbl r)} {Y M : Matrix (Fin n) (Fin m) ℝ} (a : MRl A Y k M) (hk : k ≤ k') : MRl A Y k' M :=
  fun i j => (a i j).mono hk
omit [Machine] in
theorem VRl.mono {v : Fin n → Dbl r} {y M : Fin n → ℝ} (a : VRl v y k M) (hk : k ≤ k') : VRl v y k' M := fun i => (a i).mono hk

omit [Machine] in
theorem MRl.madd (h : Rounds53 r) {A B : Matrix (Fin n) (Fin m) (Dbl r)} {Y M Z N : Matrix (Fin n) (Fin m) ℝ} (a : MRl A Y k M) (b : MRl B Z k N)
    (hM : ∀ i j, 1e-250 ≤ (M + N) i j) (hC : ∀ i j, (M + N) i j ≤ 1e199) (hk : k + 1 ≤ 10 ^ 15) :
    MRl (NavFuse.madd A B) (Y + Z) (k + 1) (M + N) := fun i j => (a i j).add h (b i j) (hM i j) (hC i j) hk

omit [Machine] in
theorem MRl.msub (h : Rounds53 r) {A B : Matrix (Fin n) (Fin m) (Dbl r)} {Y M Z N : Matrix (Fin n) (Fin m) ℝ} (a : MRl A Y k M) (b : MRl B Z k N)
    (hM : ∀ i j, 1e-250 ≤ (M + N) i j) (hC : ∀ i j, (M + N) i j ≤ 1e199) (hk : k + 1 ≤ 10 ^ 15) :
    MRl (NavFuse.msub A B) (Y - Z) (k + 1) (M + N) := fun i j => (a i j).sub h (b i j) (hM i j) (hC i j) hk

omit [Machine] in
theorem VRl.vadd (h : Rounds53 r) {v w : Fin n → Dbl r} {y z M N : Fin n → ℝ} (a : VRl v y k M) (b : VRl w z k N)
    (hM : ∀ i, 1e-250 ≤ (M + N) i) (hC : ∀ i, (M + N) i ≤ 1e199) (hk : k + 1 ≤ 10 ^ 15) : VRl (NavFuse.vadd v w) (y + z) (k + 1) (M + N) :=
  fun i => (a i).add h (b i) (hM i) (hC i) hk

omit [Machine] in
theorem VRl.vsub (h : Rounds53 r) {v w : Fin n → Dbl r} {y z M N : Fin n → ℝ} (a : VRl v y k M) (b : VRl w z k N)
    (hM : ∀ i, 1e-250 ≤ (M + N) i) (hC : ∀ i, (M + N) i ≤ 1e199) (hk : k + 1 ≤ 10 ^ 15) : VRl (NavFuse.vsub v w) (y - z) (k + 1) (M + N) :=
  fun i => (a i).sub h (b i) (hM i) (hC i) hk

theorem MRl.id (h : Rounds53 r) : MRl (mid : Matrix (Fin n) (Fin n) (Dbl r)) 1 0 1 := by
  intro i j
  show Rl (if i = j then Flt.lit 1 else Flt.lit 0) _ _ _
  by_cases hij : i = j
  · subst hij; rw [if_pos rfl, Matrix.one_apply_eq]; exact Rl.one h
  · rw [if_neg hij, Matrix.one_apply_ne hij]; exact Rl.zero h

end

end NavFuse
