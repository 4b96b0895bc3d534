import Verif.Lemmas.RoundMat
import Verif.Lemmas.SumSmall

/-! # Rounding errors in the presence of exact zeros, and of reciprocals

`Rz X y k M`: as `Rl`, and `M` is either large enough for the rounding errors not to be those of subnormal numbers, or everything is exactly zero. -/

namespace NavFuse
open Matrix
variable [Machine] {r : ℝ → ℝ}

structure Rz (X : Dbl r) (y : ℝ) (k : ℕ) (M : ℝ) : Prop where
  rl : Rl X y k M
  z : 1e-250 ≤ M ∨ (X = .fin 0 ∧ y = 0 ∧ M = 0)

namespace Rz
variable {X X' : Dbl r} {y y' M M' : ℝ} {k k' : ℕ}

omit [Machine] in
theorem rd_zero (h : Rounds53 r) : Dbl.rd r (.fin 0) = .fin 0 := by
  rw [Dbl.rd_fin] <;> rw [h.zero]
  rw [abs_zero]; positivity

theorem zero (h : Rounds53 r) : Rz (Flt.lit 0 : Dbl r) 0 k 0 := by
  have : (Flt.lit 0 : Dbl r) = .fin 0 := by
    show Dbl.rd r (.fin ((0 : ℚ) : ℝ)) = _
    rw [Rat.cast_zero, rd_zero h]
  refine ⟨(Rl.zero h).mono (Nat.zero_le k), .inr ⟨this, rfl, rfl⟩⟩

theorem one (h : Rounds53 r) : Rz (Flt.lit 1 : Dbl r) 1 k 1 := ⟨(Rl.one h).mono (Nat.zero_le k), .inl (by norm_num)⟩

omit [Machine] in
theorem exact {x : ℝ} (h : |x| ≤ M) (hM : 1e-250 ≤ M) : Rz (.fin x : Dbl r) x k M := ⟨(Rl.exact h).mono (Nat.zero_le k), .inl hM⟩

omit [Machine] in
theorem mono (a : Rz X y k M) (h : k ≤ k') : Rz X y k' M := ⟨a.rl.mono h, a.z⟩

omit [Machine] in
/-- a weaker bound -/
theorem le (a : Rz X y k M) (h : M ≤ M') (hM : 1e-250 ≤ M') : Rz X y k M' := by
  obtain ⟨x, e, b⟩ := a.rl.near
  exact ⟨⟨⟨x, e, b.trans (mul_le_mul_of_nonneg_left h (by linarith [one_le_gr k]))⟩, a.rl.mag.trans h⟩, .inl hM⟩

omit [Machine] in
theorem neg (a : Rz X y k M) : Rz (-X) (-y) k M := by
  obtain ⟨x, rfl, b⟩ := a.rl.near
  refine ⟨⟨⟨-x, rfl, ?_⟩, by rw [abs_neg]; exact a.rl.mag⟩, ?_⟩
  · rw [neg_sub_neg, abs_sub_comm]; exact b
  · rcases a.z with h | ⟨h1, h2, h3⟩
    · exact .inl h
    · refine .inr ⟨?_, by rw [h2, neg_zero], h3⟩
      rw [h1]
      exact congrArg Dbl.fin neg_zero

omit [Machine] in
theorem add (h : Rounds53 r) (a : Rz X y k M) (b : Rz X' y' k M') (hC : M + M' ≤ 1e199) (hk : k + 1 ≤ 10 ^ 15) :
    Rz (X + X') (y + y') (k + 1) (M + M') := by
  have m0 := a.rl.M_nonneg
  have m1 := b.rl.M_nonneg
  by_cases hM : 1e-250 ≤ M + M'
  · exact ⟨a.rl.add h b.rl hM hC hk, .inl hM⟩
  · rcases a.z with h1 | ⟨h1, h2, h3⟩
    · exact absurd (by linarith) hM
    rcases b.z with g1 | ⟨g1, g2, g3⟩
    · exact absurd (by linarith) hM
    subst h1 h2 h3 g1 g2 g3
    have e : (.fin 0 : Dbl r) + .fin 0 = .fin 0 := by
      show Dbl.rd r (XR.fin 0 + XR.fin 0) = _
      rw [XR.fin_add, add_zero, rd_zero h]
    rw [e, add_zero]
    exact ⟨(Rl.exact (by simp)).mono (Nat.zero_le _), .inr ⟨rfl, rfl, rfl⟩⟩

omit [Machine] in
theorem sub (h : Rounds53 r) (a : Rz X y k M) (b : Rz X' y' k M') (hC : M + M' ≤ 1e199) (hk : k + 1 ≤ 10 ^ 15) :
    Rz (X - X') (y - y') (k + 1) (M + M') := by
  have m0 := a.rl.M_nonneg
  have m1 := b.rl.M_nonneg
  by_cases hM : 1e-250 ≤ M + M'
  · exact ⟨a.rl.sub h b.rl hM hC hk, .inl hM⟩
  · rcases a.z with h1 | ⟨h1, h2, h3⟩
    · exact absurd (by linarith) hM
    rcases b.z with g1 | ⟨g1, g2, g3⟩
    · exact absurd (by linarith) hM
    subst h1 h2 h3 g1 g2 g3
    have e : (.fin 0 : Dbl r) - .fin 0 = .fin 0 := by
      show Dbl.rd r (XR.fin 0 - XR.fin 0) = _
      rw [XR.fin_sub, sub_zero, rd_zero h]
    rw [e, sub_zero, add_zero]
    exact ⟨(Rl.exact (by simp)).mono (Nat.zero_le _), .inr ⟨rfl, rfl, rfl⟩⟩

omit [Machine] in
theorem zero_mul' (h : Rounds53 r) (b : Rl X' y' k' M') : Rz ((.fin 0 : Dbl r) * X') 0 k 0 := by
  obtain ⟨x, rfl, -⟩ := b.near
  have e : (.fin 0 : Dbl r) * .fin x = .fin 0 := by
    show Dbl.rd r (XR.fin 0 * XR.fin x) = _
    rw [XR.fin_mul, zero_mul, rd_zero h]
  rw [e]
  exact ⟨(Rl.exact (by simp)).mono (Nat.zero_le _), .inr ⟨rfl, rfl, rfl⟩⟩

omit [Machine] in
theorem mul_zero' (h : Rounds53 r) (b : Rl X' y' k' M') : Rz (X' * (.fin 0 : Dbl r)) 0 k 0 := by
  obtain ⟨x, rfl, -⟩ := b.near
  have e : (.fin x : Dbl r) * .fin 0 = .fin 0 := by
    show Dbl.rd r (XR.fin x * XR.fin 0) = _
    rw [XR.fin_mul, mul_zero, rd_zero h]
  rw [e]
  exact ⟨(Rl.exact (by simp)).mono (Nat.zero_le _), .inr ⟨rfl, rfl, rfl⟩⟩

omit [Machine] in
theorem mul (h : Rounds53 r) (a : Rz X y k M) (b : Rz X' y' k' M') (hM : M ≠ 0 → M' ≠ 0 → 1e-250 ≤ M * M') (hC : M * M' ≤ 1e199)
    (hk : k + k' + 1 ≤ 10 ^ 15) : Rz (X * X') (y * y') (k + k' + 1) (M * M') := by
  have pos : ∀ {t : ℝ}, 1e-250 ≤ t → t ≠ 0 := fun ht => (lt_of_lt_of_le (by norm_num) ht).ne'
  rcases a.z with h1 | ⟨h1, h2, h3⟩
  · rcases b.z with g1 | ⟨g1, g2, g3⟩
    · have := hM (pos h1) (pos g1)
      exact ⟨a.rl.mul h b.rl this hC hk, .inl this⟩
    · rw [g1, g2, g3, mul_zero, mul_zero]; exact mul_zero' h a.rl
  · rw [h1, h2, h3, zero_mul, zero_mul]; exact zero_mul' h b.rl

/-- three terms, in any order -/
theorem fsum3 (h : Rounds53 r) {F : Fin 3 → Dbl r} {y M : Fin 3 → ℝ} (a : ∀ i, Rz (F i) (y i) k (M i)) (hC : M 0 + M 1 + M 2 ≤ 1e199)
    (hk : k + 2 ≤ 10 ^ 15) : Rz (NavFuse.fsum F) (y 0 + y 1 + y 2) (k + 2) (M 0 + M 1 + M 2) := by
  rw [Dbl.fsum3, ← sum_ord3 y, ← sum_ord3 M]
  rw [← sum_ord3 M] at hC
  have m := (a (ord3 2)).rl.M_nonneg
  exact ((a _).add h (a _) (by linarith) (by omega)).add h ((a _).mono (Nat.le_succ k)) hC (by omega)

omit [Machine] in
/-- a sum of any length in any order -/
theorem eval (h : Rounds53 r) {ι : Type} {F : ι → Dbl r} {y M : ι → ℝ} (a : ∀ i, Rz (F i) (y i) k (M i))
    (t : SumTree ι) (hC : (t.leaves.map M).sum ≤ 1e199) (hk : k + t.leaves.length ≤ 10 ^ 15) :
    Rz (t.eval F) (t.leaves.map y).sum (k + t.leaves.length) (t.leaves.map M).sum := by
  induction t with
  | leaf i => simpa [SumTree.eval, SumTree.leaves] using (a i).mono (Nat.le_succ k)
  | node t u iht ihu =>
    have m0 : ∀ v : SumTree ι, 0 ≤ (v.leaves.map M).sum := fun v => List.sum_nonneg fun x hx => by
      obtain ⟨i, -, rfl⟩ := List.mem_map.1 hx
      exact (a i).rl.M_nonneg
    have lt := t.leaves_length_pos
    have lu := u.leaves_length_pos
    rw [SumTree.leaves, List.map_append, List.sum_append] at hC
    rw [SumTree.leaves, List.length_append] at hk
    rw [SumTree.leaves, List.map_append, List.sum_append, List.map_append, List.sum_append, List.length_append]
    have e : k + (t.leaves.length + u.leaves.length) = k + (t.leaves.length + u.leaves.length - 1) + 1 := by omega
    rw [e]
    exact Rz.add h ((iht (by linarith [m0 u]) (by omega)).mono (by omega)) ((ihu (by linarith [m0 t]) (by omega)).mono (by omega)) hC (by omega)

theorem fsum (h : Rounds53 r) {n : ℕ} {F : Fin n → Dbl r} {y M : Fin n → ℝ} (a : ∀ i, Rz (F i) (y i) k (M i))
    (hC : ∑ i, M i ≤ 1e199) (hk : k + n ≤ 10 ^ 15) : Rz (NavFuse.fsum F) (∑ i, y i) (k + n) (∑ i, M i) := by
  cases n with
  | zero => simpa [NavFuse.fsum] using (Rz.zero h : Rz _ _ k _)
  | succ n =>
    have p := Machine.order.perm n
    have e : ∀ f : Fin (n + 1) → ℝ, ((Machine.order.tree n).leaves.map f).sum = ∑ i, f i := fun f => by
      rw [(p.map f).sum_eq, Fin.sum_univ_def]
    have l : (Machine.order.tree n).leaves.length = n + 1 := by rw [p.length_eq, List.length_finRange]
    have := Rz.eval h a (Machine.order.tree n) (by rw [e]; exact hC) (by rw [l]; exact hk)
    rw [e, e, l] at this
    exact this

end Rz

omit [Machine] in
/-- the relative error of a quotient -/
theorem inv_rel {x y g : ℝ} (hy : y ≠ 0) (hg : 1 ≤ g) (hg' : g ≤ 1.5) (e : |x - y| ≤ (g - 1) * |y|) :
    x ≠ 0 ∧ |1 / x - 1 / y| ≤ (g * g - 1) * (1 / |y|) := by
  have py : 0 < |y| := abs_pos.2 hy
  have hx : (2 - g) * |y| ≤ |x| := by
    have := abs_sub_abs_le_abs_sub y x
    rw [abs_sub_comm] at this
    nlinarith
  have px : 0 < |x| := lt_of_lt_of_le (mul_pos (by linarith) py) hx
  have hx0 : x ≠ 0 := abs_pos.1 px
  refine ⟨hx0, ?_⟩
  rw [div_sub_div _ _ hx0 hy, one_mul, mul_one, abs_div, abs_mul, div_le_iff₀ (mul_pos px py), abs_sub_comm]
  rw [show (g * g - 1) * (1 / |y|) * (|x| * |y|) = (g * g - 1) * |x| by field_simp]
  refine e.trans ?_
  have h1 : (g * g - 1) * ((2 - g) * |y|) ≤ (g * g - 1) * |x| := mul_le_mul_of_nonneg_left hx (by nlinarith)
  refine le_trans ?_ h1
  have h3 : 0 ≤ (g - 1) * ((g + 1) * (2 - g) - 1) := mul_nonneg (by linarith) (by nlinarith)
  have h2 : g - 1 ≤ (g * g - 1) * (2 - g) := by nlinarith
  nlinarith

omit [Machine] in
theorem gr_le_15 {k : ℕ} (hk : k ≤ 10 ^ 15) : gr k ≤ 1.5 := by
  refine (gr_le hk).trans ?_
  have hk' : (k : ℝ) ≤ 10 ^ 15 := by exact_mod_cast hk
  have : (k : ℝ) / 2 ^ 51 ≤ 10 ^ 15 / 2 ^ 51 := div_le_div_of_nonneg_right hk' (by positivity)
  have : (10 : ℝ) ^ 15 / 2 ^ 51 ≤ 0.5 := by norm_num
  linarith

/-- a reciprocal -/
theorem Rz.inv (h : Rounds53 r) {X : Dbl r} {y : ℝ} {k : ℕ} (a : Rz X y k |y|) (hy : 1e-199 ≤ |y|) (hC : |y| ≤ 1e199) (hk : 2 * k + 1 ≤ 10 ^ 15) :
    Rz (Flt.lit 1 / X) (1 / y) (2 * k + 1) (1 / |y|) := by
  have py : 0 < |y| := lt_of_lt_of_le (by norm_num) hy
  have hy0 : y ≠ 0 := abs_pos.1 py
  obtain ⟨x, rfl, e⟩ := a.rl.near
  obtain ⟨hx0, e'⟩ := inv_rel hy0 (one_le_gr k) (gr_le_15 (by omega)) e
  have e1 : (Flt.lit 1 : Dbl r) = .fin 1 := by
    show Dbl.rd r (.fin ((1 : ℚ) : ℝ)) = _
    rw [Rat.cast_one, Dbl.rd_fin] <;> rw [h.one]
    rw [abs_one]; exact one_lt_pow₀ (by norm_num) (by norm_num)
  have lo : (1e-250 : ℝ) ≤ 1 / |y| := by
    rw [le_div_iff₀ py]
    have : (1e-250 : ℝ) * |y| ≤ 1e-250 * 1e199 := mul_le_mul_of_nonneg_left hC (by norm_num)
    refine this.trans (by norm_num)
  refine ⟨?_, .inl lo⟩
  rw [e1]
  show Rl (Dbl.rd r (XR.fin 1 / XR.fin x)) _ _ _
  rw [XR.fin_div _ _ hx0]
  refine Rl.round h ?_ (by rw [abs_div, abs_one]) lo ?_ hk
  · rw [two_mul, gr_add]; exact e'
  · rw [div_le_iff₀ py]
    have : (1e199 : ℝ) * 1e-199 ≤ 1e199 * |y| := mul_le_mul_of_nonneg_left hy (by norm_num)
    refine le_trans (by norm_num) this

end NavFuse
