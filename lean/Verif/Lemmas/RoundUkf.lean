import Verif.Lemmas.RoundKalman
import Verif.Lemmas.KalmanEval

/-! # Rounding errors of the sigma point sums -/

namespace NavFuse
open Matrix Kalman
variable [Machine] {r : ℝ → ℝ} {n m N : ℕ}

section anyScalar
variable {α : Type} [Add α] [Sub α] [Mul α] [Div α] [Neg α] [Flt α]

omit [Machine] [Sub α] [Div α] [Neg α] in
theorem meanC_apply (W : Fin N → α) (A : Matrix (Fin n) (Fin N) α) (k : Fin n) :
    meanC W A k = (List.finRange N).foldl (fun acc i => acc + W i * A k i) (Flt.lit 0) := by
  have : ∀ (l : List (Fin N)) (acc : Fin n → α), l.foldl (fun acc i => vadd acc (vsmul (W i) (fun k => A k i))) acc k
      = l.foldl (fun acc i => acc + W i * A k i) (acc k) := fun l => by
    induction l with
    | nil => exact fun _ => rfl
    | cons i l ih => exact fun acc => ih _
  exact this _ _

omit [Machine] [Div α] [Neg α] [Flt α] in
theorem scatterC_apply (W : Fin N → α) (A : Matrix (Fin n) (Fin N) α) (a : Fin n → α) (B : Matrix (Fin m) (Fin N) α) (b : Fin m → α)
    (init : Matrix (Fin n) (Fin m) α) (p : Fin n) (q : Fin m) :
    scatterC W A a B b init p q
      = (List.finRange N).foldl (fun acc i => acc + W i * (A p i - a p) * (B q i - b q)) (init p q) := by
  have : ∀ (l : List (Fin N)) (acc : Matrix (Fin n) (Fin m) α), l.foldl (fun acc i => madd acc
          (vouter (vsmul (W i) (vsub (fun k => A k i) a)) (vsub (fun k => B k i) b))) acc p q
      = l.foldl (fun acc i => acc + W i * (A p i - a p) * (B q i - b q)) (acc p q) := fun l => by
    induction l with
    | nil => exact fun _ => rfl
    | cons i l ih => exact fun acc => ih _
  exact this _ _
end anyScalar

omit [Machine] in
/-- a running sum -/
theorem Rl.foldl (h : Rounds53 r) {ι : Type} {F : ι → Dbl r} {y M : ι → ℝ} {k : ℕ} (l : List ι) (a : ∀ i, Rl (F i) (y i) k (M i))
    (hM : ∀ i, 1e-250 ≤ M i) {X : Dbl r} {x Mx : ℝ} {k' : ℕ} (hk' : k ≤ k') (hX : Rl X x k' Mx) (hC : Mx + (l.map M).sum ≤ 1e199) (hk : k' + l.length ≤ 10 ^ 15) :
    Rl (l.foldl (fun acc i => acc + F i) X) (x + (l.map y).sum) (k' + l.length) (Mx + (l.map M).sum) := by
  induction l generalizing X x Mx k' with
  | nil => simpa using hX
  | cons i l ih =>
    have m0 : 0 ≤ (l.map M).sum := List.sum_nonneg fun x hx => by
      obtain ⟨i, -, rfl⟩ := List.mem_map.1 hx
      exact (a i).M_nonneg
    simp only [List.map_cons, List.sum_cons, List.length_cons, List.foldl_cons] at hC hk ⊢
    rw [← add_assoc, ← add_assoc, ← add_assoc, add_right_comm k', add_assoc k' 1] at *
    have b := hX.add h ((a i).mono hk') (by linarith [hM i, hX.M_nonneg]) (by linarith) (by omega)
    rw [show k' + (1 + l.length) = (k' + 1) + l.length by omega]
    exact ih (by omega) b (by linarith) (by omega)

theorem meanC_rl (h : Rounds53 r) {W' : Fin N → Dbl r} {A' : Matrix (Fin n) (Fin N) (Dbl r)} {W MW : Fin N → ℝ} {A MA : Matrix (Fin n) (Fin N) ℝ}
    (hW : VRl W' W 0 MW) (hA : MRl A' A 0 MA) (fW : ∀ i, 1e-50 ≤ MW i) (fA : ∀ i j, 1e-50 ≤ MA i j) (k : Fin n) (hC : ∑ i, MW i * MA k i ≤ 1e199)
    (hN : 1 + N ≤ 10 ^ 15) : Rl (meanC W' A' k) (∑ i, W i * A k i) (1 + N) (∑ i, MW i * MA k i) := by
  have z50 : (0 : ℝ) ≤ 1e-50 := by norm_num
  have m0 : ∀ i, 0 ≤ MW i * MA k i := fun i => mul_nonneg (hW i).M_nonneg (hA k i).M_nonneg
  have t : ∀ i, Rl (W' i * A' k i) (W i * A k i) 1 (MW i * MA k i) := fun i =>
    (hW i).mul h (hA k i) (floor_mul (fW i) (fA k i) z50 z50 (by norm_num))
      ((Finset.single_le_sum (f := fun i => MW i * MA k i) (fun i _ => m0 i) (Finset.mem_univ i)).trans hC) (by norm_num)
  have e : ∀ f : Fin N → ℝ, 0 + ((List.finRange N).map f).sum = ∑ i, f i := fun f => by rw [zero_add, Fin.sum_univ_def]
  have := Rl.foldl h (List.finRange N) t (fun i => floor_mul (fW i) (fA k i) z50 z50 (by norm_num)) (le_refl 1) ((Rl.zero h).mono (Nat.zero_le 1))
    (by rw [e]; exact hC) (by rw [List.length_finRange]; exact hN)
  rw [e, e, List.length_finRange] at this
  rw [meanC_apply]; exact this

omit [Machine] in
theorem scatterC_rl (h : Rounds53 r) {W' : Fin N → Dbl r} {A' : Matrix (Fin n) (Fin N) (Dbl r)} {B' : Matrix (Fin m) (Fin N) (Dbl r)}
    {a' : Fin n → Dbl r} {b' : Fin m → Dbl r} {Q' : Matrix (Fin n) (Fin m) (Dbl r)} {W MW : Fin N → ℝ} {A MA : Matrix (Fin n) (Fin N) ℝ}
    {B MB : Matrix (Fin m) (Fin N) ℝ} {a Ma : Fin n → ℝ} {b Mb : Fin m → ℝ} {Q MQ : Matrix (Fin n) (Fin m) ℝ} {ka kb : ℕ}
    (hW : VRl W' W 0 MW) (hA : MRl A' A 0 MA) (hB : MRl B' B 0 MB) (ha : VRl a' a ka Ma) (hb : VRl b' b kb Mb) (hQ : MRl Q' Q 0 MQ)
    (fW : ∀ i, 1e-50 ≤ MW i) (fA : ∀ i j, 1e-50 ≤ MA i j) (fB : ∀ i j, 1e-50 ≤ MB i j)
    (cW : ∀ i, MW i ≤ 1e60) (p : Fin n) (q : Fin m) (cA : ∀ i, MA p i + Ma p ≤ 1e60) (cB : ∀ i, MB q i + Mb q ≤ 1e60)
    (hC : MQ p q + ∑ i, MW i * (MA p i + Ma p) * (MB q i + Mb q) ≤ 1e199) (hk : ka + kb + 4 + N ≤ 10 ^ 15) :
    Rl (scatterC W' A' a' B' b' Q' p q) (Q p q + ∑ i, W i * (A p i - a p) * (B q i - b q)) (ka + kb + 4 + N)
      (MQ p q + ∑ i, MW i * (MA p i + Ma p) * (MB q i + Mb q)) := by
  have z50 : (0 : ℝ) ≤ 1e-50 := by norm_num
  have gA : ∀ i, 1e-50 ≤ MA p i + Ma p := fun i => by linarith [fA p i, (ha p).M_nonneg]
  have gB : ∀ i, 1e-50 ≤ MB q i + Mb q := fun i => by linarith [fB q i, (hb q).M_nonneg]
  have pA : ∀ i, 0 ≤ MA p i + Ma p := fun i => z50.trans (gA i)
  have pB : ∀ i, 0 ≤ MB q i + Mb q := fun i => z50.trans (gB i)
  have pW : ∀ i, 0 ≤ MW i := fun i => z50.trans (fW i)
  have w1 : ∀ i, MW i * (MA p i + Ma p) ≤ 1e120 := fun i => (mul_le_mul (cW i) (cA i) (pA i) (by norm_num)).trans (by norm_num)
  have w2 : ∀ i, MW i * (MA p i + Ma p) * (MB q i + Mb q) ≤ 1e180 := fun i => (mul_le_mul (w1 i) (cB i) (pB i) (by norm_num)).trans (by norm_num)
  have f1 : ∀ i, 1e-100 ≤ MW i * (MA p i + Ma p) := fun i => floor_mul (fW i) (gA i) z50 z50 (by norm_num)
  have f2 : ∀ i, 1e-250 ≤ MW i * (MA p i + Ma p) * (MB q i + Mb q) := fun i => floor_mul (f1 i) (gB i) (by norm_num) z50 (by norm_num)
  have t : ∀ i, Rl (W' i * (A' p i - a' p) * (B' q i - b' q)) (W i * (A p i - a p) * (B q i - b q)) (ka + kb + 4)
      (MW i * (MA p i + Ma p) * (MB q i + Mb q)) := fun i => by
    have d1 := ((hA p i).mono (Nat.zero_le ka)).sub h (ha p) (le_trans (by norm_num) (gA i)) ((cA i).trans (by norm_num)) (by omega)
    have d2 := ((hB q i).mono (Nat.zero_le kb)).sub h (hb q) (le_trans (by norm_num) (gB i)) ((cB i).trans (by norm_num)) (by omega)
    have d3 := (hW i).mul h d1 (le_trans (by norm_num) (f1 i)) ((w1 i).trans (by norm_num)) (by omega)
    exact (d3.mul h d2 (f2 i) ((w2 i).trans (by norm_num)) (by omega)).mono (by omega)
  have e : ∀ f : Fin N → ℝ, ((List.finRange N).map f).sum = ∑ i, f i := fun f => by rw [Fin.sum_univ_def]
  have := Rl.foldl h (List.finRange N) t f2 (le_refl _) ((hQ p q).mono (Nat.zero_le _))
    (by rw [e]; exact hC) (by rw [List.length_finRange]; exact hk)
  rw [e, e, List.length_finRange] at this
  rw [scatterC_apply]; exact this

omit [Machine] in
/-- a running sum of nonnegative terms does not fall below its start -/
theorem foldl_ge (h : Rounds53 r) (hi : ∀ x, r (r x) = r x) {ι : Type} {F : ι → Dbl r} {y M : ι → ℝ} {k : ℕ} (l : List ι) (a : ∀ i, Rl (F i) (y i) k (M i))
    (hM : ∀ i, 1e-250 ≤ M i) (hF : ∀ i t, F i = .fin t → 0 ≤ t) {X : Dbl r} {x Mx v q : ℝ} {k' : ℕ} (hk' : k ≤ k') (hX : Rl X x k' Mx)
    (hC : Mx + (l.map M).sum ≤ 1e199) (hk : k' + l.length ≤ 10 ^ 15) (hv : X = .fin v) (hr : r v = v) (hq : q ≤ v) :
    ∃ w, l.foldl (fun acc i => acc + F i) X = .fin w ∧ q ≤ w := by
  induction l generalizing X x Mx k' v with
  | nil => exact ⟨v, hv, hq⟩
  | cons i l ih =>
    have m0 : 0 ≤ (l.map M).sum := List.sum_nonneg fun x hx => by
      obtain ⟨i, -, rfl⟩ := List.mem_map.1 hx
      exact (a i).M_nonneg
    simp only [List.map_cons, List.sum_cons, List.length_cons, List.foldl_cons] at hC hk ⊢
    have b := hX.add h ((a i).mono hk') (by linarith [hM i, hX.M_nonneg]) (by linarith) (by omega)
    obtain ⟨t, et, -⟩ := (a i).near
    obtain ⟨s, es, -⟩ := b.near
    have t0 := hF i t et
    have e : s = r (v + t) := by
      rw [hv, et] at es
      have e1 : Dbl.rd r (.fin (v + t)) = .fin s := es
      rw [Dbl.rd] at e1
      split_ifs at e1
      · injection e1 with e1; injection e1 with e1; exact e1.symm
      · injection e1 with e1; cases e1
      · injection e1 with e1; cases e1
    refine ih (by omega) b (by linarith) (by omega) es (by rw [e, hi]) (hq.trans ?_)
    rw [e]
    calc v = r v := hr.symm
      _ ≤ r (v + t) := h.mono (by linarith)

omit [Machine] in
theorem roundEven_neg (t : ℝ) : roundEven (-t) = -roundEven t := by
  have e := Int.floor_add_fract t
  have h0 := Int.fract_nonneg t
  have h1 := Int.fract_lt_one t
  rcases eq_or_lt_of_le h0 with h | h
  · have et : t = (⌊t⌋ : ℤ) := by linarith
    rw [et, ← Int.cast_neg, roundEven_int.keeps, roundEven_int.keeps]
  · have hf : ⌊-t⌋ = -⌊t⌋ - 1 := by
      rw [Int.floor_eq_iff]; push_cast; constructor <;> linarith
    have hr : Int.fract (-t) = 1 - Int.fract t := by
      rw [Int.fract, hf]; push_cast; linarith
    have hp : Even (-⌊t⌋ - 1) ↔ ¬ Even ⌊t⌋ := by
      rw [Int.even_sub_one, even_neg]
    rw [roundEven, roundEven, hr, hf]
    simp only [hp]
    split_ifs <;> first | omega | (exfalso; linarith)

omit [Machine] in
/-- rounding to nearest is the same on both sides of zero -/
theorem ieeeEven_neg (x : ℝ) : ieeeEven (-x) = -ieeeEven x := by
  have hq : quantum (-x) = quantum x := by simp only [quantum, neg_eq_zero, abs_neg]
  rw [ieeeEven, ieee, ieee, hq, neg_div, roundEven_neg]
  push_cast; ring

end NavFuse
