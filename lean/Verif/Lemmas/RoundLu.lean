import Verif.Lemmas.RoundMat
import Verif.Lemmas.Solvers

/-! # Rounding errors of the LU solver -/

namespace NavFuse
open Matrix
variable [Machine] {r : ℝ → ℝ}

omit [Machine] in
/-- a finite double that is a rounded value is the rounding of it -/
theorem Dbl.rd_eq {v x : ℝ} (e : Dbl.rd r (.fin v) = .fin x) : r v = x := by
  rw [Dbl.rd] at e
  split_ifs at e
  · exact XR.fin.inj (congrArg Dbl.x e)
  · exact XR.noConfusion (congrArg Dbl.x e)
  · exact XR.noConfusion (congrArg Dbl.x e)

omit [Machine] in
/-- no quotient by zero is finite -/
theorem Dbl.div_zero_ne (X : Dbl r) (x : ℝ) : X / .fin 0 ≠ .fin x := by
  intro e
  have e' : Dbl.rd r (X.x / .fin 0) = .fin x := e
  have h : ∀ z : XR, ∀ v, z / .fin 0 ≠ .fin v := fun z v hz => by
    have hz' : XR.div z (.fin 0) = .fin v := hz
    cases z with
    | fin y => simp only [XR.div, XR.infSign] at hz'; split_ifs at hz'
    | pinf => simp [XR.div] at hz'
    | ninf => simp [XR.div] at hz'
    | nan => simp [XR.div] at hz'
  cases hz : X.x / .fin 0 with
  | fin y => exact h _ _ hz
  | pinf => rw [hz] at e'; exact XR.noConfusion (congrArg Dbl.x e')
  | ninf => rw [hz] at e'; exact XR.noConfusion (congrArg Dbl.x e')
  | nan => rw [hz] at e'; exact XR.noConfusion (congrArg Dbl.x e')

theorem argmax_D {n : ℕ} (f : Fin (n + 1) → ℝ) : argmax (fun i => (.fin (f i) : Dbl r)) = argmax f := by
  induction n with
  | zero => rfl
  | succ n ih =>
    simp only [argmax, ih fun j => f j.castSucc]
    rfl

omit [Machine] in
/-- an elimination factor is at most one -/
theorem lu_factor (h : Rounds53 r) {a p : ℝ} (hp : p ≠ 0) (ha : |a| ≤ |p|) :
    ∃ t, (.fin a / .fin p : Dbl r) = .fin t ∧ |t| ≤ 1 ∧ |t - a / p| ≤ ulp := by
  have q1 : |a / p| ≤ 1 := by rw [abs_div]; exact div_le_one_of_le₀ ha (abs_nonneg _)
  have q2 : |r (a / p)| ≤ 1 := by
    have h1 := h.one
    have h2 : r (-1) = -1 := by have := h.int (-1) (by norm_num); simpa using this
    obtain ⟨a1, a2⟩ := abs_le.1 q1
    refine abs_le.2 ⟨?_, ?_⟩
    · rw [← h2]; exact h.mono a1
    · rw [← h1]; exact h.mono a2
  refine ⟨r (a / p), ?_, q2, ?_⟩
  · show Dbl.rd r (XR.fin a / XR.fin p) = _
    rw [XR.fin_div _ _ hp]
    exact Dbl.rd_fin (lt_of_le_of_lt (q2.trans (by norm_num)) Dbl.big)
  · have := h.rel_floor q1 (by norm_num)
    rwa [mul_one] at this

omit [Machine] in
/-- one coefficient after the elimination of a column -/
theorem lu_entry (h : Rounds53 r) {a t c m : ℝ} (ha : |a| ≤ m) (ht : |t| ≤ 1) (hc : |c| ≤ m) (m0 : 1e-200 ≤ m) (m1 : m ≤ 1e190) :
    ∃ s, (.fin a - .fin t * .fin c : Dbl r) = .fin s ∧ |s - (a - t * c)| ≤ (gr 2 - 1) * (2 * m) ∧ |s| ≤ 2 * gr 2 * m := by
  have f1 : (1e-250 : ℝ) ≤ 1 * m := by rw [one_mul]; exact le_trans (by norm_num) m0
  have f2 : 1 * m ≤ (1e199 : ℝ) := by rw [one_mul]; exact m1.trans (by norm_num)
  have f3 : (1e-250 : ℝ) ≤ m + 1 * m := by linarith [le_trans (by norm_num : (0 : ℝ) ≤ 1e-200) m0]
  have f4 : m + 1 * m ≤ (1e199 : ℝ) := by
    have : m + 1 * m ≤ 2 * 1e190 := by linarith
    exact this.trans (by norm_num)
  have p := Rl.mul h (Rl.exact (r := r) ht) (Rl.exact (r := r) hc) f1 f2 (by norm_num)
  have q := Rl.sub h ((Rl.exact (r := r) ha).mono (Nat.zero_le 1)) p f3 f4 (by norm_num)
  obtain ⟨s, e, d⟩ := q.near
  refine ⟨s, e, by rw [two_mul, ← one_mul m]; simpa using d, ?_⟩
  have := Rl.val_le d q.mag
  have g : gr (1 + 1) * (m + 1 * m) = 2 * gr 2 * m := by ring
  rw [← g]; exact this

/-- the coefficient in the residual bound -/
noncomputable def luK (n : ℕ) : ℝ := (15 * 2 ^ n - 2 * n - 15) * gr (2 * n)

omit [Machine] in
theorem luK_base (n : ℕ) : (0 : ℝ) ≤ 15 * 2 ^ n - 2 * n - 15 := by
  induction n with
  | zero => norm_num
  | succ n ih => push_cast; rw [pow_succ]; nlinarith [one_le_pow₀ (by norm_num : (1 : ℝ) ≤ 2) (n := n), (Nat.cast_nonneg n : (0 : ℝ) ≤ n)]

omit [Machine] in
theorem luK_succ (n : ℕ) : luK n * (2 * gr 2) + (2 * n + 13) ≤ luK (n + 1) := by
  have e : gr (2 * (n + 1)) = gr (2 * n) * gr 2 := by rw [← gr_add]; congr 1
  have h1 := one_le_gr (2 * (n + 1))
  have h0 : (0 : ℝ) ≤ 2 * n + 13 := by positivity
  unfold luK
  push_cast
  rw [e] at h1 ⊢
  rw [pow_succ]
  nlinarith [mul_le_mul_of_nonneg_left h1 h0]

omit [Machine] in
theorem luK_nonneg (n : ℕ) : 0 ≤ luK n := mul_nonneg (luK_base n) (by linarith [one_le_gr (2 * n)])

omit [Machine] in
theorem gr_two : gr 2 - 1 ≤ 4 * ulp := by
  have := gr_le (k := 2) (by norm_num)
  unfold ulp
  norm_num at this ⊢; linarith

omit [Machine] in
/-- the residual of one row after an elimination step -/
theorem lu_row {n : ℕ} (S : Matrix (Fin n) (Fin n) ℝ) (B : Matrix (Fin (n + 1)) (Fin (n + 1)) ℝ) (w : Fin n → ℝ) (d x : Fin (n + 1) → ℝ) (t : Fin n → ℝ)
    (hP : B 0 0 ≠ 0) (i : Fin n) {m β X : ℝ} (m00 : 0 ≤ m) (b00 : 0 ≤ β) (x00 : 0 ≤ X) (hBm : ∀ i j, |B i j| ≤ m) (hX : ∀ i, |x i| ≤ X) (t1 : |t i| ≤ 1)
    (te : |t i - B i.succ 0 / B 0 0| ≤ ulp) (hS : |w i - (S *ᵥ fun i => x i.succ) i| ≤ luK n * ulp * (2 * gr 2 * β + n * (2 * gr 2 * m * X)))
    (dS : ∀ j, |S i j - (B i.succ j.succ - t i * B 0 j.succ)| ≤ (gr 2 - 1) * (2 * m)) (dw : |w i - (d i.succ - t i * d 0)| ≤ (gr 2 - 1) * (2 * β))
    (row0 : |d 0 - (B *ᵥ x) 0| ≤ (2 * n + 4) * ulp * (β + (n + 1) * (m * X))) :
    |d i.succ - (B *ᵥ x) i.succ| ≤ luK (n + 1) * ulp * (β + (n + 1 : ℕ) * (m * X)) := by
  have u0 := ulp_pos
  have g1 : 1 ≤ 2 * gr 2 := by linarith [one_le_gr 2]
  have mX : 0 ≤ m * X := mul_nonneg m00 x00
  have ex : (B *ᵥ x) i.succ = B i.succ 0 * x 0 + ∑ j : Fin n, B i.succ (Fin.succ j) * x j.succ := by simp [mulVec, dotProduct, Fin.sum_univ_succ]
  have ex0 : (B *ᵥ x) 0 = B 0 0 * x 0 + ∑ j : Fin n, B 0 (Fin.succ j) * x j.succ := by simp [mulVec, dotProduct, Fin.sum_univ_succ]
  have eS' : (S *ᵥ fun i => x i.succ) i = ∑ j : Fin n, S i j * x j.succ := by simp [mulVec, dotProduct]
  have sd : |∑ j : Fin n, (S i j - (B i.succ j.succ - t i * B 0 j.succ)) * x j.succ| ≤ n * (4 * ulp * (2 * m) * X) := by
    refine (Finset.abs_sum_le_sum_abs _ _).trans ?_
    have : ∑ _j : Fin n, 4 * ulp * (2 * m) * X = n * (4 * ulp * (2 * m) * X) := by simp
    rw [← this]
    refine Finset.sum_le_sum fun j _ => ?_
    rw [abs_mul]
    exact mul_le_mul ((dS j).trans (mul_le_mul_of_nonneg_right gr_two (by linarith))) (hX _) (abs_nonneg _) (by positivity)
  have split : d i.succ - (B *ᵥ x) i.succ = (w i - (S *ᵥ fun i => x i.succ) i) - (w i - (d i.succ - t i * d 0))
      + ∑ j : Fin n, (S i j - (B i.succ j.succ - t i * B 0 j.succ)) * x j.succ + t i * (d 0 - (B *ᵥ x) 0) + (t i - B i.succ 0 / B 0 0) * (B 0 0 * x 0) := by
    rw [ex, ex0, eS']
    have : ∑ j : Fin n, (S i j - (B i.succ j.succ - t i * B 0 j.succ)) * x j.succ
        = (∑ j : Fin n, S i j * x j.succ) - (∑ j : Fin n, B i.succ j.succ * x j.succ) + t i * ∑ j : Fin n, B 0 j.succ * x j.succ := by
      rw [Finset.mul_sum, ← Finset.sum_sub_distrib, ← Finset.sum_add_distrib]
      exact Finset.sum_congr rfl fun j _ => by ring
    rw [this]
    field_simp
    ring
  rw [split]
  have a1 := dw.trans (mul_le_mul_of_nonneg_right gr_two (by linarith : 0 ≤ 2 * β))
  have a2 : |t i * (d 0 - (B *ᵥ x) 0)| ≤ (2 * n + 4) * ulp * (β + (n + 1) * (m * X)) := by
    rw [abs_mul]; exact (mul_le_of_le_one_left (abs_nonneg _) t1).trans row0
  have a3 : |(t i - B i.succ 0 / B 0 0) * (B 0 0 * x 0)| ≤ ulp * (m * X) := by
    rw [abs_mul, abs_mul]
    exact mul_le_mul te (mul_le_mul (hBm 0 0) (hX 0) (abs_nonneg _) m00) (by positivity) u0.le
  have tri : ∀ a b c d e : ℝ, |a - b + c + d + e| ≤ |a| + |b| + |c| + |d| + |e| := fun a b c d e => by
    have h1 := abs_add_le (a - b + c + d) e
    have h2 := abs_add_le (a - b + c) d
    have h3 := abs_add_le (a - b) c
    have h4 := abs_sub a b
    linarith
  refine (tri _ _ _ _ _).trans ?_
  have k1 := luK_succ n
  have k0 := luK_nonneg n
  push_cast
  have T0 : 0 ≤ β + (n + 1) * (m * X) := by positivity
  have hS' : luK n * ulp * (2 * gr 2 * β + n * (2 * gr 2 * m * X)) ≤ luK n * (2 * gr 2) * (ulp * (β + (n + 1) * (m * X))) := by
    have : luK n * ulp * (2 * gr 2 * β + n * (2 * gr 2 * m * X)) = luK n * (2 * gr 2) * (ulp * (β + n * (m * X))) := by ring
    rw [this]
    exact mul_le_mul_of_nonneg_left (mul_le_mul_of_nonneg_left (by linarith) u0.le) (mul_nonneg k0 (by linarith))
  have fin1 : 4 * ulp * (2 * β) + n * (4 * ulp * (2 * m) * X) + ulp * (m * X) ≤ 9 * (ulp * (β + (n + 1) * (m * X))) := by
    have : 0 ≤ ulp * β := by positivity
    have : 0 ≤ ulp * (n * (m * X)) := by positivity
    have : 0 ≤ ulp * (m * X) := by positivity
    nlinarith
  have fin2 := mul_le_mul_of_nonneg_right k1 (mul_nonneg u0.le T0)
  have e3 : luK (n + 1) * ulp * (β + (n + 1) * (m * X)) = luK (n + 1) * (ulp * (β + (n + 1) * (m * X))) := by ring
  rw [e3]
  refine le_trans ?_ fin2
  linarith

theorem luSolve_residual (h : Rounds53 r) {n : ℕ} (A : Matrix (Fin n) (Fin n) ℝ) (b x : Fin n → ℝ) {m β X : ℝ}
    (hA : ∀ i j, |A i j| ≤ m) (hb : ∀ i, |b i| ≤ β) (hX : ∀ i, |x i| ≤ X) (hn : n ≤ 100)
    (m0 : 1e-100 ≤ m) (m1 : m * (2 * gr 2) ^ n ≤ 1e80) (b0 : 1e-100 ≤ β) (b1 : β * (2 * gr 2) ^ n ≤ 1e180) (x0 : 1e-100 ≤ X) (x1 : X ≤ 1e110)
    (e : luSolve (of fun i j => (.fin (A i j) : Dbl r)) (fun i => .fin (b i)) = fun i => .fin (x i)) (i : Fin n) :
    |b i - (A *ᵥ x) i| ≤ luK n * ulp * (β + n * (m * X)) := by
  induction n generalizing m β with
  | zero => exact i.elim0
  | succ n ih =>
    have g1 : 1 ≤ 2 * gr 2 := by linarith [one_le_gr 2]
    have ea : argmax (fun i => Flt.abs (.fin (A i 0) : Dbl r)) = argmax fun i => |A i 0| := argmax_D (r := r) fun i => |A i 0|
    rw [luSolve] at e
    simp only [of_apply, ea] at e
    obtain ⟨p, hp⟩ : ∃ p, p = argmax fun i => |A i 0| := ⟨_, rfl⟩
    have hmax : ∀ i, |A i 0| ≤ |A p 0| := fun i => by rw [hp]; exact argmax_le (fun i => |A i 0|) i
    rw [← hp] at e
    obtain ⟨B, hB⟩ : ∃ B : Matrix (Fin (n + 1)) (Fin (n + 1)) ℝ, B = swapRows A p := ⟨_, rfl⟩
    obtain ⟨d, hd⟩ : ∃ d : Fin (n + 1) → ℝ, d = fun i => b (Equiv.swap 0 p i) := ⟨_, rfl⟩
    have eB : ∀ i j, A (Equiv.swap 0 p i) j = B i j := fun i j => by rw [hB]; rfl
    have ed : ∀ i, b (Equiv.swap 0 p i) = d i := fun i => by rw [hd]
    simp only [eB, ed] at e
    have hBm : ∀ i j, |B i j| ≤ m := fun i j => by rw [← eB]; exact hA _ _
    have hdm : ∀ i, |d i| ≤ β := fun i => by rw [← ed]; exact hb _
    have hpiv : ∀ i, |B i 0| ≤ |B 0 0| := fun i => by rw [← eB, ← eB, Equiv.swap_apply_left]; exact hmax _
    have m00 : 0 ≤ m := le_trans (by norm_num) m0
    have b00 : 0 ≤ β := le_trans (by norm_num) b0
    have x00 : 0 ≤ X := le_trans (by norm_num) x0
    have gn : 1 ≤ (2 * gr 2) ^ (n + 1) := one_le_pow₀ g1
    have mle : m ≤ 1e80 := (le_mul_of_one_le_right m00 gn).trans m1
    have ble : β ≤ 1e180 := (le_mul_of_one_le_right b00 gn).trans b1
    suffices key : ∀ i, |d i - (B *ᵥ x) i| ≤ luK (n + 1) * ulp * (β + (n + 1 : ℕ) * (m * X)) by
      have := key (Equiv.swap 0 p i)
      rw [hB, swapRows_mulVec, hd] at this
      simpa using this
    have hP : B 0 0 ≠ 0 := by
      intro h0
      have := congrFun e 0
      rw [Fin.cons_zero, h0] at this
      exact Dbl.div_zero_ne _ _ this
    have c : Flt.eq (Flt.abs (.fin (B 0 0) : Dbl r)) (Flt.lit 0) = false := by
      obtain ⟨z, hz, hz'⟩ := (Rl.zero h).near
      have : z = 0 := by simpa [gr] using hz'
      rw [hz, this]
      show Flt.eq (XR.fin |B 0 0|) (XR.fin 0) = false
      rw [XR.X_eq, Bool.eq_false_iff, ne_eq, R_eq, abs_eq_zero]; exact hP
    simp only [c, Bool.false_eq_true, if_false] at e
    choose t et t1 te using fun i : Fin n => lu_factor (r := r) h hP (hpiv i.succ)
    simp only [et] at e
    choose S eS dS mS using fun i j : Fin n => lu_entry (r := r) h (hBm i.succ j.succ) (t1 i) (hBm 0 j.succ) (le_trans (by norm_num) m0) (mle.trans (by norm_num))
    choose w ew dw mw using fun i : Fin n => lu_entry (r := r) h (hdm i.succ) (t1 i) (hdm 0) (le_trans (by norm_num) b0) (ble.trans (by norm_num))
    simp only [eS, ew] at e
    have es : luSolve (of fun i j => (.fin (S i j) : Dbl r)) (fun i => .fin (w i)) = fun i => .fin (x i.succ) := by
      funext i; have := congrFun e i.succ; rwa [Fin.cons_succ] at this
    have e0 := congrFun e 0
    rw [Fin.cons_zero, es] at e0
    have mX : 0 ≤ m * X := mul_nonneg m00 x00
    have fX0 : (1e-250 : ℝ) ≤ m * X := le_trans (by norm_num) (mul_le_mul m0 x0 (by norm_num) m00)
    have fX1 : m * X ≤ 1e190 := (mul_le_mul mle x1 x00 (by norm_num)).trans (by norm_num)
    have hn' : (n : ℝ) ≤ 100 := by exact_mod_cast (Nat.le_of_succ_le hn)
    have fs : (n : ℝ) * (m * X) ≤ 1e192 := (mul_le_mul hn' fX1 mX (by norm_num)).trans (by norm_num)
    have sM : ∑ _j : Fin n, m * X = n * (m * X) := by simp
    have f := Rl.fsum h (fun j : Fin n => Rl.mul h (Rl.exact (r := r) (hBm 0 j.succ)) (Rl.exact (r := r) (hX j.succ)) fX0 (fX1.trans (by norm_num)) (by norm_num))
      (fun _ => fX0) (by rw [sM]; exact fs.trans (by norm_num)) (by omega)
    rw [sM] at f
    have q := Rl.sub h ((Rl.exact (r := r) (hdm 0)).mono (Nat.zero_le (0 + 0 + 1 + n))) f
      (by have := mul_nonneg (Nat.cast_nonneg n : (0 : ℝ) ≤ n) mX; exact le_trans (le_trans (by norm_num) b0) (le_add_of_nonneg_right this))
      (by exact (add_le_add ble fs).trans (by norm_num)) (by omega)
    obtain ⟨q, eq, dq⟩ := q.near
    rw [eq] at e0
    have e1 : Dbl.rd r (XR.fin q / XR.fin (B 0 0)) = .fin (x 0) := e0
    rw [XR.fin_div _ _ hP] at e1
    have e2 := Dbl.rd_eq e1
    have hy : |q / B 0 0| ≤ 2 * X := by
      rcases le_total |q / B 0 0| ((2 : ℝ) ^ (-1022 : ℤ)) with c | c
      · have := c.trans tiny_1022
        refine this.trans (le_trans ?_ (le_trans x0 (by linarith))); norm_num
      · have h1 := h.rel _ c
        rw [e2] at h1
        have h2 := abs_sub_abs_le_abs_sub (q / B 0 0) (x 0)
        rw [abs_sub_comm] at h2
        have h3 := hX 0
        have h4 : |q / B 0 0| / 2 ^ 52 ≤ |q / B 0 0| / 2 := div_le_div_of_nonneg_left (abs_nonneg _) (by norm_num) (by norm_num)
        linarith
    have dx := h.rel_floor hy (le_trans (by norm_num) (le_trans x0 (by linarith : X ≤ 2 * X)))
    rw [e2] at dx
    have u0 := ulp_pos
    have r1 : |q - B 0 0 * x 0| ≤ 2 * ulp * (m * X) := by
      have : q - B 0 0 * x 0 = -(B 0 0 * (x 0 - q / B 0 0)) := by field_simp; ring
      rw [this, abs_neg, abs_mul]
      refine (mul_le_mul (hBm 0 0) dx (abs_nonneg _) m00).trans (le_of_eq ?_)
      ring
    have hg : gr (0 + 0 + 1 + n + 1) - 1 ≤ 2 * (n + 2) * ulp := by
      have := gr_le (k := 0 + 0 + 1 + n + 1) (by omega)
      push_cast at this
      unfold ulp
      have e : 2 * ((n : ℝ) + 2) * (1 / 2 ^ 52) = (0 + 0 + 1 + n + 1) / 2 ^ 51 := by ring
      rw [e]; linarith
    have nX := mul_nonneg (Nat.cast_nonneg n : (0 : ℝ) ≤ n) mX
    have row0 : |d 0 - (B *ᵥ x) 0| ≤ (2 * n + 4) * ulp * (β + (n + 1) * (m * X)) := by
      have ex : (B *ᵥ x) 0 = B 0 0 * x 0 + ∑ j : Fin n, B 0 (Fin.succ j) * x j.succ := by simp [mulVec, dotProduct, Fin.sum_univ_succ]
      have : d 0 - (B *ᵥ x) 0 = (q - B 0 0 * x 0) - (q - (d 0 - ∑ j : Fin n, B 0 (Fin.succ j) * x j.succ)) := by rw [ex]; ring
      rw [this]
      refine (abs_sub _ _).trans ((add_le_add r1 (dq.trans (mul_le_mul_of_nonneg_right hg (by linarith)))).trans ?_)
      have : 0 ≤ (2 * (n : ℝ) + 2) * (ulp * (m * X)) := by positivity
      linarith
    have mon : (2 * n + 4) * ulp * (β + (n + 1) * (m * X)) ≤ luK (n + 1) * ulp * (β + (n + 1 : ℕ) * (m * X)) := by
      have := luK_succ n
      have k0 := mul_nonneg (luK_nonneg n) (by linarith : 0 ≤ 2 * gr 2)
      push_cast
      refine mul_le_mul_of_nonneg_right (mul_le_mul_of_nonneg_right (by linarith) u0.le) ?_
      positivity
    intro i
    refine Fin.cases (row0.trans mon) (fun i => ?_) i
    have hS := ih S w (fun i => x i.succ) mS mw (fun i => hX _) (by omega) (m0.trans (le_mul_of_one_le_left m00 g1)) (by rw [pow_succ] at m1; linarith) (b0.trans (le_mul_of_one_le_left b00 g1))
      (by rw [pow_succ] at b1; linarith) es i
    exact lu_row S B w d x t hP i m00 b00 x00 hBm hX (t1 i) (te i) hS (dS i) (dw i) row0

/-! ## The solver returns finite values on matrices that are not too close to singular -/

/-- the matrix does not shrink vectors by more than the factor `c` (largest entries) -/
def Low {n : ℕ} (A : Matrix (Fin n) (Fin n) ℝ) (c : ℝ) : Prop := ∀ z T, (∀ i, |(A *ᵥ z) i| ≤ T) → ∀ i, c * |z i| ≤ T

omit [Machine] in
theorem Low.swap {n : ℕ} {A : Matrix (Fin (n + 1)) (Fin (n + 1)) ℝ} {c : ℝ} (hl : Low A c) (p : Fin (n + 1)) : Low (swapRows A p) c := fun z T hT =>
  hl z T fun i => by
    have := hT (Equiv.swap 0 p i)
    rw [swapRows_mulVec] at this
    simpa using this

omit [Machine] in
theorem Low.pivot {n : ℕ} {B : Matrix (Fin (n + 1)) (Fin (n + 1)) ℝ} {c : ℝ} (hl : Low B c) (hp : ∀ i, |B i 0| ≤ |B 0 0|) : c ≤ |B 0 0| := by
  have := hl (Pi.single 0 1) |B 0 0| (fun i => by rw [mulVec_single_one]; exact hp i) 0
  simpa using this

omit [Machine] in
theorem Low.schur {n : ℕ} {B : Matrix (Fin (n + 1)) (Fin (n + 1)) ℝ} {S : Matrix (Fin n) (Fin n) ℝ} {c δ : ℝ} (hl : Low B c) (c0 : 0 < c) (h0 : B 0 0 ≠ 0)
    (hS : ∀ i j, |S i j - schur B i j| ≤ δ) (hδ : n * δ ≤ c) : Low S (c - n * δ) := by
  intro z T hT i
  have d0 : 0 ≤ δ := (abs_nonneg _).trans (hS i i)
  have T0 : 0 ≤ T := (abs_nonneg _).trans (hT i)
  have dev : ∀ i, |((S *ᵥ z) i - (NavFuse.schur B *ᵥ z) i)| ≤ n * (δ * ‖z‖) := fun i => by
    have e : (S *ᵥ z) i - (NavFuse.schur B *ᵥ z) i = ∑ j, (S i j - NavFuse.schur B i j) * z j := by
      simp only [mulVec, dotProduct, sub_mul, Finset.sum_sub_distrib]
    rw [e]
    refine (Finset.abs_sum_le_sum_abs _ _).trans ((Finset.sum_le_card_nsmul _ _ (δ * ‖z‖) fun j _ => ?_).trans (le_of_eq (by simp)))
    rw [abs_mul]
    exact mul_le_mul (hS i j) (norm_le_pi_norm z j) (abs_nonneg _) d0
  have key : ∀ i, c * |z i| ≤ T + n * (δ * ‖z‖) := fun i => by
    have := hl (Fin.cons (-(∑ j, B 0 j.succ * z j) / B 0 0) z) (T + n * (δ * ‖z‖)) (fun k => by
      rw [mulVec_cons]
      refine Fin.cases ?_ (fun k => ?_) k
      · have : B 0 0 * (-(∑ j, B 0 j.succ * z j) / B 0 0) + ∑ j, B 0 (Fin.succ j) * z j = 0 := by field_simp; ring
        rw [this, abs_zero]; positivity
      · have : B k.succ 0 * (-(∑ j, B 0 j.succ * z j) / B 0 0) + ∑ j, B k.succ (Fin.succ j) * z j = (NavFuse.schur B *ᵥ z) k := by
          rw [schur_mulVec]; ring
        rw [this]
        have h1 := dev k
        have h2 := hT k
        have h3 := abs_sub_abs_le_abs_sub ((NavFuse.schur B *ᵥ z) k) ((S *ᵥ z) k)
        rw [abs_sub_comm] at h3
        linarith) i.succ
    simpa using this
  have kz : ‖z‖ ≤ (T + n * (δ * ‖z‖)) / c := (pi_norm_le_iff_of_nonneg (by positivity)).2 fun i => by
    rw [Real.norm_eq_abs, le_div_iff₀ c0, mul_comm]; exact key i
  rw [le_div_iff₀ c0] at kz
  have h1 : (c - n * δ) * |z i| ≤ (c - n * δ) * ‖z‖ := mul_le_mul_of_nonneg_left (norm_le_pi_norm z i) (by linarith)
  refine h1.trans ?_
  linarith

/-- the last step of the back substitution -/
theorem lu_top (h : Rounds53 r) {n : ℕ} (B x : Fin n → ℝ) (d P : ℝ) {m β X c : ℝ} (hn : n ≤ 100) (hB : ∀ j, |B j| ≤ m) (hx : ∀ j, |x j| ≤ X) (hd : |d| ≤ β)
    (hc : c ≤ |P|) (c0 : 1e-20 ≤ c) (m0 : 1e-100 ≤ m) (m1 : m ≤ 1e30) (b0 : 1e-100 ≤ β) (b1 : β ≤ 1e30) (x0 : 1e-100 ≤ X) (x1 : X ≤ 1e51) :
    ∃ v, ((.fin d - fsum fun j => .fin (B j) * .fin (x j)) / .fin P : Dbl r) = .fin v ∧ |v| ≤ 1e107 := by
  have m00 : 0 ≤ m := le_trans (by norm_num) m0
  have x00 : 0 ≤ X := le_trans (by norm_num) x0
  have c00 : 0 < c := lt_of_lt_of_le (by norm_num) c0
  have mX : 0 ≤ m * X := mul_nonneg m00 x00
  have fX0 : (1e-250 : ℝ) ≤ m * X := le_trans (by norm_num) (mul_le_mul m0 x0 (by norm_num) m00)
  have fX1 : m * X ≤ 1e81 := (mul_le_mul m1 x1 x00 (by norm_num)).trans (by norm_num)
  have hn' : (n : ℝ) ≤ 100 := by exact_mod_cast hn
  have fs : (n : ℝ) * (m * X) ≤ 1e83 := (mul_le_mul hn' fX1 mX (by norm_num)).trans (by norm_num)
  have sM : ∑ _j : Fin n, m * X = n * (m * X) := by simp
  have f := Rl.fsum h (fun j : Fin n => Rl.mul h (Rl.exact (r := r) (hB j)) (Rl.exact (r := r) (hx j)) fX0 (fX1.trans (by norm_num)) (by norm_num))
    (fun _ => fX0) (by rw [sM]; exact fs.trans (by norm_num)) (by omega)
  rw [sM] at f
  have q := Rl.sub h ((Rl.exact (r := r) hd).mono (Nat.zero_le (0 + 0 + 1 + n))) f
    (by have := mul_nonneg (Nat.cast_nonneg n : (0 : ℝ) ≤ n) mX; exact le_trans (le_trans (by norm_num) b0) (le_add_of_nonneg_right this))
    (by exact (add_le_add b1 fs).trans (by norm_num)) (by omega)
  obtain ⟨v, ev, dv⟩ := q.near
  have hv := Rl.val_le dv q.mag
  have hv' : |v| ≤ 1e84 := by
    refine hv.trans ((mul_le_mul (gr_le_two (by omega)) (add_le_add b1 fs) (by positivity) (by norm_num)).trans (by norm_num))
  have P0 : P ≠ 0 := fun hP => by rw [hP, abs_zero] at hc; linarith
  have hq : |v / P| ≤ 1e105 := by
    rw [abs_div, div_le_iff₀ (lt_of_lt_of_le c00 hc)]
    have h1 : (1e-20 : ℝ) ≤ |P| := c0.trans hc
    have h2 : (1e105 : ℝ) * 1e-20 ≤ 1e105 * |P| := mul_le_mul_of_nonneg_left h1 (by norm_num)
    exact hv'.trans (le_trans (by norm_num) h2)
  have hr := h.rel_floor hq (by norm_num)
  have hr' : |r (v / P)| ≤ 1e107 := by
    have h1 := abs_sub_abs_le_abs_sub (r (v / P)) (v / P)
    have h2 : ulp ≤ 1 := by unfold ulp; norm_num
    have h3 : |r (v / P)| ≤ 2 * 1e105 := by
      have : ulp * 1e105 ≤ 1 * 1e105 := mul_le_mul_of_nonneg_right h2 (by norm_num)
      linarith
    exact h3.trans (by norm_num)
  refine ⟨r (v / P), ?_, hr'⟩
  rw [ev]
  show Dbl.rd r (XR.fin v / XR.fin P) = _
  rw [XR.fin_div _ _ P0]
  exact Dbl.rd_fin (lt_of_le_of_lt (hr'.trans (by norm_num)) Dbl.big)

omit [Machine] in
theorem luK_step (n : ℕ) : luK n ≤ luK (n + 1) := by
  have h1 := luK_succ n
  have h2 := luK_nonneg n
  have h3 : luK n * 1 ≤ luK n * (2 * gr 2) := mul_le_mul_of_nonneg_left (by linarith [one_le_gr 2]) h2
  have : (0 : ℝ) ≤ n := Nat.cast_nonneg n
  linarith

theorem luSolve_finite (h : Rounds53 r) {n : ℕ} (A : Matrix (Fin n) (Fin n) ℝ) (b : Fin n → ℝ) {m β c cs : ℝ}
    (hA : ∀ i j, |A i j| ≤ m) (hb : ∀ i, |b i| ≤ β) (hl : Low A c) (hc : cs + 2 * (luK n * ulp * (n * m)) ≤ c) (hk : luK n * ulp ≤ 1) (hn : n ≤ 100)
    (cs0 : 1e-20 ≤ cs) (cs1 : cs ≤ 1e50) (m0 : 1e-40 ≤ m) (m1 : m * (2 * gr 2) ^ n ≤ 1e30) (b0 : 1e-40 ≤ β) (b1 : β * (2 * gr 2) ^ n ≤ 1e30) :
    ∃ x : Fin n → ℝ, luSolve (of fun i j => (.fin (A i j) : Dbl r)) (fun i => .fin (b i)) = (fun i => .fin (x i)) ∧ ∀ i, |x i| ≤ 2 * β / cs := by
  induction n generalizing m β c with
  | zero => exact ⟨fun i => i.elim0, funext fun i => i.elim0, fun i => i.elim0⟩
  | succ n ih =>
    have g1 : 1 ≤ 2 * gr 2 := by linarith [one_le_gr 2]
    have u0 := ulp_pos
    have ea : argmax (fun i => Flt.abs (.fin (A i 0) : Dbl r)) = argmax fun i => |A i 0| := argmax_D (r := r) fun i => |A i 0|
    have gn : 1 ≤ (2 * gr 2) ^ (n + 1) := one_le_pow₀ g1
    have m00 : 0 ≤ m := le_trans (by norm_num) m0
    have b00 : 0 ≤ β := le_trans (by norm_num) b0
    have cs00 : 0 < cs := lt_of_lt_of_le (by norm_num) cs0
    have mle : m ≤ 1e30 := (le_mul_of_one_le_right m00 gn).trans m1
    have ble : β ≤ 1e30 := (le_mul_of_one_le_right b00 gn).trans b1
    have K0 := luK_nonneg (n + 1)
    have ccs : cs ≤ c := le_trans (le_add_of_nonneg_right (by positivity)) hc
    suffices ∃ x : Fin (n + 1) → ℝ, luSolve (of fun i j => (.fin (A i j) : Dbl r)) (fun i => .fin (b i)) = (fun i => .fin (x i)) ∧ ∀ i, |x i| ≤ 1e109 by
      obtain ⟨x, ex, hx⟩ := this
      refine ⟨x, ex, ?_⟩
      have X0 : ‖x‖ ≤ 1e109 := (pi_norm_le_iff_of_nonneg (by norm_num)).2 hx
      have res := luSolve_residual h A b x (X := max ‖x‖ 1e-100) hA hb (fun i => le_max_of_le_left (norm_le_pi_norm x i)) hn (le_trans (by norm_num) m0)
        (m1.trans (by norm_num)) (le_trans (by norm_num) b0) (b1.trans (by norm_num)) (le_max_right _ _) (max_le (X0.trans (by norm_num)) (by norm_num)) ex
      have floor : (1e-100 : ℝ) ≤ 2 * β / cs := by
        rw [le_div_iff₀ cs00]
        have h1 : (1e-100 : ℝ) * cs ≤ 1e-100 * 1e50 := mul_le_mul_of_nonneg_left cs1 (by norm_num)
        have h2 : (2 : ℝ) * 1e-40 ≤ 2 * β := by linarith
        exact h1.trans (le_trans (by norm_num) h2)
      rcases le_total ‖x‖ (1e-100 : ℝ) with q | q
      · exact fun i => (norm_le_pi_norm x i).trans (q.trans floor)
      · rw [max_eq_left q] at res
        have T : ∀ i, |(A *ᵥ x) i| ≤ β + luK (n + 1) * ulp * (β + (n + 1 : ℕ) * (m * ‖x‖)) := fun i => by
          have h1 := res i
          have h2 := hb i
          have h3 := abs_sub_abs_le_abs_sub ((A *ᵥ x) i) (b i)
          rw [abs_sub_comm] at h3
          linarith
        have key := hl x _ T
        have c0 : 0 < c := cs00.trans_le ccs
        have kz : ‖x‖ ≤ (β + luK (n + 1) * ulp * (β + (n + 1 : ℕ) * (m * ‖x‖))) / c := (pi_norm_le_iff_of_nonneg (by positivity)).2 fun i => by
          rw [Real.norm_eq_abs, le_div_iff₀ c0, mul_comm]; exact key i
        rw [le_div_iff₀ c0] at kz
        have k1 : luK (n + 1) * ulp * β ≤ 1 * β := mul_le_mul_of_nonneg_right hk b00
        have k2 := mul_le_mul_of_nonneg_right hc (norm_nonneg x)
        intro i
        refine (norm_le_pi_norm x i).trans ?_
        rw [le_div_iff₀ cs00]
        have k3 : 2 * (luK (n + 1) * ulp * ((n + 1 : ℕ) * m)) * ‖x‖ = 2 * (luK (n + 1) * ulp * ((n + 1 : ℕ) * (m * ‖x‖))) := by ring
        have k4 : (cs + 2 * (luK (n + 1) * ulp * ((n + 1 : ℕ) * m))) * ‖x‖ = cs * ‖x‖ + 2 * (luK (n + 1) * ulp * ((n + 1 : ℕ) * m)) * ‖x‖ := by ring
        have k5 : luK (n + 1) * ulp * (β + (n + 1 : ℕ) * (m * ‖x‖)) = luK (n + 1) * ulp * β + luK (n + 1) * ulp * ((n + 1 : ℕ) * (m * ‖x‖)) := by ring
        have k6 : 0 ≤ luK (n + 1) * ulp * ((n + 1 : ℕ) * (m * ‖x‖)) := by positivity
        rw [k4, k3] at k2
        rw [k5] at kz
        linarith
    rw [luSolve]
    simp only [of_apply, ea]
    obtain ⟨p, hp⟩ : ∃ p, p = argmax fun i => |A i 0| := ⟨_, rfl⟩
    have hmax : ∀ i, |A i 0| ≤ |A p 0| := fun i => by rw [hp]; exact argmax_le (fun i => |A i 0|) i
    rw [← hp]
    obtain ⟨B, hB⟩ : ∃ B : Matrix (Fin (n + 1)) (Fin (n + 1)) ℝ, B = swapRows A p := ⟨_, rfl⟩
    obtain ⟨d, hd⟩ : ∃ d : Fin (n + 1) → ℝ, d = fun i => b (Equiv.swap 0 p i) := ⟨_, rfl⟩
    have eB : ∀ i j, A (Equiv.swap 0 p i) j = B i j := fun i j => by rw [hB]; rfl
    have ed : ∀ i, b (Equiv.swap 0 p i) = d i := fun i => by rw [hd]
    simp only [eB, ed]
    have hBm : ∀ i j, |B i j| ≤ m := fun i j => by rw [← eB]; exact hA _ _
    have hdm : ∀ i, |d i| ≤ β := fun i => by rw [← ed]; exact hb _
    have hpiv : ∀ i, |B i 0| ≤ |B 0 0| := fun i => by rw [← eB, ← eB, Equiv.swap_apply_left]; exact hmax _
    have hlB : Low B c := by rw [hB]; exact hl.swap p
    have hcp := hlB.pivot hpiv
    have hP : B 0 0 ≠ 0 := fun h0 => by rw [h0, abs_zero] at hcp; linarith
    have c' : Flt.eq (Flt.abs (.fin (B 0 0) : Dbl r)) (Flt.lit 0) = false := by
      obtain ⟨z, hz, hz'⟩ := (Rl.zero h).near
      have : z = 0 := by simpa [gr] using hz'
      rw [hz, this]
      show Flt.eq (XR.fin |B 0 0|) (XR.fin 0) = false
      rw [XR.X_eq, Bool.eq_false_iff, ne_eq, R_eq, abs_eq_zero]; exact hP
    simp only [c', Bool.false_eq_true, if_false]
    choose t et t1 te using fun i : Fin n => lu_factor (r := r) h hP (hpiv i.succ)
    simp only [et]
    choose S eS dS mS using fun i j : Fin n => lu_entry (r := r) h (hBm i.succ j.succ) (t1 i) (hBm 0 j.succ) (le_trans (by norm_num) m0) (mle.trans (by norm_num))
    choose w ew dw mw using fun i : Fin n => lu_entry (r := r) h (hdm i.succ) (t1 i) (hdm 0) (le_trans (by norm_num) b0) (ble.trans (by norm_num))
    simp only [eS, ew]
    have dev : ∀ i j, |S i j - schur B i j| ≤ 9 * ulp * m := fun i j => by
      have e : S i j - schur B i j = (S i j - (B i.succ j.succ - t i * B 0 j.succ)) - (t i - B i.succ 0 / B 0 0) * B 0 j.succ := by
        simp only [schur, of_apply]; ring
      rw [e]
      refine (abs_sub _ _).trans ?_
      have h1 := (dS i j).trans (mul_le_mul_of_nonneg_right gr_two (by linarith : 0 ≤ 2 * m))
      have h2 : |(t i - B i.succ 0 / B 0 0) * B 0 j.succ| ≤ ulp * m := by
        rw [abs_mul]; exact mul_le_mul (te i) (hBm _ _) (abs_nonneg _) u0.le
      linarith
    have step : cs + 2 * (luK n * ulp * (n * (2 * gr 2 * m))) ≤ c - n * (9 * ulp * m) := by
      have k := luK_succ n
      have k0 := luK_nonneg n
      have e1 : (luK n * (2 * gr 2) + (2 * n + 13)) * (ulp * ((n + 1 : ℕ) * m)) ≤ luK (n + 1) * (ulp * ((n + 1 : ℕ) * m)) :=
        mul_le_mul_of_nonneg_right k (by positivity)
      push_cast at e1 hc
      have e2 : 0 ≤ luK n * (2 * gr 2) * (ulp * m) := mul_nonneg (mul_nonneg k0 (by linarith)) (by positivity)
      have e3 : 0 ≤ (n : ℝ) * (n * (ulp * m)) := by positivity
      have e4 : 0 ≤ (n : ℝ) * (ulp * m) := by positivity
      have e5 : 0 ≤ ulp * m := by positivity
      linarith
    have lS : Low S (c - n * (9 * ulp * m)) := by
      refine hlB.schur (cs00.trans_le ccs) hP dev ?_
      have : 0 ≤ 2 * (luK n * ulp * (n * (2 * gr 2 * m))) := by
        have := luK_nonneg n
        have : 0 ≤ 2 * gr 2 * m := mul_nonneg (by linarith) m00
        positivity
      linarith
    obtain ⟨y, ey, hy⟩ := ih S w mS mw lS step ((mul_le_mul_of_nonneg_right (luK_step n) u0.le).trans hk) (by omega)
      (m0.trans (le_mul_of_one_le_left m00 g1)) (by rw [pow_succ] at m1; linarith) (b0.trans (le_mul_of_one_le_left b00 g1)) (by rw [pow_succ] at b1; linarith)
    rw [ey]
    have bg : 2 * gr 2 * β ≤ 1e30 := by
      have : 1 ≤ (2 * gr 2) ^ n := one_le_pow₀ g1
      rw [pow_succ] at b1
      refine le_trans ?_ b1
      have := mul_le_mul_of_nonneg_left this (mul_nonneg (by linarith : 0 ≤ 2 * gr 2) b00)
      linarith
    have yb : ∀ j, |y j| ≤ 1e51 := fun j => by
      refine (hy j).trans ?_
      rw [div_le_iff₀ cs00]
      have h1 : (1e51 : ℝ) * 1e-20 ≤ 1e51 * cs := mul_le_mul_of_nonneg_left cs0 (by norm_num)
      refine le_trans ?_ h1
      norm_num at bg ⊢; linarith
    obtain ⟨v, ev, hv⟩ := lu_top h (fun j : Fin n => B 0 j.succ) y (d 0) (B 0 0) (by omega) (fun j => hBm _ _) yb (hdm 0) (ccs.trans hcp) cs0 (le_trans (by norm_num) m0) mle
      (le_trans (by norm_num) b0) ble (by norm_num) le_rfl
    refine ⟨Fin.cons v y, ?_, ?_⟩
    · rw [ev]
      funext i
      refine Fin.cases rfl (fun i => rfl) i
    · intro i
      refine Fin.cases ?_ (fun i => ?_) i
      · rw [Fin.cons_zero]; exact hv.trans (by norm_num)
      · rw [Fin.cons_succ]; exact (yb i).trans (by norm_num)

omit [Machine] in
/-- perturbed entries -/
theorem Low.perturb {n : ℕ} {A S : Matrix (Fin n) (Fin n) ℝ} {c δ : ℝ} (hl : Low A c) (c0 : 0 < c) (hS : ∀ i j, |S i j - A i j| ≤ δ) (hδ : n * δ ≤ c) :
    Low S (c - n * δ) := by
  intro z T hT i
  have d0 : 0 ≤ δ := (abs_nonneg _).trans (hS i i)
  have T0 : 0 ≤ T := (abs_nonneg _).trans (hT i)
  have dev : ∀ i, |((S *ᵥ z) i - (A *ᵥ z) i)| ≤ n * (δ * ‖z‖) := fun i => by
    have e : (S *ᵥ z) i - (A *ᵥ z) i = ∑ j, (S i j - A i j) * z j := by
      simp only [mulVec, dotProduct, sub_mul, Finset.sum_sub_distrib]
    rw [e]
    refine (Finset.abs_sum_le_sum_abs _ _).trans ((Finset.sum_le_card_nsmul _ _ (δ * ‖z‖) fun j _ => ?_).trans (le_of_eq (by simp)))
    rw [abs_mul]
    exact mul_le_mul (hS i j) (norm_le_pi_norm z j) (abs_nonneg _) d0
  have key : ∀ i, c * |z i| ≤ T + n * (δ * ‖z‖) := hl z _ fun k => by
    have h1 := dev k
    have h2 := hT k
    have h3 := abs_sub_abs_le_abs_sub ((A *ᵥ z) k) ((S *ᵥ z) k)
    rw [abs_sub_comm] at h3
    linarith
  have kz : ‖z‖ ≤ (T + n * (δ * ‖z‖)) / c := (pi_norm_le_iff_of_nonneg (by positivity)).2 fun i => by
    rw [Real.norm_eq_abs, le_div_iff₀ c0, mul_comm]; exact key i
  rw [le_div_iff₀ c0] at kz
  have h1 : (c - n * δ) * |z i| ≤ (c - n * δ) * ‖z‖ := mul_le_mul_of_nonneg_left (norm_le_pi_norm z i) (by linarith)
  refine h1.trans ?_
  linarith

omit [Machine] in
theorem Low.regular {n : ℕ} {A : Matrix (Fin n) (Fin n) ℝ} {c : ℝ} (hl : Low A c) (c0 : 0 < c) : IsUnit A.det := by
  rw [isUnit_iff_ne_zero]
  intro h0
  obtain ⟨v, hv, hv'⟩ := exists_mulVec_eq_zero_iff.2 h0
  refine hv (funext fun i => ?_)
  have := hl v 0 (fun i => by rw [hv']; simp) i
  have h1 : |v i| ≤ 0 := by by_contra h; nlinarith [abs_nonneg (v i)]
  exact abs_eq_zero.1 (le_antisymm h1 (abs_nonneg _))

omit [Machine] in
theorem Low.inv_le {n : ℕ} {A : Matrix (Fin n) (Fin n) ℝ} {c : ℝ} (hl : Low A c) (c0 : 0 < c) (i j : Fin n) : |A⁻¹ i j| ≤ 1 / c := by
  have := hl (fun k => A⁻¹ k j) 1 (fun k => by
    have e : (A *ᵥ fun k => A⁻¹ k j) k = (A * A⁻¹) k j := rfl
    rw [e, mul_nonsing_inv A (hl.regular c0), one_apply]; split_ifs <;> simp) i
  rw [le_div_iff₀ c0, mul_comm]; exact this

omit [Machine] in
theorem Low.mono {n : ℕ} {A : Matrix (Fin n) (Fin n) ℝ} {c c' : ℝ} (hl : Low A c) (h : c' ≤ c) : Low A c' := fun z T hT i =>
  (mul_le_mul_of_nonneg_right h (abs_nonneg _)).trans (hl z T hT i)

end NavFuse
