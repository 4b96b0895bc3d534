import Verif.Lemmas.RoundLu

/-! # Rounding errors of the LDLT solver -/

namespace NavFuse
open Matrix
variable [Machine] {r : ℝ → ℝ}

/-- symmetric, with no eigenvalue below `c` -/
def PosL {n : ℕ} (A : Matrix (Fin n) (Fin n) ℝ) (c : ℝ) : Prop := Aᵀ = A ∧ ∀ z, c * (z ⬝ᵥ z) ≤ z ⬝ᵥ (A *ᵥ z)

omit [Machine] in
theorem PosL.swap {n : ℕ} {A : Matrix (Fin (n + 1)) (Fin (n + 1)) ℝ} {c : ℝ} (h : PosL A c) (p : Fin (n + 1)) : PosL (swapBoth A p) c := by
  refine ⟨?_, fun x => ?_⟩
  · ext i j
    exact congrFun (congrFun h.1 _) _
  · have := h.2 (fun j => x (Equiv.swap 0 p j))
    have e1 : (fun j => x (Equiv.swap 0 p j)) ⬝ᵥ (fun j => x (Equiv.swap 0 p j)) = x ⬝ᵥ x :=
      Fintype.sum_equiv (Equiv.swap 0 p) _ _ fun j => rfl
    have e2 : (fun j => x (Equiv.swap 0 p j)) ⬝ᵥ (A *ᵥ fun j => x (Equiv.swap 0 p j)) = x ⬝ᵥ (swapBoth A p *ᵥ x) :=
      Fintype.sum_equiv (Equiv.swap 0 p) _ _ fun j => by rw [swapBoth_mulVec]; simp
    rwa [e1, e2] at this

omit [Machine] in
theorem PosL.diag {n : ℕ} {A : Matrix (Fin n) (Fin n) ℝ} {c : ℝ} (h : PosL A c) (i : Fin n) : c ≤ A i i := by
  have := h.2 (Pi.single i 1)
  simpa using this

omit [Machine] in
theorem PosL.schur {n : ℕ} {A : Matrix (Fin (n + 1)) (Fin (n + 1)) ℝ} {c : ℝ} (h : PosL A c) (c0 : 0 < c) : PosL (schur A) c := by
  have h0 := h.diag 0
  have hs : ∀ i j, A i j = A j i := fun i j => congrFun (congrFun h.1 j) i
  have h00 : A 0 0 ≠ 0 := (c0.trans_le h0).ne'
  refine ⟨?_, fun x => ?_⟩
  · ext i j
    simp only [transpose_apply, NavFuse.schur, of_apply]
    rw [hs j.succ i.succ, hs j.succ 0, hs 0 i.succ]
    ring
  · have := h.2 (Fin.cons (-(∑ j, A 0 j.succ * x j) / A 0 0) x)
    have e1 : ∀ i : Fin n, (A *ᵥ (Fin.cons (-(∑ j, A 0 j.succ * x j) / A 0 0) x : Fin (n + 1) → ℝ)) i.succ = (NavFuse.schur A *ᵥ x) i := fun i => by
      rw [mulVec_cons, schur_mulVec]; ring
    have e0 : (A *ᵥ (Fin.cons (-(∑ j, A 0 j.succ * x j) / A 0 0) x : Fin (n + 1) → ℝ)) 0 = 0 := by
      rw [mulVec_cons]; field_simp; ring
    rw [dotProduct, dotProduct, Fin.sum_univ_succ, Fin.sum_univ_succ] at this
    simp only [Fin.cons_zero, Fin.cons_succ, e0, e1, mul_zero, zero_add] at this
    refine le_trans (mul_le_mul_of_nonneg_left ?_ c0.le) this
    have := mul_self_nonneg (-(∑ j, A 0 j.succ * x j) / A 0 0)
    rw [dotProduct]; linarith

omit [Machine] in
/-- an off-diagonal coefficient is at most the mean of the two diagonal ones -/
theorem PosL.offdiag {n : ℕ} {A : Matrix (Fin n) (Fin n) ℝ} {c m : ℝ} (h : PosL A c) (c0 : 0 ≤ c) (hd : ∀ i, A i i ≤ m) (i j : Fin n) : |A i j| ≤ m := by
  have hs : A j i = A i j := congrFun (congrFun h.1 i) j
  have key : ∀ s : ℝ, s * s = 1 → 0 ≤ A i i + 2 * s * A i j + A j j := fun s hs1 => by
    have := h.2 (Pi.single i 1 + Pi.single j s)
    have q : (Pi.single i 1 + Pi.single j s) ⬝ᵥ (A *ᵥ (Pi.single i 1 + Pi.single j s : Fin n → ℝ)) = A i i + s * A j i + (s * A i j + s * (A j j * s)) := by
      rw [mulVec_add, dotProduct_add, add_dotProduct, add_dotProduct]
      simp [mulVec_single, single_dotProduct]
      exact Or.inl (by ring)
    rw [q] at this
    have h0 : 0 ≤ c * ((Pi.single i 1 + Pi.single j s) ⬝ᵥ (Pi.single i 1 + Pi.single j s : Fin n → ℝ)) :=
      mul_nonneg c0 (Finset.sum_nonneg fun k _ => mul_self_nonneg _)
    rw [hs] at this
    have e : s * (A j j * s) = A j j := by rw [mul_comm (A j j), ← mul_assoc, hs1, one_mul]
    rw [e] at this
    linarith
  have k1 := key 1 (by norm_num)
  have k2 := key (-1) (by norm_num)
  have := hd i
  have := hd j
  rw [abs_le]; constructor <;> linarith

omit [Machine] in
/-- the first column against the pivot -/
theorem PosL.edge {n : ℕ} {A : Matrix (Fin (n + 1)) (Fin (n + 1)) ℝ} {c m : ℝ} (h : PosL A c) (c0 : 0 < c) (hd : ∀ i, A i i ≤ m) (i : Fin n) :
    A i.succ 0 * A i.succ 0 ≤ m * A 0 0 := by
  have hs : A 0 i.succ = A i.succ 0 := congrFun (congrFun h.1 i.succ) 0
  have h0 := c0.trans_le (h.diag 0)
  have := c0.le.trans ((h.schur c0).diag i)
  simp only [NavFuse.schur, of_apply, hs] at this
  have h1 : A i.succ 0 / A 0 0 * A i.succ 0 ≤ m := by
    have := hd i.succ
    linarith
  have e : A i.succ 0 * A i.succ 0 = A i.succ 0 / A 0 0 * A i.succ 0 * A 0 0 := by field_simp
  rw [e]
  exact mul_le_mul_of_nonneg_right h1 h0.le

omit [Machine] in
theorem PosL.schur_le {n : ℕ} {A : Matrix (Fin (n + 1)) (Fin (n + 1)) ℝ} {c m : ℝ} (h : PosL A c) (c0 : 0 < c) (hd : ∀ i, A i i ≤ m) (i j : Fin n) :
    |NavFuse.schur A i j| ≤ m := by
  refine (h.schur c0).offdiag c0.le (fun i => ?_) i j
  have hs : A 0 i.succ = A i.succ 0 := congrFun (congrFun h.1 i.succ) 0
  have h0 := c0.trans_le (h.diag 0)
  simp only [NavFuse.schur, of_apply, hs]
  have : 0 ≤ A i.succ 0 / A 0 0 * A i.succ 0 := by
    rw [div_mul_eq_mul_div]; exact div_nonneg (mul_self_nonneg _) h0.le
  have := hd i.succ
  linarith

omit [Machine] in
/-- perturbed entries -/
theorem PosL.perturb {n : ℕ} {A S : Matrix (Fin n) (Fin n) ℝ} {c δ : ℝ} (h : PosL A c) (hS' : Sᵀ = S) (hS : ∀ i j, |S i j - A i j| ≤ δ) : PosL S (c - n * δ) := by
  refine ⟨hS', fun z => ?_⟩
  have e : z ⬝ᵥ (S *ᵥ z) - z ⬝ᵥ (A *ᵥ z) = ∑ i, ∑ j, z i * ((S i j - A i j) * z j) := by
    simp only [mulVec, dotProduct, Finset.mul_sum, ← Finset.sum_sub_distrib]
    exact Finset.sum_congr rfl fun i _ => Finset.sum_congr rfl fun j _ => by ring
  have b : |∑ i, ∑ j, z i * ((S i j - A i j) * z j)| ≤ ∑ i, ∑ j, δ * ((z i * z i + z j * z j) / 2) := by
    refine (Finset.abs_sum_le_sum_abs _ _).trans (Finset.sum_le_sum fun i _ => (Finset.abs_sum_le_sum_abs _ _).trans (Finset.sum_le_sum fun j _ => ?_))
    have d0 : 0 ≤ δ := (abs_nonneg _).trans (hS i j)
    rw [abs_mul, abs_mul]
    have h1 : |z i| * |z j| ≤ (z i * z i + z j * z j) / 2 := by
      have := sq_nonneg (|z i| - |z j|)
      have e1 := abs_mul_abs_self (z i)
      have e2 := abs_mul_abs_self (z j)
      nlinarith
    calc |z i| * (|S i j - A i j| * |z j|) = |S i j - A i j| * (|z i| * |z j|) := by ring
      _ ≤ δ * ((z i * z i + z j * z j) / 2) := mul_le_mul (hS i j) h1 (by positivity) d0
  have s : ∑ i, ∑ j, δ * ((z i * z i + z j * z j) / 2) = n * δ * (z ⬝ᵥ z) := by
    simp only [← Finset.mul_sum, ← Finset.sum_div, Finset.sum_add_distrib, Finset.sum_const, Finset.card_univ, Fintype.card_fin, nsmul_eq_mul, dotProduct]
    have e : ∀ k, z k * (n * z k) = n * (z k * z k) := fun k => by ring
    simp only [e, ← Finset.mul_sum]
    ring
  have := h.2 z
  rw [s] at b
  have := (abs_le.1 b).1
  rw [sub_mul]
  linarith

omit [Machine] in
theorem PosL.mono {A : Matrix (Fin n) (Fin n) ℝ} {c c' : ℝ} (h : PosL A c) (hc : c' ≤ c) : PosL A c' :=
  ⟨h.1, fun z => (mul_le_mul_of_nonneg_right hc (Finset.sum_nonneg fun k _ => mul_self_nonneg (z k))).trans (h.2 z)⟩

omit [Machine] in
/-- the matrix shrinks no vector much -/
theorem PosL.low {n : ℕ} {A : Matrix (Fin n) (Fin n) ℝ} {c : ℝ} (h : PosL A c) (c0 : 0 < c) : Low A (c / n) := by
  intro z T hT i
  have n0 : (0 : ℝ) < n := by exact_mod_cast i.pos
  have T0 : 0 ≤ T := (abs_nonneg _).trans (hT i)
  have h1 := h.2 z
  have h2 : z ⬝ᵥ (A *ᵥ z) ≤ n * (‖z‖ * T) := by
    refine (Finset.sum_le_sum fun i _ => ?_ : z ⬝ᵥ (A *ᵥ z) ≤ ∑ _i : Fin n, ‖z‖ * T).trans (le_of_eq (by simp))
    exact (le_abs_self _).trans (by rw [abs_mul]; exact mul_le_mul (norm_le_pi_norm z i) (hT i) (abs_nonneg _) (norm_nonneg _))
  have h3 : ∀ k, z k * z k ≤ z ⬝ᵥ z := fun k => Finset.single_le_sum (f := fun k => z k * z k) (fun k _ => mul_self_nonneg _) (Finset.mem_univ k)
  have h4 : c * (‖z‖ * ‖z‖) ≤ n * (‖z‖ * T) := by
    have : ‖z‖ * ‖z‖ ≤ z ⬝ᵥ z := by
      have : Nonempty (Fin n) := ⟨i⟩
      obtain ⟨k, hk⟩ := Finite.exists_max fun k => ‖z k‖
      have e : ‖z‖ = |z k| := le_antisymm ((pi_norm_le_iff_of_nonneg (abs_nonneg _)).2 hk) (norm_le_pi_norm z k)
      rw [e, abs_mul_abs_self]; exact h3 k
    exact (mul_le_mul_of_nonneg_left this c0.le).trans (h1.trans h2)
  have h5 : c * ‖z‖ ≤ n * T := by
    rcases (norm_nonneg z).eq_or_lt with q | q
    · rw [← q, mul_zero]; positivity
    · have e : n * (‖z‖ * T) = n * T * ‖z‖ := by ring
      rw [e, ← mul_assoc] at h4
      exact le_of_mul_le_mul_right h4 q
  have h6 := norm_le_pi_norm z i
  rw [Real.norm_eq_abs] at h6
  rw [div_mul_eq_mul_div, div_le_iff₀ n0, mul_comm T]
  exact (mul_le_mul_of_nonneg_left h6 c0.le).trans h5

omit [Machine] in
theorem lowerOf_symm {n : ℕ} (A : Matrix (Fin n) (Fin n) ℝ) : (lowerOf A)ᵀ = lowerOf A := by
  ext i j
  simp only [transpose_apply, lowerOf, of_apply]
  rcases lt_trichotomy i j with q | q | q
  · simp [q.le, not_le.2 q]
  · simp [q]
  · simp [q.le, not_le.2 q]

omit [Machine] in
theorem lowerOf_near {n : ℕ} {S B : Matrix (Fin n) (Fin n) ℝ} {δ : ℝ} (hB : Bᵀ = B) (h : ∀ i j, |S i j - B i j| ≤ δ) (i j : Fin n) :
    |lowerOf S i j - B i j| ≤ δ := by
  simp only [lowerOf, of_apply]
  split_ifs
  · exact h i j
  · rw [show B i j = B j i from congrFun (congrFun hB j) i]; exact h j i

/-! ## Rounding -/

/-- the coefficient in the residual bound -/
noncomputable def ldK (n : ℕ) : ℝ := ((n : ℝ) ^ 3 + 22 * (n : ℝ) ^ 2 + 18 * n) * gr (22 * n)

omit [Machine] in
theorem ldK_nonneg (n : ℕ) : 0 ≤ ldK n := mul_nonneg (by positivity) (by linarith [one_le_gr (22 * n)])

omit [Machine] in
theorem ldK_succ (n : ℕ) : ldK n * gr 22 + (2 * (n : ℝ) ^ 2 + 44 * n + 20) ≤ ldK (n + 1) := by
  have e : gr (22 * (n + 1)) = gr (22 * n) * gr 22 := by rw [← gr_add]; congr 1
  have h1 := one_le_gr (22 * (n + 1))
  have n0 : (0 : ℝ) ≤ n := Nat.cast_nonneg n
  have h0 : (0 : ℝ) ≤ 2 * (n : ℝ) ^ 2 + 44 * n + 20 := by positivity
  have h2 := mul_le_mul_of_nonneg_left h1 h0
  have h3 : 2 * (n : ℝ) ^ 2 + 44 * n + 20 + ((n : ℝ) ^ 3 + 22 * (n : ℝ) ^ 2 + 18 * n) ≤ ((n : ℝ) + 1) ^ 3 + 22 * ((n : ℝ) + 1) ^ 2 + 18 * (n + 1) := by nlinarith
  have h4 := mul_le_mul_of_nonneg_right h3 (zero_le_one.trans h1)
  unfold ldK
  push_cast
  rw [e] at h2 h4 ⊢
  linarith

omit [Machine] in
theorem ldK_step (n : ℕ) : ldK n ≤ ldK (n + 1) := by
  have h1 := ldK_succ n
  have h2 := le_mul_of_one_le_right (ldK_nonneg n) (one_le_gr 22)
  have : (0 : ℝ) ≤ 2 * (n : ℝ) ^ 2 + 44 * n + 20 := by positivity
  linarith

omit [Machine] in
theorem gr_ge (k : ℕ) : 1 + k * ulp ≤ gr k := one_add_mul_le_pow (by linarith [ulp_pos]) k

omit [Machine] in
theorem ldK_ge (n : ℕ) : (2 * (n + 1) * (n + 3) : ℝ) ≤ ldK (n + 1) := by
  have h1 := ldK_succ n
  have h2 := mul_nonneg (ldK_nonneg n) (by linarith [one_le_gr 22] : 0 ≤ gr 22)
  have h3 : (0 : ℝ) ≤ n := Nat.cast_nonneg n
  have h4 : (2 * (n + 1) * (n + 3) : ℝ) = 2 * (n : ℝ) ^ 2 + 8 * n + 6 := by ring
  linarith

omit [Machine] in
/-- what was rounded is near the result -/
theorem Rounds53.back (h : Rounds53 r) {v x X : ℝ} (e : r v = x) (hx : |x| ≤ X) (x0 : 1e-200 ≤ X) : |v| ≤ 2 * X ∧ |x - v| ≤ ulp * (2 * X) := by
  have X0 : 0 ≤ X := le_trans (by norm_num) x0
  have hy : |v| ≤ 2 * X := by
    rcases le_total |v| ((2 : ℝ) ^ (-1022 : ℤ)) with c | c
    · have := c.trans tiny_1022
      refine this.trans (le_trans ?_ (le_trans x0 (by linarith))); norm_num
    · have h1 := h.rel _ c
      rw [e] at h1
      have h2 := abs_sub_abs_le_abs_sub v x
      rw [abs_sub_comm] at h2
      have h4 : |v| / 2 ^ 52 ≤ |v| / 2 := div_le_div_of_nonneg_left (abs_nonneg _) (by norm_num) (by norm_num)
      linarith
  refine ⟨hy, ?_⟩
  have dx := h.rel_floor hy (le_trans (by norm_num) (le_trans x0 (by linarith : X ≤ 2 * X)))
  rwa [e] at dx

omit [Machine] in
theorem Dbl.mul_rd {a b x : ℝ} (e : (.fin a * .fin b : Dbl r) = .fin x) : r (a * b) = x := Dbl.rd_eq (r := r) e

omit [Machine] in
theorem Dbl.sub_rd {a b x : ℝ} (e : (.fin a - .fin b : Dbl r) = .fin x) : r (a - b) = x := Dbl.rd_eq (r := r) e

omit [Machine] in
/-- one factor of the decomposition -/
theorem ldlt_factor (h : Rounds53 r) {a P l : ℝ} (P0 : 0 < P) (ha : |a| ≤ P * l) (l1 : 1 ≤ l) (l2 : l ≤ 1e25) :
    |a / P| ≤ l ∧ ∃ t, (.fin a / .fin P : Dbl r) = .fin t ∧ |t - a / P| ≤ ulp * l ∧ |t| ≤ 2 * l := by
  have q1 : |a / P| ≤ l := by rw [abs_div, abs_of_pos P0, div_le_iff₀ P0, mul_comm]; exact ha
  have e := h.rel_floor q1 (le_trans (by norm_num) l1)
  have u1 : ulp * l ≤ 1 * l := mul_le_mul_of_nonneg_right (by unfold ulp; norm_num) (by linarith)
  have q2 : |r (a / P)| ≤ 2 * l := by
    have := abs_sub_abs_le_abs_sub (r (a / P)) (a / P)
    linarith
  refine ⟨q1, r (a / P), ?_, e, q2⟩
  show Dbl.rd r (XR.fin a / XR.fin P) = _
  rw [XR.fin_div _ _ P0.ne']
  have : 2 * l ≤ 2 * 1e25 := by linarith
  exact Dbl.rd_fin (lt_of_le_of_lt (q2.trans (this.trans (by norm_num))) Dbl.big)

omit [Machine] in
/-- one coefficient after the elimination -/
theorem ldlt_entry (h : Rounds53 r) {c P t t' q q' l m : ℝ} (hc : |c| ≤ m) (P0 : 1e-20 ≤ P) (l1 : 1 ≤ l) (hm : P * l * l = m) (m1 : m ≤ 1e30)
    (ht : |t - q| ≤ ulp * l) (hq : |q| ≤ l) (ht' : |t' - q'| ≤ ulp * l) (hq' : |q'| ≤ l) :
    ∃ s, (.fin c - .fin t * (.fin P * .fin t') : Dbl r) = .fin s ∧ |s - (c - q * (P * q'))| ≤ 20 * ulp * m := by
  have P00 : 0 < P := lt_of_lt_of_le (by norm_num) P0
  have l0 : 0 < l := by linarith
  have u0 := ulp_pos
  have Pl0 : (1e-250 : ℝ) ≤ P * l := (le_trans (by norm_num) P0).trans (le_mul_of_one_le_right P00.le l1)
  have Plm : P * l ≤ m := by rw [← hm]; exact le_mul_of_one_le_right (by positivity) l1
  have rt : Rl (.fin t : Dbl r) q 1 l := ⟨⟨t, rfl, by simpa [gr] using ht⟩, hq⟩
  have rt' : Rl (.fin t' : Dbl r) q' 1 l := ⟨⟨t', rfl, by simpa [gr] using ht'⟩, hq'⟩
  have p1 := Rl.mul h (Rl.exact (r := r) (x := P) (M := P) (by rw [abs_of_pos P00])) rt' Pl0 (Plm.trans (m1.trans (by norm_num))) (by norm_num)
  have e : l * (P * l) = m := by rw [← hm]; ring
  have p2 := Rl.mul h rt p1 (by rw [e]; exact Pl0.trans Plm) (by rw [e]; exact m1.trans (by norm_num)) (by norm_num)
  rw [e] at p2
  have m2 : (1e-250 : ℝ) ≤ m + m := by linarith [Pl0.trans Plm, (by norm_num : (0 : ℝ) ≤ 1e-250)]
  have m3 : m + m ≤ 1e199 := by
    have : m + m ≤ 2 * 1e30 := by linarith
    exact this.trans (by norm_num)
  have p3 := Rl.sub h ((Rl.exact (r := r) hc).mono (Nat.zero_le (1 + (0 + 1 + 1) + 1))) p2 m2 m3 (by norm_num)
  obtain ⟨s, es, ds⟩ := p3.near
  refine ⟨s, es, ds.trans ?_⟩
  have g : gr (1 + (0 + 1 + 1) + 1 + 1) - 1 ≤ 10 * ulp := by
    have := gr_le (k := 1 + (0 + 1 + 1) + 1 + 1) (by norm_num)
    unfold ulp
    norm_num at this ⊢; linarith
  have m0 : 0 ≤ m + m := le_trans (by norm_num) m2
  exact (mul_le_mul_of_nonneg_right g m0).trans (le_of_eq (by ring))

omit [Machine] in
/-- one coefficient of the right-hand side -/
theorem ldlt_rhs (h : Rounds53 r) {b t d β l : ℝ} (hb : |b| ≤ β) (ht : |t| ≤ 2 * l) (hd : |d| ≤ β) (l1 : 1 ≤ l) (l2 : l ≤ 1e25) (b0 : 1e-40 ≤ β) (b1 : β ≤ 1e60) :
    ∃ w, (.fin b - .fin t * .fin d : Dbl r) = .fin w ∧ w = r (b - r (t * d)) ∧ |w| ≤ 8 * l * β := by
  have b00 : 0 ≤ β := le_trans (by norm_num) b0
  have lb : β ≤ l * β := le_mul_of_one_le_left b00 l1
  have lb2 : l * β ≤ 1e85 := (mul_le_mul l2 b1 b00 (by norm_num)).trans (by norm_num)
  have f1 : (1e-250 : ℝ) ≤ 2 * l * β := by
    have := le_trans (by norm_num : (1e-250 : ℝ) ≤ 1e-40) b0
    linarith
  have f2 : 2 * l * β ≤ 1e86 := by
    have : 2 * l * β ≤ 2 * 1e85 := by linarith
    exact this.trans (by norm_num)
  have p := Rl.mul h (Rl.exact (r := r) ht) (Rl.exact (r := r) hd) f1 (f2.trans (by norm_num)) (by norm_num)
  obtain ⟨v, ev, dv⟩ := p.near
  have p' := p
  have f3 : β + 2 * l * β ≤ 1e87 := (add_le_add b1 f2).trans (by norm_num)
  have q := Rl.sub h ((Rl.exact (r := r) hb).mono (Nat.zero_le (0 + 0 + 1))) p (by linarith) (f3.trans (by norm_num)) (by norm_num)
  obtain ⟨w, ew, dw⟩ := q.near
  refine ⟨w, ew, ?_, ?_⟩
  · rw [ev] at ew
    rw [← Dbl.sub_rd ew, Dbl.mul_rd ev]
  · have h1 := Rl.val_le dw q.mag
    have h2 := gr_le_two (k := 0 + 0 + 1 + 1) (by norm_num)
    have h3 : gr (0 + 0 + 1 + 1) * (β + 2 * l * β) ≤ 2 * (β + 2 * l * β) := mul_le_mul_of_nonneg_right h2 (by linarith)
    linarith

/-- the inner product of the back substitution -/
theorem ldlt_dot (h : Rounds53 r) {n : ℕ} (hn : n ≤ 100) (t q x : Fin n → ℝ) {l X : ℝ} (ht : ∀ j, |t j - q j| ≤ ulp * l) (hq : ∀ j, |q j| ≤ l) (hx : ∀ j, |x j| ≤ X)
    (l1 : 1 ≤ l) (l2 : l ≤ 1e25) (x0 : 1e-100 ≤ X) (x1 : X ≤ 1e120) :
    ∃ f, (fsum fun j => .fin (t j) * .fin (x j) : Dbl r) = .fin f ∧ |f - ∑ j, q j * x j| ≤ 2 * (n + 2) * ulp * (n * (l * X)) ∧ |f| ≤ 2 * (n * (l * X)) := by
  have x00 : 0 ≤ X := le_trans (by norm_num) x0
  have lX : 0 ≤ l * X := by positivity
  have f0 : (1e-250 : ℝ) ≤ l * X := le_trans (le_trans (by norm_num) x0) (le_mul_of_one_le_left x00 l1)
  have f1 : l * X ≤ 1e145 := (mul_le_mul l2 x1 x00 (by norm_num)).trans (by norm_num)
  have hn' : (n : ℝ) ≤ 100 := by exact_mod_cast hn
  have fs : (n : ℝ) * (l * X) ≤ 1e147 := (mul_le_mul hn' f1 lX (by norm_num)).trans (by norm_num)
  have sM : ∑ _j : Fin n, l * X = n * (l * X) := by simp
  have rt : ∀ j, Rl (.fin (t j) : Dbl r) (q j) 1 l := fun j => ⟨⟨t j, rfl, by simpa [gr] using ht j⟩, hq j⟩
  have f := Rl.fsum h (fun j : Fin n => Rl.mul h (rt j) (Rl.exact (r := r) (hx j)) f0 (f1.trans (by norm_num)) (by norm_num))
    (fun _ => f0) (by rw [sM]; exact fs.trans (by norm_num)) (by omega)
  rw [sM] at f
  obtain ⟨v, ev, dv⟩ := f.near
  have n0 : 0 ≤ n * (l * X) := by positivity
  refine ⟨v, ev, dv.trans (mul_le_mul_of_nonneg_right ?_ n0), (Rl.val_le dv f.mag).trans (mul_le_mul_of_nonneg_right (gr_le_two (by omega)) n0)⟩
  have := gr_le (k := 1 + 0 + 1 + n) (by omega)
  push_cast at this
  unfold ulp
  have e : 2 * ((n : ℝ) + 2) * (1 / 2 ^ 52) = (1 + 0 + 1 + n) / 2 ^ 51 := by ring
  rw [e]; linarith

omit [Machine] in
/-- the first row -/
theorem ldlt_row0 (h : Rounds53 r) {n : ℕ} {B : Matrix (Fin (n + 1)) (Fin (n + 1)) ℝ} {x : Fin (n + 1) → ℝ} {d z f l X : ℝ} (hs : ∀ j : Fin n, B 0 j.succ = B j.succ 0)
    (P0 : 0 < B 0 0) (l1 : 1 ≤ l) (ez : r (d / B 0 0) = z) (ex : r (z - f) = x 0) (hx : |x 0| ≤ X) (x0 : 1e-100 ≤ X)
    (ef : |f - ∑ j : Fin n, B j.succ 0 / B 0 0 * x j.succ| ≤ 2 * (n + 2) * ulp * (n * (l * X))) (hf : |f| ≤ 2 * (n * (l * X))) :
    |d - (B *ᵥ x) 0| ≤ B 0 0 * l * (2 * (n + 1) * (n + 3) * ulp * X) ∧ |d| ≤ B 0 0 * (4 * (n + 1) * (l * X)) := by
  have u0 := ulp_pos
  have X0 : 0 ≤ X := le_trans (by norm_num) x0
  have lX : X ≤ l * X := le_mul_of_one_le_left X0 l1
  obtain ⟨b1, b2⟩ := h.back ex hx (le_trans (by norm_num) x0)
  have hz : |z| ≤ (2 * n + 2) * (l * X) := by
    have : z = (z - f) + f := by ring
    rw [this]
    refine (abs_add_le _ _).trans ?_
    linarith
  have nn : (0 : ℝ) ≤ n := Nat.cast_nonneg n
  obtain ⟨c1, c2⟩ := h.back ez hz (by
    have : X ≤ (2 * n + 2) * (l * X) := by nlinarith [mul_nonneg nn (X0.trans lX)]
    exact le_trans (by norm_num) (x0.trans this))
  have eq : d - (B *ᵥ x) 0 = B 0 0 * (-(z - d / B 0 0) - (x 0 - (z - f)) - -(f - ∑ j : Fin n, B j.succ 0 / B 0 0 * x j.succ)) := by
    have : (B *ᵥ x) 0 = B 0 0 * x 0 + ∑ j : Fin n, B 0 (Fin.succ j) * x j.succ := by simp [mulVec, dotProduct, Fin.sum_univ_succ]
    rw [this]
    have s : ∑ j : Fin n, B 0 (Fin.succ j) * x j.succ = B 0 0 * ∑ j : Fin n, B j.succ 0 / B 0 0 * x j.succ := by
      rw [Finset.mul_sum]
      exact Finset.sum_congr rfl fun j _ => by rw [hs j]; field_simp
    rw [s]
    field_simp
    ring
  constructor
  · rw [eq, abs_mul, abs_of_pos P0, mul_assoc]
    refine mul_le_mul_of_nonneg_left ?_ P0.le
    have t1 := abs_sub (-(z - d / B 0 0) - (x 0 - (z - f))) (-(f - ∑ j : Fin n, B j.succ 0 / B 0 0 * x j.succ))
    have t2 := abs_sub (-(z - d / B 0 0)) (x 0 - (z - f))
    rw [abs_neg] at t1 t2
    have t3 : ulp * (2 * X) ≤ 2 * (ulp * (l * X)) := by
      have := mul_le_mul_of_nonneg_left lX u0.le
      linarith
    have t4 : ulp * (2 * ((2 * n + 2) * (l * X))) + 2 * (ulp * (l * X)) + 2 * (n + 2) * ulp * (n * (l * X)) = l * (2 * (n + 1) * (n + 3) * ulp * X) := by ring
    linarith
  · have : d = B 0 0 * (d / B 0 0) := by field_simp
    rw [this, abs_mul, abs_of_pos P0]
    exact mul_le_mul_of_nonneg_left (c1.trans (le_of_eq (by ring))) P0.le

omit [Machine] in
/-- the other rows -/
theorem ldlt_row (h : Rounds53 r) {n : ℕ} {S : Matrix (Fin n) (Fin n) ℝ} {B : Matrix (Fin (n + 1)) (Fin (n + 1)) ℝ} {w : Fin n → ℝ} {d x : Fin (n + 1) → ℝ} {t : Fin n → ℝ}
    {l m X : ℝ} (P0 : 0 < B 0 0) (l1 : 1 ≤ l) (hm : B 0 0 * l * l = m) (m0 : 1e-40 ≤ m) (i : Fin n)
    (hx : ∀ i, |x i| ≤ X) (x0 : 1e-100 ≤ X) (hq : |B i.succ 0 / B 0 0| ≤ l) (ht : |t i - B i.succ 0 / B 0 0| ≤ ulp * l) (ht' : |t i| ≤ 2 * l)
    (hS : ∀ j, |S i j - schur B i j| ≤ 20 * ulp * m) (mS : ∀ j, |S i j| ≤ gr 20 * m) (ew : w i = r (d i.succ - r (t i * d 0)))
    (res : |w i - (S *ᵥ fun i => x i.succ) i| ≤ ldK n * ulp * (gr 20 * m * X))
    (row0 : |d 0 - (B *ᵥ x) 0| ≤ B 0 0 * l * (2 * (n + 1) * (n + 3) * ulp * X)) (hd0 : |d 0| ≤ B 0 0 * (4 * (n + 1) * (l * X))) :
    |d i.succ - (B *ᵥ x) i.succ| ≤ ldK (n + 1) * ulp * (m * X) := by
  have u0 := ulp_pos
  have X0 : 0 ≤ X := le_trans (by norm_num) x0
  have m00 : 0 ≤ m := le_trans (by norm_num) m0
  have mX : 0 ≤ m * X := by positivity
  have l0 : 0 ≤ l := by linarith
  have nn : (0 : ℝ) ≤ n := Nat.cast_nonneg n
  have K0 := ldK_nonneg n
  have g20 := gr_le_two (k := 20) (by norm_num)
  -- the rounded product
  have p1 : |t i * d 0| ≤ 8 * (n + 1) * (m * X) := by
    rw [abs_mul]
    refine (mul_le_mul ht' hd0 (abs_nonneg _) (by positivity)).trans (le_of_eq ?_)
    rw [← hm]; ring
  have p2 := h.rel_floor p1 (by
    have : (1e-250 : ℝ) ≤ m * X := le_trans (by norm_num) (mul_le_mul m0 x0 (by norm_num) m00)
    nlinarith [mul_nonneg nn mX])
  have sx : |(S *ᵥ fun i => x i.succ) i| ≤ n * (2 * (m * X)) := by
    refine (Finset.abs_sum_le_sum_abs _ _ : |∑ j, S i j * x j.succ| ≤ _).trans ((Finset.sum_le_card_nsmul _ _ (2 * (m * X)) fun j _ => ?_).trans (le_of_eq (by simp)))
    rw [abs_mul]
    have : gr 20 * m ≤ 2 * m := mul_le_mul_of_nonneg_right g20 m00
    exact (mul_le_mul ((mS j).trans this) (hx _) (abs_nonneg _) (by linarith)).trans (le_of_eq (by ring))
  obtain ⟨W, hW⟩ : ∃ W, W = n * (2 * (m * X)) + ldK n * ulp * (gr 20 * m * X) + m * X := ⟨_, rfl⟩
  have w1 : |w i| ≤ W := by
    have := abs_sub_abs_le_abs_sub (w i) ((S *ᵥ fun i => x i.succ) i)
    rw [hW]
    linarith
  have W0 : 1e-200 ≤ W := by
    have h1 : (1e-200 : ℝ) ≤ m * X := le_trans (by norm_num) (mul_le_mul m0 x0 (by norm_num) m00)
    have h2 : 0 ≤ n * (2 * (m * X)) := by positivity
    have h3 : 0 ≤ ldK n * ulp * (gr 20 * m * X) := (abs_nonneg _).trans res
    rw [hW]; linarith
  have w2 := (h.back ew.symm w1 W0).2
  have ex : (B *ᵥ x) i.succ = B i.succ 0 * x 0 + ∑ j : Fin n, B i.succ (Fin.succ j) * x j.succ := by simp [mulVec, dotProduct, Fin.sum_univ_succ]
  have ex0 : (B *ᵥ x) 0 = B 0 0 * x 0 + ∑ j : Fin n, B 0 (Fin.succ j) * x j.succ := by simp [mulVec, dotProduct, Fin.sum_univ_succ]
  have eS' : (S *ᵥ fun i => x i.succ) i = ∑ j : Fin n, S i j * x j.succ := by simp [mulVec, dotProduct]
  have sd : |∑ j : Fin n, (S i j - schur B i j) * x j.succ| ≤ n * (20 * ulp * m * X) := by
    refine (Finset.abs_sum_le_sum_abs _ _).trans ((Finset.sum_le_card_nsmul _ _ (20 * ulp * m * X) fun j _ => ?_).trans (le_of_eq (by simp)))
    rw [abs_mul]
    exact mul_le_mul (hS j) (hx _) (abs_nonneg _) (by positivity)
  have split : d i.succ - (B *ᵥ x) i.succ = (w i - (S *ᵥ fun i => x i.succ) i) - (w i - (d i.succ - r (t i * d 0))) + (r (t i * d 0) - t i * d 0)
      + ∑ j : Fin n, (S i j - schur B i j) * x j.succ + (t i - B i.succ 0 / B 0 0) * d 0 + B i.succ 0 / B 0 0 * (d 0 - (B *ᵥ x) 0) := by
    rw [ex, ex0, eS']
    have : ∑ j : Fin n, (S i j - schur B i j) * x j.succ
        = (∑ j : Fin n, S i j * x j.succ) - (∑ j : Fin n, B i.succ j.succ * x j.succ) + B i.succ 0 / B 0 0 * ∑ j : Fin n, B 0 j.succ * x j.succ := by
      rw [Finset.mul_sum, ← Finset.sum_sub_distrib, ← Finset.sum_add_distrib]
      exact Finset.sum_congr rfl fun j _ => by simp only [schur, of_apply]; ring
    rw [this]
    field_simp
    ring
  rw [split]
  have a2 : |(t i - B i.succ 0 / B 0 0) * d 0| ≤ 4 * (n + 1) * (ulp * (m * X)) := by
    rw [abs_mul]
    refine (mul_le_mul ht hd0 (abs_nonneg _) (by positivity)).trans (le_of_eq ?_)
    rw [← hm]; ring
  have a3 : |B i.succ 0 / B 0 0 * (d 0 - (B *ᵥ x) 0)| ≤ 2 * (n + 1) * (n + 3) * (ulp * (m * X)) := by
    rw [abs_mul]
    refine (mul_le_mul hq row0 (abs_nonneg _) l0).trans (le_of_eq ?_)
    rw [← hm]; ring
  have tri : ∀ a b c d e f : ℝ, |a - b + c + d + e + f| ≤ |a| + |b| + |c| + |d| + |e| + |f| := fun a b c d e f => by
    have h0 := abs_add_le (a - b + c + d + e) f
    have h1 := abs_add_le (a - b + c + d) e
    have h2 := abs_add_le (a - b + c) d
    have h3 := abs_add_le (a - b) c
    have h4 := abs_sub a b
    linarith
  refine (tri _ _ _ _ _ _).trans ?_
  have k1 := mul_le_mul_of_nonneg_right (ldK_succ n) (mul_nonneg u0.le mX)
  have g22 : (1 + 2 * ulp) * gr 20 ≤ gr 22 := by
    have e : gr 22 = gr 2 * gr 20 := by rw [← gr_add]
    rw [e]
    have := gr_ge 2
    push_cast at this
    exact mul_le_mul_of_nonneg_right this (by linarith [one_le_gr 20])
  have k2 := mul_le_mul_of_nonneg_left g22 (mul_nonneg K0 (mul_nonneg u0.le mX))
  have e1 : ulp * (2 * W) = 4 * n * (ulp * (m * X)) + 2 * ulp * (ldK n * ulp * (gr 20 * m * X)) + 2 * (ulp * (m * X)) := by rw [hW]; ring
  rw [e1] at w2
  have e2 : ldK n * (ulp * (m * X)) * ((1 + 2 * ulp) * gr 20) = ldK n * ulp * (gr 20 * m * X) + 2 * ulp * (ldK n * ulp * (gr 20 * m * X)) := by ring
  rw [e2] at k2
  have e3 : ldK (n + 1) * ulp * (m * X) = ldK (n + 1) * (ulp * (m * X)) := by ring
  rw [e3]
  refine le_trans ?_ k1
  have e4 : (ldK n * gr 22 + (2 * (n : ℝ) ^ 2 + 44 * n + 20)) * (ulp * (m * X)) = ldK n * (ulp * (m * X)) * gr 22
      + (8 * (n + 1) + 4 * n + 2 + 20 * n + 4 * (n + 1) + 2 * (n + 1) * (n + 3)) * (ulp * (m * X)) := by ring
  rw [e4]
  have e5 : n * (20 * ulp * m * X) = 20 * n * (ulp * (m * X)) := by ring
  rw [e5] at sd
  have e6 : ulp * (8 * (n + 1) * (m * X)) = 8 * (n + 1) * (ulp * (m * X)) := by ring
  rw [e6] at p2
  linarith

/-- the threshold below which a pivot counts as zero -/
theorem ldlt_lit (h : Rounds53 r) {P : ℝ} (P0 : 1e-20 ≤ P) : Flt.lt (Flt.lit dblMin : Dbl r) (Flt.abs (.fin P)) = true := by
  have d1 : |((dblMin : ℚ) : ℝ)| ≤ 1e-250 := by
    have e : ((dblMin : ℚ) : ℝ) = 2 ^ (-1022 : ℤ) := by rw [dblMin]; push_cast; rw [_root_.zpow_neg, one_div]; rfl
    rw [e, abs_of_pos (by positivity)]; exact tiny_1022
  have d2 := h.rel_floor d1 le_rfl
  have d3 : |r ((dblMin : ℚ) : ℝ)| ≤ 1e-200 := by
    have := abs_sub_abs_le_abs_sub (r ((dblMin : ℚ) : ℝ)) ((dblMin : ℚ) : ℝ)
    have u1 : ulp * 1e-250 ≤ 1 * 1e-250 := mul_le_mul_of_nonneg_right (by unfold ulp; norm_num) (by norm_num)
    have : |r ((dblMin : ℚ) : ℝ)| ≤ 2 * 1e-250 := by linarith
    exact this.trans (by norm_num)
  have e : (Flt.lit dblMin : Dbl r) = .fin (r ((dblMin : ℚ) : ℝ)) := Dbl.rd_fin (lt_of_le_of_lt (d3.trans (by norm_num)) Dbl.big)
  rw [e]
  show Flt.lt (XR.fin (r ((dblMin : ℚ) : ℝ))) (XR.fin |P|) = true
  rw [XR.X_lt, R_lt]
  have : (1e-200 : ℝ) < 1e-20 := by norm_num
  exact (le_abs_self _).trans_lt (d3.trans_lt (this.trans_le (P0.trans (le_abs_self _))))

theorem ldlt_lit0 (h : Rounds53 r) {P : ℝ} (P0 : 0 < P) : Flt.lt (Flt.lit 0 : Dbl r) (Flt.abs (.fin P)) = true := by
  obtain ⟨z, hz, hz'⟩ := (Rl.zero h).near
  have : z = 0 := by simpa [gr] using hz'
  rw [hz, this]
  show Flt.lt (XR.fin 0) (XR.fin |P|) = true
  rw [XR.X_lt, R_lt]
  exact abs_pos.2 P0.ne'

omit [Machine] in
theorem lowerOf_D {n : ℕ} (A : Matrix (Fin n) (Fin n) ℝ) : lowerOf (of fun i j => (.fin (A i j) : Dbl r)) = of fun i j => .fin (lowerOf A i j) := by
  ext i j
  simp only [lowerOf, of_apply]
  split_ifs <;> rfl

set_option maxHeartbeats 800000 in
theorem ldlt_main (h : Rounds53 r) {n : ℕ} (A : Matrix (Fin n) (Fin n) ℝ) (D : Fin n → Dbl r) (b : Fin n → ℝ) {m β c cs L : ℝ} (hA : PosL (lowerOf A) c)
    (hA' : ∀ i, lowerOf A i i ≤ m) (hb : ∀ i, |b i| ≤ β) (hc : cs + 2 * (ldK n * ulp * (n * m)) ≤ c) (hn : n ≤ 100) (cs0 : 1e-20 ≤ cs) (cs1 : cs ≤ 1e30)
    (m0 : 1e-40 ≤ m) (m1 : m * gr (20 * n) ≤ 1e30) (mL : m * gr (20 * n) ≤ cs * (L * L)) (L1 : 1 ≤ L) (L2 : L ≤ 1e25) (b0 : 1e-40 ≤ β) (b1 : β * (8 * L) ^ n ≤ 1e60) :
    ∃ x : Fin n → ℝ, ldltGo (of fun i j => (.fin (A i j) : Dbl r)) D (fun i => .fin (b i)) = (fun i => .fin (x i)) ∧ (∀ i, |x i| ≤ n * β / cs) ∧
      ∀ X, (∀ i, |x i| ≤ X) → 1e-100 ≤ X → X ≤ 1e120 → ∀ i, |b i - (lowerOf A *ᵥ x) i| ≤ ldK n * ulp * (m * X) := by
  induction n generalizing m β c with
  | zero => exact ⟨fun i => i.elim0, funext fun i => i.elim0, fun i => i.elim0, fun X _ _ _ i => i.elim0⟩
  | succ n ih =>
    have u0 := ulp_pos
    have m00 : 0 ≤ m := le_trans (by norm_num) m0
    have b00 : 0 ≤ β := le_trans (by norm_num) b0
    have cs00 : 0 < cs := lt_of_lt_of_le (by norm_num) cs0
    have K0 := ldK_nonneg (n + 1)
    have ccs : cs ≤ c := le_trans (le_add_of_nonneg_right (by positivity)) hc
    have c0 : 0 < c := cs00.trans_le ccs
    have mle : m ≤ 1e30 := (le_mul_of_one_le_right m00 (one_le_gr _)).trans m1
    have mLL : m ≤ cs * (L * L) := (le_mul_of_one_le_right m00 (one_le_gr _)).trans mL
    have L8 : 1 ≤ 8 * L := by linarith
    have ble : β ≤ 1e60 := (le_mul_of_one_le_right b00 (one_le_pow₀ L8)).trans b1
    suffices ∃ x : Fin (n + 1) → ℝ, ldltGo (of fun i j => (.fin (A i j) : Dbl r)) D (fun i => .fin (b i)) = (fun i => .fin (x i)) ∧ (∀ i, |x i| ≤ 1e118) ∧
        ∀ X, (∀ i, |x i| ≤ X) → 1e-100 ≤ X → X ≤ 1e120 → ∀ i, |b i - (lowerOf A *ᵥ x) i| ≤ ldK (n + 1) * ulp * (m * X) by
      obtain ⟨x, ex, hx, res⟩ := this
      refine ⟨x, ex, ?_, res⟩
      have X0 : ‖x‖ ≤ 1e118 := (pi_norm_le_iff_of_nonneg (by norm_num)).2 hx
      have n1 : (1 : ℝ) ≤ (n + 1 : ℕ) := by push_cast; linarith [(Nat.cast_nonneg n : (0 : ℝ) ≤ n)]
      have floor : (1e-100 : ℝ) ≤ (n + 1 : ℕ) * β / cs := by
        rw [le_div_iff₀ cs00]
        have h1 : (1e-100 : ℝ) * cs ≤ 1e-100 * 1e30 := mul_le_mul_of_nonneg_left cs1 (by norm_num)
        exact h1.trans (le_trans (by norm_num) (b0.trans (le_mul_of_one_le_left b00 n1)))
      rcases le_total ‖x‖ (1e-100 : ℝ) with q | q
      · exact fun i => (norm_le_pi_norm x i).trans (q.trans floor)
      · have res := res ‖x‖ (norm_le_pi_norm x) q (X0.trans (by norm_num))
        have T : ∀ i, |(lowerOf A *ᵥ x) i| ≤ β + ldK (n + 1) * ulp * (m * ‖x‖) := fun i => by
          have h1 := res i
          have h2 := hb i
          have h3 := abs_sub_abs_le_abs_sub ((lowerOf A *ᵥ x) i) (b i)
          rw [abs_sub_comm] at h3
          linarith
        have key := hA.low c0 x _ T
        have c1 : 0 < c / (n + 1 : ℕ) := div_pos c0 (by linarith)
        have kz : ‖x‖ ≤ (β + ldK (n + 1) * ulp * (m * ‖x‖)) / (c / (n + 1 : ℕ)) := (pi_norm_le_iff_of_nonneg (by positivity)).2 fun i => by
          rw [Real.norm_eq_abs, le_div_iff₀ c1, mul_comm]; exact key i
        rw [le_div_iff₀ c1, ← mul_div_assoc, div_le_iff₀ (by linarith)] at kz
        have k2 := mul_le_mul_of_nonneg_left hc (norm_nonneg x)
        intro i
        refine (norm_le_pi_norm x i).trans ?_
        rw [le_div_iff₀ cs00]
        have k4 : ‖x‖ * (cs + 2 * (ldK (n + 1) * ulp * ((n + 1 : ℕ) * m))) = ‖x‖ * cs + 2 * (ldK (n + 1) * ulp * (m * ‖x‖) * (n + 1 : ℕ)) := by ring
        have k6 : 0 ≤ ldK (n + 1) * ulp * (m * ‖x‖) * (n + 1 : ℕ) := by positivity
        rw [k4] at k2
        rw [add_mul] at kz
        linarith
    rw [ldltGo, lowerOf_D]
    generalize argmax (fun i => Flt.abs (D i)) = p
    obtain ⟨B, hB⟩ : ∃ B : Matrix (Fin (n + 1)) (Fin (n + 1)) ℝ, B = swapBoth (lowerOf A) p := ⟨_, rfl⟩
    obtain ⟨d, hd⟩ : ∃ d : Fin (n + 1) → ℝ, d = fun i => b (Equiv.swap 0 p i) := ⟨_, rfl⟩
    have eB : ∀ i j, lowerOf A (Equiv.swap 0 p i) (Equiv.swap 0 p j) = B i j := fun i j => by rw [hB]; rfl
    have ed : ∀ i, b (Equiv.swap 0 p i) = d i := fun i => by rw [hd]
    simp only [of_apply, eB, ed]
    have hBp : PosL B c := by rw [hB]; exact hA.swap p
    have hBd : ∀ i, B i i ≤ m := fun i => by rw [← eB]; exact hA' _
    have hBm : ∀ i j, |B i j| ≤ m := hBp.offdiag c0.le hBd
    have hdm : ∀ i, |d i| ≤ β := fun i => by rw [← ed]; exact hb _
    have hs : ∀ j : Fin n, B 0 j.succ = B j.succ 0 := fun j => congrFun (congrFun hBp.1 j.succ) 0
    have hP : c ≤ B 0 0 := hBp.diag 0
    have P0 : 0 < B 0 0 := c0.trans_le hP
    have P20 : 1e-20 ≤ B 0 0 := cs0.trans (ccs.trans hP)
    obtain ⟨l, hl⟩ : ∃ l, l = Real.sqrt (m / B 0 0) := ⟨_, rfl⟩
    have ll : l * l = m / B 0 0 := by rw [hl]; exact Real.mul_self_sqrt (by positivity)
    have l1 : 1 ≤ l := by rw [hl, Real.one_le_sqrt, one_le_div₀ P0]; exact hBd 0
    have lL : l ≤ L := by
      rw [hl]
      refine Real.sqrt_le_iff.2 ⟨by linarith, ?_⟩
      rw [div_le_iff₀ P0, _root_.sq]
      have := mul_le_mul_of_nonneg_right (ccs.trans hP) (by positivity : 0 ≤ L * L)
      linarith
    have l2 : l ≤ 1e25 := lL.trans L2
    have hml : B 0 0 * l * l = m := by rw [mul_assoc, ll]; field_simp
    have edge : ∀ i : Fin n, |B i.succ 0| ≤ B 0 0 * l := fun i => by
      refine abs_le_of_sq_le_sq ?_ (by positivity)
      have := hBp.edge c0 hBd i
      have e : (B 0 0 * l) ^ 2 = m * B 0 0 := by
        have : (B 0 0 * l) ^ 2 = B 0 0 * l * l * B 0 0 := by ring
        rw [this, hml]
      rw [e, _root_.sq]; exact this
    simp only [ldlt_lit0 h P0, ldlt_lit h P20, if_true]
    have fac := fun i : Fin n => ldlt_factor (r := r) h P0 (edge i) l1 l2
    choose hq t et te tl using fac
    simp only [et]
    choose S eS dS using fun i j : Fin n => ldlt_entry (r := r) h (hBm i.succ j.succ) P20 l1 hml mle (te i) (hq i) (te j) (hq j)
    choose w ew ew' mw using fun i : Fin n => ldlt_rhs (r := r) h (hdm i.succ) (tl i) (hdm 0) l1 l2 b0 ble
    simp only [eS, ew]
    have hschur := hBp.schur c0
    have dS' : ∀ i j, |S i j - schur B i j| ≤ 20 * ulp * m := fun i j => by
      have := dS i j
      have e : B i.succ 0 / B 0 0 * (B 0 0 * (B j.succ 0 / B 0 0)) = B i.succ 0 / B 0 0 * B 0 j.succ := by rw [hs j]; field_simp
      rw [e] at this
      exact this
    have dl := lowerOf_near hschur.1 dS'
    have lp := hschur.perturb (lowerOf_symm S) dl
    have ml : ∀ i j, |lowerOf S i j| ≤ gr 20 * m := fun i j => by
      have h1 := dl i j
      have h2 := hBp.schur_le c0 hBd i j
      have h3 := abs_sub_abs_le_abs_sub (lowerOf S i j) (schur B i j)
      have h4 := mul_le_mul_of_nonneg_right (gr_ge 20) m00
      push_cast at h4
      linarith
    have eg : gr 20 * m * gr (20 * n) = m * gr (20 * (n + 1)) := by
      have : gr (20 * (n + 1)) = gr (20 * n) * gr 20 := by rw [← gr_add]; congr 1
      rw [this]; ring
    have eb : 8 * L * β * (8 * L) ^ n = β * (8 * L) ^ (n + 1) := by rw [pow_succ]; ring
    have step : cs + 2 * (ldK n * ulp * (n * (gr 20 * m))) ≤ c - n * (20 * ulp * m) := by
      have k := ldK_succ n
      have k0 := ldK_nonneg n
      have e1 : (ldK n * gr 22 + (2 * (n : ℝ) ^ 2 + 44 * n + 20)) * (ulp * ((n + 1 : ℕ) * m)) ≤ ldK (n + 1) * (ulp * ((n + 1 : ℕ) * m)) :=
        mul_le_mul_of_nonneg_right k (by positivity)
      push_cast at e1 hc
      have g : gr 20 ≤ gr 22 := gr_mono (by norm_num)
      have g0 : 0 ≤ gr 22 := by linarith [one_le_gr 22]
      have e2 : ldK n * gr 20 * (ulp * (n * m)) ≤ ldK n * gr 22 * (ulp * (n * m)) :=
        mul_le_mul_of_nonneg_right (mul_le_mul_of_nonneg_left g k0) (by positivity)
      have e3 : 0 ≤ ldK n * gr 22 * (ulp * m) := by positivity
      have e4 : 0 ≤ (n : ℝ) ^ 3 * (ulp * m) := by positivity
      have e5 : 0 ≤ (n : ℝ) ^ 2 * (ulp * m) := by positivity
      have e6 : 0 ≤ (n : ℝ) * (ulp * m) := by positivity
      have e7 : 0 ≤ ulp * m := by positivity
      linarith
    obtain ⟨y, ey, hy, ry⟩ := ih S (fun i => D (Equiv.swap 0 p i.succ)) w (m := gr 20 * m) (β := 8 * L * β) lp (fun i => (le_abs_self _).trans (ml i i))
      (fun i => (mw i).trans (mul_le_mul_of_nonneg_right (by linarith) b00)) step (by omega)
      (m0.trans (le_mul_of_one_le_left m00 (one_le_gr 20))) (by rw [eg]; exact m1) (by rw [eg]; exact mL) (b0.trans (le_mul_of_one_le_left b00 L8)) (by rw [eb]; exact b1)
    rw [ey]
    have n100 : (n : ℝ) ≤ 100 := by exact_mod_cast (by omega : n ≤ 100)
    have n0 : (0 : ℝ) ≤ n := Nat.cast_nonneg n
    have bL : 8 * L * β ≤ 1e60 := by
      refine le_trans ?_ b1
      rw [← eb]
      exact le_mul_of_one_le_right (by positivity) (one_le_pow₀ L8)
    have yb : ∀ j, |y j| ≤ 1e82 := fun j => by
      refine (hy j).trans ?_
      rw [div_le_iff₀ cs00]
      have h1 : (1e82 : ℝ) * 1e-20 ≤ 1e82 * cs := mul_le_mul_of_nonneg_left cs0 (by norm_num)
      exact (mul_le_mul n100 bL (by positivity) (by norm_num)).trans (le_trans (by norm_num) h1)
    obtain ⟨f, ef, -, fb⟩ := ldlt_dot h (by omega : n ≤ 100) t (fun j => B j.succ 0 / B 0 0) y te hq yb l1 l2 (by norm_num) (by norm_num)
    have fb' : |f| ≤ 1e110 := by
      refine fb.trans ?_
      have h1 : l * 1e82 ≤ 1e25 * 1e82 := mul_le_mul_of_nonneg_right l2 (by norm_num)
      have h2 : (n : ℝ) * (l * 1e82) ≤ 100 * (1e25 * 1e82) := mul_le_mul n100 h1 (by positivity) (by norm_num)
      have h3 : 2 * ((n : ℝ) * (l * 1e82)) ≤ 2 * (100 * (1e25 * 1e82)) := by linarith
      exact h3.trans (by norm_num)
    have zb : |d 0 / B 0 0| ≤ 1e80 := by
      rw [abs_div, abs_of_pos P0, div_le_iff₀ P0]
      have h1 : (1e80 : ℝ) * 1e-20 ≤ 1e80 * B 0 0 := mul_le_mul_of_nonneg_left P20 (by norm_num)
      exact (hdm 0).trans (ble.trans (le_trans (by norm_num) h1))
    have zr := h.rel_floor zb (by norm_num)
    have u1 : ulp ≤ 1 := by unfold ulp; norm_num
    have zb' : |r (d 0 / B 0 0)| ≤ 1e81 := by
      have h1 := abs_sub_abs_le_abs_sub (r (d 0 / B 0 0)) (d 0 / B 0 0)
      have h2 : ulp * 1e80 ≤ 1 * 1e80 := mul_le_mul_of_nonneg_right u1 (by norm_num)
      have h3 : |r (d 0 / B 0 0)| ≤ 2 * 1e80 := by linarith
      exact h3.trans (by norm_num)
    have ez : (.fin (d 0) / .fin (B 0 0) : Dbl r) = .fin (r (d 0 / B 0 0)) := by
      show Dbl.rd r (XR.fin (d 0) / XR.fin (B 0 0)) = _
      rw [XR.fin_div _ _ P0.ne']
      exact Dbl.rd_fin (lt_of_le_of_lt (zb'.trans (by norm_num)) Dbl.big)
    rw [ez]
    simp only
    rw [ef]
    obtain ⟨z, hz⟩ : ∃ z, r (d 0 / B 0 0) = z := ⟨_, rfl⟩
    rw [hz] at zb' ⊢
    have vb : |z - f| ≤ 1e112 := by
      have h1 := abs_sub z f
      have h2 : |z - f| ≤ 1e81 + 1e110 := by linarith
      exact h2.trans (by norm_num)
    have vr := h.rel_floor vb (by norm_num)
    have vb' : |r (z - f)| ≤ 1e115 := by
      have h1 := abs_sub_abs_le_abs_sub (r (z - f)) (z - f)
      have h2 : ulp * 1e112 ≤ 1 * 1e112 := mul_le_mul_of_nonneg_right u1 (by norm_num)
      have h3 : |r (z - f)| ≤ 2 * 1e112 := by linarith
      exact h3.trans (by norm_num)
    have ev : (.fin z - .fin f : Dbl r) = .fin (r (z - f)) := Dbl.rd_fin (lt_of_le_of_lt (vb'.trans (by norm_num)) Dbl.big)
    rw [ev]
    obtain ⟨v, hv⟩ : ∃ v, r (z - f) = v := ⟨_, rfl⟩
    rw [hv] at vb' ⊢
    obtain ⟨x, hx⟩ : ∃ x : Fin (n + 1) → ℝ, x = Fin.cons v y := ⟨_, rfl⟩
    have x0 : x 0 = v := by rw [hx, Fin.cons_zero]
    have xs : ∀ j, x (Fin.succ j) = y j := fun j => by rw [hx, Fin.cons_succ]
    refine ⟨fun i => x (Equiv.swap 0 p i), ?_, ?_, ?_⟩
    · funext i
      beta_reduce
      generalize Equiv.swap 0 p i = k
      refine Fin.cases ?_ (fun k => ?_) k
      · rw [x0]; rfl
      · rw [xs]; rfl
    · intro i
      beta_reduce
      generalize Equiv.swap 0 p i = k
      refine Fin.cases ?_ (fun k => ?_) k
      · rw [x0]; exact vb'.trans (by norm_num)
      · rw [xs]; exact (yb k).trans (by norm_num)
    · intro X hX' X0 X1
      have hX : ∀ i, |x i| ≤ X := fun i => by have := hX' (Equiv.swap 0 p i); simpa using this
      suffices key : ∀ i, |d i - (B *ᵥ x) i| ≤ ldK (n + 1) * ulp * (m * X) by
        intro i
        have := key (Equiv.swap 0 p i)
        rw [hB, swapBoth_mulVec, hd] at this
        simpa using this
      obtain ⟨f', ef', df, fbX⟩ := ldlt_dot h (by omega : n ≤ 100) t (fun j => B j.succ 0 / B 0 0) y te hq (fun j => by rw [← xs]; exact hX _) l1 l2 X0 X1
      have : f' = f := by rw [ef] at ef'; exact (XR.fin.inj (congrArg Dbl.x ef')).symm
      rw [this] at df fbX
      simp only [← xs] at df
      obtain ⟨r0, d0⟩ := ldlt_row0 h hs P0 l1 hz (by rw [x0]; exact hv) (hX 0) X0 df fbX
      have ry' := ry X (fun j => by rw [← xs]; exact hX _) X0 X1
      have XX : 0 ≤ X := le_trans (by norm_num) X0
      intro i
      refine Fin.cases ?_ (fun i => ?_) i
      · refine r0.trans ?_
        have h1 : B 0 0 * l ≤ m := by rw [← hml]; exact le_mul_of_one_le_right (by positivity) l1
        have h2 := ldK_ge n
        have h3 : 0 ≤ ulp * X := by positivity
        have h4 := mul_le_mul h2 h1 (by positivity) K0
        have h5 := mul_le_mul_of_nonneg_right h4 h3
        have e1 : B 0 0 * l * (2 * (n + 1) * (n + 3) * ulp * X) = 2 * (n + 1) * (n + 3) * (B 0 0 * l) * (ulp * X) := by ring
        have e2 : ldK (n + 1) * ulp * (m * X) = ldK (n + 1) * m * (ulp * X) := by ring
        rw [e1, e2]; exact h5
      · refine ldlt_row h P0 l1 hml m0 i hX X0 (hq i) (te i) (tl i) (dl i) (ml i) (ew' i) ?_ r0 d0
        have ys : y = fun j => x (Fin.succ j) := funext fun j => (xs j).symm
        rw [← ys]
        exact ry' i

end NavFuse
