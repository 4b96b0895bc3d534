import Verif.Lemmas.RoundMat
import Verif.Lemmas.KalmanEval
import Verif.Lemmas.KalmanAlgebra

/-! # Rounding errors of one Kalman filter call -/

namespace NavFuse
open Matrix Kalman
variable [Machine] {r : ℝ → ℝ}

section nonneg
variable {n m c : ℕ}

omit [Machine] in
theorem term_le {M : Matrix (Fin n) (Fin c) ℝ} {N : Matrix (Fin c) (Fin m) ℝ} (hM : ∀ i j, 0 ≤ M i j) (hN : ∀ i j, 0 ≤ N i j) (i : Fin n) (l : Fin c)
    (j : Fin m) : M i l * N l j ≤ (M * N) i j := by
  rw [Matrix.mul_apply]
  exact Finset.single_le_sum (f := fun l => M i l * N l j) (fun l _ => mul_nonneg (hM _ _) (hN _ _)) (Finset.mem_univ l)

omit [Machine] in
theorem term_leV {M : Matrix (Fin n) (Fin c) ℝ} {v : Fin c → ℝ} (hM : ∀ i j, 0 ≤ M i j) (hv : ∀ i, 0 ≤ v i) (i : Fin n) (l : Fin c) :
    M i l * v l ≤ (M *ᵥ v) i :=
  Finset.single_le_sum (f := fun l => M i l * v l) (fun _ _ => mul_nonneg (hM _ _) (hv _)) (Finset.mem_univ l)

omit [Machine] in
theorem mulVec_nonneg' {M : Matrix (Fin n) (Fin c) ℝ} {v : Fin c → ℝ} (hM : ∀ i j, 0 ≤ M i j) (hv : ∀ i, 0 ≤ v i) (i : Fin n) : 0 ≤ (M *ᵥ v) i := by
  rw [Matrix.mulVec, dotProduct]
  exact Finset.sum_nonneg fun l _ => mul_nonneg (hM i l) (hv l)

omit [Machine] in
theorem cap_of {a b B : ℝ} (hb : 1e-50 ≤ b) (ha : 0 ≤ a) (h : a * b ≤ 1e100) (hB : (1e150 : ℝ) ≤ B) : a ≤ B := by
  have h1 : a * 1e-50 ≤ a * b := mul_le_mul_of_nonneg_left hb ha
  refine le_trans ?_ hB
  have h2 : a * 1e-50 ≤ 1e100 := h1.trans h
  have h3 := mul_le_mul_of_nonneg_right h2 (by norm_num : (0 : ℝ) ≤ 1e50)
  rw [mul_assoc] at h3
  norm_num at h3 ⊢
  linarith

omit [Machine] in
theorem floor_mul {a b p q s : ℝ} (ha : p ≤ a) (hb : q ≤ b) (h0 : 0 ≤ p) (h1 : 0 ≤ q) (hs : s ≤ p * q) : s ≤ a * b :=
  hs.trans (mul_le_mul ha hb h1 (h0.trans ha))
end nonneg

section step
variable {n : ℕ} {k : ℕ}

theorem predict_rl (h : Rounds53 r) {F Q P : Matrix (Fin n) (Fin n) ℝ} {x : Fin n → ℝ} {F' Q' P' : Matrix (Fin n) (Fin n) (Dbl r)} {x' : Fin n → Dbl r}
    {MF MQ MP : Matrix (Fin n) (Fin n) ℝ} {Mx : Fin n → ℝ} (hF : MRl F' F 0 MF) (hQ : MRl Q' Q 0 MQ) (hx : VRl x' x k Mx) (hP : MRl P' P k MP)
    (fF : ∀ i j, 1e-50 ≤ MF i j) (fQ : ∀ i j, 1e-50 ≤ MQ i j) (fx : ∀ i, 1e-50 ≤ Mx i) (fP : ∀ i j, 1e-50 ≤ MP i j)
    (cx : ∀ i, (MF *ᵥ Mx) i ≤ 1e100) (cP : ∀ i j, (MF * MP * MFᵀ + MQ) i j ≤ 1e100) (hk : k + (2 * n + 3) ≤ 10 ^ 15) :
    VRl (mvec F' x') (F *ᵥ x) (k + (2 * n + 3)) (MF *ᵥ Mx)
    ∧ MRl (madd (mmul (mmul F' P') (mtr F')) Q') (F * P * Fᵀ + Q) (k + (2 * n + 3)) (MF * MP * MFᵀ + MQ) := by
  have z50 : (0 : ℝ) ≤ 1e-50 := by norm_num
  have pF : ∀ i j, 0 ≤ MF i j := fun i j => z50.trans (fF i j)
  have pQ : ∀ i j, 0 ≤ MQ i j := fun i j => z50.trans (fQ i j)
  have pP : ∀ i j, 0 ≤ MP i j := fun i j => z50.trans (fP i j)
  have px : ∀ i, 0 ≤ Mx i := fun i => z50.trans (fx i)
  have big : (1e100 : ℝ) ≤ 1e199 := by norm_num
  have fFP : ∀ i j, 1e-100 ≤ (MF * MP) i j := fun i j =>
    (floor_mul (fF i i) (fP i j) z50 z50 (by norm_num)).trans (term_le pF pP i i j)
  have pFP : ∀ i j, 0 ≤ (MF * MP) i j := fun i j => le_trans (by norm_num) (fFP i j)
  have pFPF : ∀ i j, (MF * MP * MFᵀ) i j ≤ 1e100 := fun i j => by
    have := cP i j
    rw [Matrix.add_apply] at this
    linarith [pQ i j]
  have cFP : ∀ i j, (MF * MP) i j ≤ 1e199 := fun i j =>
    cap_of (b := MFᵀ j i) (fF i j) (pFP i j) ((term_le pFP (fun i j => pF j i) i j i).trans (pFPF i i)) (by norm_num)
  constructor
  · refine (hF.mvec h hx (fun i l => floor_mul (fF i l) (fx l) z50 z50 (by norm_num)) (fun i => (cx i).trans big) (by omega)).mono (by omega)
  · have a1 := hF.mmul h hP (fun i l j => floor_mul (fF i l) (fP l j) z50 z50 (by norm_num)) cFP (by omega)
    have a2 := a1.mmul h hF.tr (fun i l j => floor_mul (fFP i l) (fF j l) (by norm_num) z50 (by norm_num)) (fun i j => (pFPF i j).trans big) (by omega)
    have a3 := a2.madd h (hQ.mono (Nat.zero_le _)) (fun i j => ?_) (fun i j => (cP i j).trans big) (by omega)
    · exact a3.mono (by omega)
    · rw [Matrix.add_apply]
      have pFT : ∀ i j, 0 ≤ MFᵀ i j := fun i j => pF j i
      have := term_le pFP pFT i i j
      have h2 : (1e-250 : ℝ) ≤ 1e-50 := by norm_num
      have h3 := mul_nonneg (pFP i i) (pFT i j)
      linarith [fQ i j]

theorem update_rl' (h : Rounds53 r) {m k' : ℕ} (hm : 0 < m) {P : Matrix (Fin n) (Fin n) ℝ} {x : Fin n → ℝ} {P' : Matrix (Fin n) (Fin n) (Dbl r)}
    {x' : Fin n → Dbl r} {H : Matrix (Fin m) (Fin n) ℝ} {R : Matrix (Fin m) (Fin m) ℝ} {z : Fin m → ℝ} {K : Matrix (Fin n) (Fin m) ℝ}
    {H' : Matrix (Fin m) (Fin n) (Dbl r)} {R' : Matrix (Fin m) (Fin m) (Dbl r)} {z' : Fin m → Dbl r} {K' : Matrix (Fin n) (Fin m) (Dbl r)}
    {MH : Matrix (Fin m) (Fin n) ℝ} {MR : Matrix (Fin m) (Fin m) ℝ} {Mz : Fin m → ℝ} {MK : Matrix (Fin n) (Fin m) ℝ}
    {MP : Matrix (Fin n) (Fin n) ℝ} {Mx : Fin n → ℝ} (hH : MRl H' H 0 MH) (hR : MRl R' R k' MR) (hz : VRl z' z k' Mz) (hK : MRl K' K k' MK)
    (hx : VRl x' x k Mx) (hP : MRl P' P k MP)
    (fH : ∀ i j, 1e-50 ≤ MH i j) (fR : ∀ i j, 1e-50 ≤ MR i j) (fz : ∀ i, 1e-50 ≤ Mz i) (fK : ∀ i j, 1e-50 ≤ MK i j) (fx : ∀ i, 1e-50 ≤ Mx i)
    (fP : ∀ i j, 1e-50 ≤ MP i j)
    (cx : ∀ i, (Mx + MK *ᵥ (Mz + MH *ᵥ Mx)) i ≤ 1e100)
    (cP : ∀ i j, ((1 + MK * MH) * MP * (1 + MK * MH)ᵀ + MK * MR * MKᵀ : Matrix (Fin n) (Fin n) ℝ) i j ≤ 1e100) (hk : k + 3 * k' + (2 * m + 2 * n + 7) ≤ 10 ^ 15) :
    VRl (vadd x' (mvec K' (vsub z' (mvec H' x')))) (x + K *ᵥ (z - H *ᵥ x)) (k + 3 * k' + (2 * m + 2 * n + 7)) (Mx + MK *ᵥ (Mz + MH *ᵥ Mx))
    ∧ MRl (madd (mmul (mmul (msub mid (mmul K' H')) P') (mtr (msub mid (mmul K' H')))) (mmul (mmul K' R') (mtr K')))
        ((1 - K * H) * P * (1 - K * H)ᵀ + K * R * Kᵀ) (k + 3 * k' + (2 * m + 2 * n + 7))
        ((1 + MK * MH) * MP * (1 + MK * MH)ᵀ + MK * MR * MKᵀ) := by
  rcases Nat.eq_zero_or_pos n with rfl | hn
  · exact ⟨fun i => i.elim0, fun i => i.elim0⟩
  have i0 : Fin n := ⟨0, hn⟩
  have l0 : Fin m := ⟨0, hm⟩
  have z50 : (0 : ℝ) ≤ 1e-50 := by norm_num
  have pH : ∀ i j, 0 ≤ MH i j := fun i j => z50.trans (fH i j)
  have pR : ∀ i j, 0 ≤ MR i j := fun i j => z50.trans (fR i j)
  have pK : ∀ i j, 0 ≤ MK i j := fun i j => z50.trans (fK i j)
  have pz : ∀ i, 0 ≤ Mz i := fun i => z50.trans (fz i)
  have pP : ∀ i j, 0 ≤ MP i j := fun i j => z50.trans (fP i j)
  have px : ∀ i, 0 ≤ Mx i := fun i => z50.trans (fx i)
  have big : (1e100 : ℝ) ≤ 1e199 := by norm_num
  have pHx : ∀ i, 0 ≤ (MH *ᵥ Mx) i := mulVec_nonneg' pH px
  have fnu : ∀ i, 1e-50 ≤ (Mz + MH *ᵥ Mx) i := fun i => by rw [Pi.add_apply]; linarith [fz i, pHx i]
  have pnu : ∀ i, 0 ≤ (Mz + MH *ᵥ Mx) i := fun i => z50.trans (fnu i)
  have cKnu : ∀ i, (MK *ᵥ (Mz + MH *ᵥ Mx)) i ≤ 1e100 := fun i => by
    have := cx i
    rw [Pi.add_apply] at this
    linarith [px i]
  have cnu : ∀ i, (Mz + MH *ᵥ Mx) i ≤ 1e199 := fun i =>
    cap_of (b := MK i0 i) (fK i0 i) (pnu i) (by rw [mul_comm]; exact (term_leV pK pnu i0 i).trans (cKnu i0)) (by norm_num)
  set A := 1 + MK * MH with hA
  have pKH : ∀ i j, 0 ≤ (MK * MH) i j := fun i j => by
    rw [Matrix.mul_apply]; exact Finset.sum_nonneg fun l _ => mul_nonneg (pK i l) (pH l j)
  have fKH : ∀ i j, 1e-100 ≤ (MK * MH) i j := fun i j =>
    (floor_mul (fK i l0) (fH l0 j) z50 z50 (by norm_num)).trans (term_le pK pH i l0 j)
  have KHA : ∀ i j, (MK * MH) i j ≤ A i j := fun i j => by
    rw [hA, Matrix.add_apply, Matrix.one_apply]; split_ifs <;> linarith
  have fA : ∀ i j, 1e-100 ≤ A i j := fun i j => (fKH i j).trans (KHA i j)
  have pA : ∀ i j, 0 ≤ A i j := fun i j => le_trans (by norm_num) (fA i j)
  have A1 : ∀ i, 1 ≤ A i i := fun i => by rw [hA, Matrix.add_apply, Matrix.one_apply_eq]; linarith [pKH i i]
  have fAP : ∀ i j, 1e-150 ≤ (A * MP) i j := fun i j =>
    (floor_mul (fA i i) (fP i j) (by norm_num) z50 (by norm_num)).trans (term_le pA pP i i j)
  have pAP : ∀ i j, 0 ≤ (A * MP) i j := fun i j => le_trans (by norm_num) (fAP i j)
  have pKR : ∀ i j, 0 ≤ (MK * MR) i j := fun i j => by
    rw [Matrix.mul_apply]; exact Finset.sum_nonneg fun l _ => mul_nonneg (pK i l) (pR l j)
  have fKR : ∀ i j, 1e-100 ≤ (MK * MR) i j := fun i j =>
    (floor_mul (fK i j) (fR j j) z50 z50 (by norm_num)).trans (term_le pK pR i j j)
  have pAT : ∀ i j, 0 ≤ Aᵀ i j := fun i j => pA j i
  have pKT : ∀ i j, 0 ≤ MKᵀ i j := fun i j => pK j i
  have pAPA : ∀ i j, 0 ≤ (A * MP * Aᵀ) i j := fun i j => by
    rw [Matrix.mul_apply]; exact Finset.sum_nonneg fun l _ => mul_nonneg (pAP i l) (pAT l j)
  have pKRK : ∀ i j, 0 ≤ (MK * MR * MKᵀ) i j := fun i j => by
    rw [Matrix.mul_apply]; exact Finset.sum_nonneg fun l _ => mul_nonneg (pKR i l) (pKT l j)
  have cAPA : ∀ i j, (A * MP * Aᵀ) i j ≤ 1e100 := fun i j => by
    have := cP i j
    rw [Matrix.add_apply] at this
    linarith [pKRK i j]
  have cKRK : ∀ i j, (MK * MR * MKᵀ) i j ≤ 1e100 := fun i j => by
    have := cP i j
    rw [Matrix.add_apply] at this
    linarith [pAPA i j]
  have cAP : ∀ i j, (A * MP) i j ≤ 1e100 := fun i j => by
    have h1 := (term_le pAP pAT i j j).trans (cAPA i j)
    have h2 : (A * MP) i j * 1 ≤ (A * MP) i j * Aᵀ j j := mul_le_mul_of_nonneg_left (A1 j) (pAP i j)
    linarith
  have cA : ∀ i j, A i j ≤ 1e199 := fun i j => cap_of (fP j j) (pA i j) ((term_le pA pP i j j).trans (cAP i j)) (by norm_num)
  have cKR : ∀ i j, (MK * MR) i j ≤ 1e199 := fun i j =>
    cap_of (b := MKᵀ j i) (fK i j) (pKR i j) ((term_le pKR pKT i j i).trans (cKRK i i)) (by norm_num)
  constructor
  · have a1 := hH.mvec h hx (fun i l => floor_mul (fH i l) (fx l) z50 z50 (by norm_num))
      (fun i => le_trans (by rw [Pi.add_apply]; linarith [pz i]) (cnu i)) (by omega)
    have a2 := (hz.mono (Nat.le_add_right k' (k + 1 + n))).vsub h (a1.mono (by omega)) (fun i => le_trans (by norm_num) (fnu i)) cnu (by omega)
    have a3 := hK.mvec h a2 (fun i l => floor_mul (fK i l) (fnu l) z50 z50 (by norm_num)) (fun i => (cKnu i).trans big) (by omega)
    have a4 := (hx.mono (by omega)).vadd h a3 (fun i => ?_) (fun i => (cx i).trans big) (by omega)
    · exact a4.mono (by omega)
    · rw [Pi.add_apply]
      have h2 : (1e-250 : ℝ) ≤ 1e-50 := by norm_num
      have h3 : 0 ≤ (MK *ᵥ (Mz + MH *ᵥ Mx)) i := mulVec_nonneg' pK pnu i
      linarith [fx i]
  · have a1 := hK.mmul h hH (fun i l j => floor_mul (fK i l) (fH l j) z50 z50 (by norm_num)) (fun i j => (KHA i j).trans (cA i j)) (by omega)
    have a2 := ((MRl.id h).mono (Nat.zero_le _)).msub h a1 (fun i j => le_trans (by norm_num) (fA i j)) cA (by omega)
    have a3 := a2.mmul h hP (fun i l j => floor_mul (fA i l) (fP l j) (by norm_num) z50 (by norm_num)) (fun i j => (cAP i j).trans big) (by omega)
    have a4 := a3.mmul h a2.tr (fun i l j => floor_mul (fAP i l) (fA j l) (by norm_num) (by norm_num) (by norm_num)) (fun i j => (cAPA i j).trans big)
      (by omega)
    have b1 := hK.mmul h hR (fun i l j => floor_mul (fK i l) (fR l j) z50 z50 (by norm_num)) cKR (by omega)
    have b2 := b1.mmul h hK.tr (fun i l j => floor_mul (fKR i l) (fK j l) (by norm_num) z50 (by norm_num)) (fun i j => (cKRK i j).trans big) (by omega)
    have a5 := (a4.mono (show _ ≤ k + 3 * k' + (2 * m + 2 * n + 6) by omega)).madd h (b2.mono (by omega)) (fun i j => ?_) (fun i j => (cP i j).trans big) (by omega)
    · exact a5.mono (by omega)
    · rw [Matrix.add_apply]
      have h1 := (floor_mul (fAP i i) (fA j i) (by norm_num) (by norm_num) (s := 1e-250) (by norm_num)).trans (term_le pAP pAT i i j)
      linarith [pKRK i j]

theorem update_rl (h : Rounds53 r) {m : ℕ} (hm : 0 < m) {P : Matrix (Fin n) (Fin n) ℝ} {x : Fin n → ℝ} {P' : Matrix (Fin n) (Fin n) (Dbl r)}
    {x' : Fin n → Dbl r} {H : Matrix (Fin m) (Fin n) ℝ} {R : Matrix (Fin m) (Fin m) ℝ} {z : Fin m → ℝ} {K : Matrix (Fin n) (Fin m) ℝ}
    {H' : Matrix (Fin m) (Fin n) (Dbl r)} {R' : Matrix (Fin m) (Fin m) (Dbl r)} {z' : Fin m → Dbl r} {K' : Matrix (Fin n) (Fin m) (Dbl r)}
    {MH : Matrix (Fin m) (Fin n) ℝ} {MR : Matrix (Fin m) (Fin m) ℝ} {Mz : Fin m → ℝ} {MK : Matrix (Fin n) (Fin m) ℝ}
    {MP : Matrix (Fin n) (Fin n) ℝ} {Mx : Fin n → ℝ} (hH : MRl H' H 0 MH) (hR : MRl R' R 0 MR) (hz : VRl z' z 0 Mz) (hK : MRl K' K 0 MK)
    (hx : VRl x' x k Mx) (hP : MRl P' P k MP)
    (fH : ∀ i j, 1e-50 ≤ MH i j) (fR : ∀ i j, 1e-50 ≤ MR i j) (fz : ∀ i, 1e-50 ≤ Mz i) (fK : ∀ i j, 1e-50 ≤ MK i j) (fx : ∀ i, 1e-50 ≤ Mx i)
    (fP : ∀ i j, 1e-50 ≤ MP i j)
    (cx : ∀ i, (Mx + MK *ᵥ (Mz + MH *ᵥ Mx)) i ≤ 1e100)
    (cP : ∀ i j, ((1 + MK * MH) * MP * (1 + MK * MH)ᵀ + MK * MR * MKᵀ : Matrix (Fin n) (Fin n) ℝ) i j ≤ 1e100) (hk : k + (2 * m + 2 * n + 7) ≤ 10 ^ 15) :
    VRl (vadd x' (mvec K' (vsub z' (mvec H' x')))) (x + K *ᵥ (z - H *ᵥ x)) (k + (2 * m + 2 * n + 7)) (Mx + MK *ᵥ (Mz + MH *ᵥ Mx))
    ∧ MRl (madd (mmul (mmul (msub mid (mmul K' H')) P') (mtr (msub mid (mmul K' H')))) (mmul (mmul K' R') (mtr K')))
        ((1 - K * H) * P * (1 - K * H)ᵀ + K * R * Kᵀ) (k + (2 * m + 2 * n + 7))
        ((1 + MK * MH) * MP * (1 + MK * MH)ᵀ + MK * MR * MKᵀ) := by
  have := update_rl' h (k' := 0) hm hH hR hz hK hx hP fH fR fz fK fx fP cx cP (by omega)
  simpa using this

end step
end NavFuse
