import Verif.Lemmas.RoundUkf
import Verif.Lemmas.RoundScalar
import Verif.Props.KalmanDbl
import Verif.Props.Ukf

/-! # The unscented filter in double precision: C144, C145 -/

namespace NavFuse.Props
open Matrix Kalman Spec
variable [Machine] {r : ℝ → ℝ} {n m : ℕ}

/-- the weighted mean of the columns, exactly -/
noncomputable def pmean {N : ℕ} (W : Fin N → ℝ) (A : Matrix (Fin n) (Fin N) ℝ) (k : Fin n) : ℝ := ∑ i, W i * A k i

/-- `Q` plus the weighted scatter about the mean, exactly -/
noncomputable def pspread {N : ℕ} (W : Fin N → ℝ) (A : Matrix (Fin n) (Fin N) ℝ) (Q : Matrix (Fin n) (Fin n) ℝ) : Matrix (Fin n) (Fin n) ℝ :=
  of fun p q => Q p q + ∑ i, W i * (A p i - pmean W A p) * (A q i - pmean W A q)

/-- the same with magnitudes (not below 10⁻⁵⁰) and sums for differences -/
noncomputable def pmeanMag {N : ℕ} (W : Fin N → ℝ) (A : Matrix (Fin n) (Fin N) ℝ) (k : Fin n) : ℝ := ∑ i, mgV W i * mgM A k i

/-- the same with magnitudes (not below 10⁻⁵⁰) and sums for differences -/
noncomputable def pspreadMag {N : ℕ} (W : Fin N → ℝ) (A : Matrix (Fin n) (Fin N) ℝ) (Q : Matrix (Fin n) (Fin n) ℝ) : Matrix (Fin n) (Fin n) ℝ :=
  of fun p q => mgM Q p q + ∑ i, mgV W i * (mgM A p i + pmeanMag W A p) * (mgM A q i + pmeanMag W A q)

section bounds
variable {N : ℕ} {W : Fin N → ℝ} {A : Matrix (Fin n) (Fin N) ℝ} {Q : Matrix (Fin n) (Fin n) ℝ}

omit [Machine] in
theorem mgV_le {v : Fin n → ℝ} {c : ℝ} (h : ∀ i, |v i| ≤ c) (hc : 1e-50 ≤ c) (i : Fin n) : mgV v i ≤ c := max_le (h i) hc
omit [Machine] in
theorem mgM_le {M : Matrix (Fin n) (Fin m) ℝ} {c : ℝ} (h : ∀ i j, |M i j| ≤ c) (hc : 1e-50 ≤ c) (i : Fin n) (j : Fin m) : mgM M i j ≤ c :=
  max_le (h i j) hc

omit [Machine] in
theorem pmeanMag_nonneg (k : Fin n) : 0 ≤ pmeanMag W A k :=
  Finset.sum_nonneg fun i _ => mul_nonneg (le_trans (by norm_num) (mgV_floor W i)) (le_trans (by norm_num) (mgM_floor A k i))

omit [Machine] in
theorem pmeanMag_le (hN : (N : ℝ) ≤ 3e9) (hW : ∀ i, |W i| ≤ 1e15) (hA : ∀ i j, |A i j| ≤ 1e20) (k : Fin n) : pmeanMag W A k ≤ 1e45 := by
  have : ∀ i ∈ Finset.univ, mgV W i * mgM A k i ≤ 1e35 := fun i _ =>
    (mul_le_mul (mgV_le hW (by norm_num) i) (mgM_le hA (by norm_num) k i) (le_trans (by norm_num) (mgM_floor A k i)) (by norm_num)).trans (by norm_num)
  refine (Finset.sum_le_card_nsmul _ _ _ this).trans ?_
  rw [Finset.card_univ, Fintype.card_fin, nsmul_eq_mul]
  exact (mul_le_mul_of_nonneg_right hN (by norm_num)).trans (by norm_num)

omit [Machine] in
theorem pspreadMag_le (hN : (N : ℝ) ≤ 3e9) (hW : ∀ i, |W i| ≤ 1e15) (hA : ∀ i j, |A i j| ≤ 1e20) (hQ : ∀ i j, |Q i j| ≤ 1e40) (p q : Fin n) :
    pspreadMag W A Q p q ≤ 1e120 := by
  have cA : ∀ k i, mgM A k i + pmeanMag W A k ≤ 1e46 := fun k i =>
    (add_le_add (mgM_le hA (by norm_num) k i) (pmeanMag_le hN hW hA k)).trans (by norm_num)
  have pA : ∀ k i, 0 ≤ mgM A k i + pmeanMag W A k := fun k i =>
    add_nonneg (le_trans (by norm_num) (mgM_floor A k i)) (pmeanMag_nonneg k)
  have : ∀ i ∈ Finset.univ, mgV W i * (mgM A p i + pmeanMag W A p) * (mgM A q i + pmeanMag W A q) ≤ 1e107 := fun i _ => by
    have h1 := mul_le_mul (mgV_le hW (by norm_num) i) (cA p i) (pA p i) (by norm_num)
    exact (mul_le_mul h1 (cA q i) (pA q i) (by norm_num)).trans (by norm_num)
  have h2 := Finset.sum_le_card_nsmul _ _ _ this
  rw [Finset.card_univ, Fintype.card_fin, nsmul_eq_mul] at h2
  have h3 : (N : ℝ) * 1e107 ≤ 3e9 * 1e107 := mul_le_mul_of_nonneg_right hN (by norm_num)
  have h4 := mgM_le hQ (by norm_num) p q
  refine (add_le_add h4 (h2.trans h3)).trans (by norm_num)

/-- the sigma point sums on doubles -/
theorem sums_rl (h : Rounds53 r) (hN : (N : ℝ) ≤ 3e9) (hW : ∀ i, |W i| ≤ 1e15) (hA : ∀ i j, |A i j| ≤ 1e20) (hQ : ∀ i j, |Q i j| ≤ 1e40) :
    VRl (meanC (dV W) (dM A) : Fin n → Dbl r) (pmean W A) (1 + N) (pmeanMag W A) ∧
    MRl (scatterC (dV W) (dM A) (meanC (dV W) (dM A)) (dM A) (meanC (dV W) (dM A)) (dM Q) : Matrix (Fin n) (Fin n) (Dbl r)) (pspread W A Q)
      (3 * N + 6) (pspreadMag W A Q) := by
  have hN' : N ≤ 3 * 10 ^ 9 := by
    have : (N : ℝ) ≤ ((3 * 10 ^ 9 : ℕ) : ℝ) := hN.trans (by norm_num)
    exact_mod_cast this
  have hm : VRl (meanC (dV W) (dM A) : Fin n → Dbl r) (pmean W A) (1 + N) (pmeanMag W A) := fun k =>
    meanC_rl h (dV_rl W) (dM_rl A) (mgV_floor W) (mgM_floor A) k ((pmeanMag_le hN hW hA k).trans (by norm_num)) (by omega)
  refine ⟨hm, fun p q => ?_⟩
  have cA : ∀ k i, mgM A k i + pmeanMag W A k ≤ 1e60 := fun k i =>
    (add_le_add (mgM_le hA (by norm_num) k i) (pmeanMag_le hN hW hA k)).trans (by norm_num)
  have := scatterC_rl h (dV_rl W) (dM_rl A) (dM_rl A) hm hm (dM_rl Q) (mgV_floor W) (mgM_floor A) (mgM_floor A)
    (fun i => (mgV_le hW (by norm_num) i).trans (by norm_num)) p q (cA p) (cA q) ((pspreadMag_le hN hW hA hQ p q).trans (by norm_num)) (by omega)
  exact this.mono (by omega)
end bounds

omit [Machine] in
/-- the bound of `Rl` in plain numbers -/
theorem plain_rl {X : Dbl r} {y M : ℝ} {k : ℕ} (a : Rl X y k M) (hk : k ≤ 10 ^ 15) : ∃ x, X = .fin x ∧ |x - y| ≤ k / 2 ^ 51 * M := by
  obtain ⟨x, e, b⟩ := a.near
  exact ⟨x, e, b.trans (mul_le_mul_of_nonneg_right (by linarith [gr_le hk]) a.M_nonneg)⟩

omit [Machine] in
theorem plain_v {X : Fin n → Dbl r} {y M : Fin n → ℝ} {k : ℕ} (a : VRl X y k M) (hk : k ≤ 10 ^ 15) :
    ∃ x : Fin n → ℝ, X = dV x ∧ ∀ i, |x i - y i| ≤ k / 2 ^ 51 * M i := by
  choose x e b using fun i => plain_rl (a i) hk
  exact ⟨x, funext e, b⟩

omit [Machine] in
theorem plain_m {X : Matrix (Fin n) (Fin m) (Dbl r)} {Y M : Matrix (Fin n) (Fin m) ℝ} {k : ℕ} (a : MRl X Y k M) (hk : k ≤ 10 ^ 15) :
    ∃ x : Matrix (Fin n) (Fin m) ℝ, X = dM x ∧ ∀ i j, |x i j - Y i j| ≤ k / 2 ^ 51 * M i j := by
  choose x e b using fun i j => plain_rl (a i j) hk
  exact ⟨of x, by ext i j; exact e i j, b⟩

/-- C144. The unscented prediction on doubles, in every rounding mode: the call succeeds with finite numbers, and mean and covariance are off by at most
one part in 2⁵¹ per rounding on the longest path, relative to the magnitudes involved. -/
theorem C144_predict (h : Rounds53 r) (hn : n ≤ 10 ^ 9) (W : Fin (2 * n + 1) → ℝ) (Y : Matrix (Fin n) (Fin (2 * n + 1)) ℝ) (Q : Matrix (Fin n) (Fin n) ℝ)
    (hW : ∀ i, |W i| ≤ 1e15) (hY : ∀ i j, |Y i j| ≤ 1e20) (hQ : ∀ i j, |Q i j| ≤ 1e40) (xo : Fin n → Dbl r) (Po : Matrix (Fin n) (Fin n) (Dbl r)) :
    ∃ (x : Fin n → ℝ) (P : Matrix (Fin n) (Fin n) ℝ),
      filterUkfPredict ⟨2 * n + 1, dV W⟩ ⟨n, 2 * n + 1, dM Y⟩ ⟨n, n, dM Q⟩ ⟨n, xo⟩ ⟨n, n, Po⟩ = .ok (true, ⟨n, dV x⟩, ⟨n, n, dM P⟩) ∧
      (∀ k, |x k - pmean W Y k| ≤ (2 * n + 2) / 2 ^ 51 * pmeanMag W Y k) ∧
      ∀ p q, |P p q - pspread W Y Q p q| ≤ (6 * n + 9) / 2 ^ 51 * pspreadMag W Y Q p q := by
  have hN : ((2 * n + 1 : ℕ) : ℝ) ≤ 3e9 := by
    have : ((2 * n + 1 : ℕ) : ℝ) ≤ ((2 * 10 ^ 9 + 1 : ℕ) : ℝ) := by exact_mod_cast (by omega)
    exact this.trans (by norm_num)
  obtain ⟨a, b⟩ := sums_rl h hN hW hY hQ
  obtain ⟨x, ex, hx⟩ := plain_v a (by omega)
  obtain ⟨P, eP, hP⟩ := plain_m b (by omega)
  refine ⟨x, P, by rw [ukfPredict_fit, eP, ex], fun k => ?_, fun p q => ?_⟩
  · refine (hx k).trans (le_of_eq ?_); push_cast; ring
  · refine (hP p q).trans (le_of_eq ?_); push_cast; ring

/-- the recorded gain is the one computed in doubles: the scatter of states against measurements times the inverse of the innovation covariance -/
def UkfGainIs (L : LinSolver (Dbl r)) (x : Fin n → ℝ) (Y : Matrix (Fin n) (Fin (2 * n + 1)) ℝ) (W : Fin (2 * n + 1) → ℝ)
    (Z : Matrix (Fin m) (Fin (2 * n + 1)) ℝ) (R : Matrix (Fin m) (Fin m) ℝ) (K : Matrix (Fin n) (Fin m) ℝ) : Prop :=
  mmul (scatterC (dV W) (dM Y) (dV x) (dM Z) (meanC (dV W) (dM Z)) mzero)
    (L.inv (scatterC (dV W) (dM Z) (meanC (dV W) (dM Z)) (dM Z) (meanC (dV W) (dM Z)) (dM R))) = (dM K : Matrix (Fin n) (Fin m) (Dbl r))

/-- C144. The unscented update on doubles with whatever finite gain `K` was computed: the call succeeds with finite numbers, and state and covariance are
those of exact arithmetic with this gain up to one part in 2⁵¹ per rounding on the longest path, relative to the magnitudes involved. -/
theorem C144_update (h : Rounds53 r) (hn : n ≤ 10 ^ 9) (hm : m ≤ 10 ^ 9) (L : LinSolver (Dbl r)) (x : Fin n → ℝ) (P : Matrix (Fin n) (Fin n) ℝ)
    (Y : Matrix (Fin n) (Fin (2 * n + 1)) ℝ) (W : Fin (2 * n + 1) → ℝ) (Z : Matrix (Fin m) (Fin (2 * n + 1)) ℝ) (z : Fin m → ℝ)
    (R : Matrix (Fin m) (Fin m) ℝ) (K : Matrix (Fin n) (Fin m) ℝ) (hg : UkfGainIs (r := r) L x Y W Z R K)
    (hx : ∀ i, |x i| ≤ 1e40) (hP : ∀ i j, |P i j| ≤ 1e40) (hW : ∀ i, |W i| ≤ 1e15) (hZ : ∀ i j, |Z i j| ≤ 1e20) (hz : ∀ i, |z i| ≤ 1e20)
    (hR : ∀ i j, |R i j| ≤ 1e40) (hK : ∀ i j, |K i j| ≤ 1e20) (xo : Fin n → Dbl r) (Po : Matrix (Fin n) (Fin n) (Dbl r)) :
    ∃ (x' : Fin n → ℝ) (P' : Matrix (Fin n) (Fin n) ℝ),
      filterUkfUpdate L ⟨n, dV x⟩ ⟨n, n, dM P⟩ ⟨n, 2 * n + 1, dM Y⟩ ⟨2 * n + 1, dV W⟩ ⟨m, 2 * n + 1, dM Z⟩ ⟨m, dV z⟩ ⟨m, m, dM R⟩ ⟨n, xo⟩ ⟨n, n, Po⟩
        = .ok (true, ⟨n, dV x'⟩, ⟨n, n, dM P'⟩) ∧
      (∀ k, |x' k - (x + K *ᵥ (z - pmean W Z)) k| ≤ (2 * n + m + 5) / 2 ^ 51 * (mgV x + mgM K *ᵥ (mgV z + pmeanMag W Z)) k) ∧
      ∀ p q, |P' p q - (P - K * pspread W Z R * Kᵀ) p q|
        ≤ (6 * n + 2 * m + 12) / 2 ^ 51 * (mgM P + mgM K * pspreadMag W Z R * (mgM K)ᵀ) p q := by
  have hN : ((2 * n + 1 : ℕ) : ℝ) ≤ 3e9 := by
    have : ((2 * n + 1 : ℕ) : ℝ) ≤ ((2 * 10 ^ 9 + 1 : ℕ) : ℝ) := by exact_mod_cast (by omega)
    exact this.trans (by norm_num)
  have hM : (m : ℝ) ≤ 1e9 := by
    have : (m : ℝ) ≤ ((10 ^ 9 : ℕ) : ℝ) := by exact_mod_cast hm
    exact this.trans (by norm_num)
  have z50 : (0 : ℝ) ≤ 1e-50 := by norm_num
  obtain ⟨a, b⟩ := sums_rl h hN hW hZ hR
  have fS : ∀ i j, 1e-50 ≤ pspreadMag W Z R i j := fun i j => by
    have : 0 ≤ ∑ l, mgV W l * (mgM Z i l + pmeanMag W Z i) * (mgM Z j l + pmeanMag W Z j) := Finset.sum_nonneg fun l _ =>
      mul_nonneg (mul_nonneg (z50.trans (mgV_floor W l)) (add_nonneg (z50.trans (mgM_floor Z i l)) (pmeanMag_nonneg i)))
        (add_nonneg (z50.trans (mgM_floor Z j l)) (pmeanMag_nonneg j))
    show 1e-50 ≤ mgM R i j + _
    linarith [mgM_floor R i j]
  have cS := pspreadMag_le hN hW hZ hR
  have sumle : ∀ (f : Fin m → ℝ) (c : ℝ), 0 ≤ c → (∀ l, f l ≤ c) → ∑ l, f l ≤ 1e9 * c := fun f c c0 hf => by
    have := Finset.sum_le_card_nsmul Finset.univ f c fun l _ => hf l
    rw [Finset.card_univ, Fintype.card_fin, nsmul_eq_mul] at this
    exact this.trans (mul_le_mul_of_nonneg_right hM c0)
  have cK := mgM_le hK (by norm_num)
  have pK : ∀ i j, 0 ≤ mgM K i j := fun i j => z50.trans (mgM_floor K i j)
  have fnu : ∀ i, 1e-50 ≤ (mgV z + pmeanMag W Z) i := fun i => by rw [Pi.add_apply]; linarith [mgV_floor z i, pmeanMag_nonneg (W := W) (A := Z) i]
  have cnu : ∀ i, (mgV z + pmeanMag W Z) i ≤ 1e46 := fun i =>
    (add_le_add (mgV_le hz (by norm_num) i) (pmeanMag_le hN hW hZ i)).trans (by norm_num)
  have cKnu : ∀ i, (mgM K *ᵥ (mgV z + pmeanMag W Z)) i ≤ 1e80 := fun i => by
    refine (sumle _ (1e20 * 1e46) (by norm_num) fun l => ?_).trans (by norm_num)
    exact mul_le_mul (cK i l) (cnu l) (z50.trans (fnu l)) (by norm_num)
  have pKnu : ∀ i, 0 ≤ (mgM K *ᵥ (mgV z + pmeanMag W Z)) i := fun i => mulVec_nonneg' pK (fun l => z50.trans (fnu l)) i
  have cKS : ∀ i j, (mgM K * pspreadMag W Z R) i j ≤ 1e150 := fun i j => by
    rw [Matrix.mul_apply]
    refine (sumle _ (1e20 * 1e120) (by norm_num) fun l => ?_).trans (by norm_num)
    exact mul_le_mul (cK i l) (cS l j) (z50.trans (fS l j)) (by norm_num)
  have pKS : ∀ i j, 0 ≤ (mgM K * pspreadMag W Z R) i j := fun i j => by
    rw [Matrix.mul_apply]; exact Finset.sum_nonneg fun l _ => mul_nonneg (pK i l) (z50.trans (fS l j))
  have fKS : ∀ i j, 1e-100 ≤ (mgM K * pspreadMag W Z R) i j := fun i j =>
    (floor_mul (mgM_floor K i j) (fS j j) z50 z50 (by norm_num)).trans (term_le pK (fun i j => z50.trans (fS i j)) i j j)
  have cKSK : ∀ i j, (mgM K * pspreadMag W Z R * (mgM K)ᵀ) i j ≤ 1e180 := fun i j => by
    rw [Matrix.mul_apply]
    refine (sumle _ (1e150 * 1e20) (by norm_num) fun l => ?_).trans (by norm_num)
    exact mul_le_mul (cKS i l) (cK j l) (pK j l) (by norm_num)
  have pKSK : ∀ i j, 0 ≤ (mgM K * pspreadMag W Z R * (mgM K)ᵀ) i j := fun i j => by
    rw [Matrix.mul_apply]; exact Finset.sum_nonneg fun l _ => mul_nonneg (pKS i l) (pK j l)
  have a1 := ((dV_rl (r := r) z).mono (Nat.zero_le _)).vsub h a (fun i => le_trans (by norm_num) (fnu i)) (fun i => (cnu i).trans (by norm_num)) (by omega)
  have a2 := (dM_rl (r := r) K).mvec h a1 (fun i l => floor_mul (mgM_floor K i l) (fnu l) z50 z50 (by norm_num)) (fun i => (cKnu i).trans (by norm_num)) (by omega)
  have a3 := ((dV_rl (r := r) x).mono (Nat.zero_le _)).vadd h a2 (fun i => ?_) (fun i => ?_) (by omega)
  rotate_left
  · rw [Pi.add_apply]
    have : (1e-250 : ℝ) ≤ 1e-50 := by norm_num
    linarith [mgV_floor x i, pKnu i]
  · exact (add_le_add (mgV_le hx (by norm_num) i) (cKnu i)).trans (by norm_num)
  have b1 := (dM_rl (r := r) K).mmul h b (fun i l j => floor_mul (mgM_floor K i l) (fS l j) z50 z50 (by norm_num)) (fun i j => (cKS i j).trans (by norm_num))
    (by omega)
  have b2 := b1.mmul h (dM_rl (r := r) K).tr (fun i l j => floor_mul (fKS i l) (mgM_floor K j l) (by norm_num) z50 (by norm_num))
    (fun i j => (cKSK i j).trans (by norm_num)) (by omega)
  have b3 := ((dM_rl (r := r) P).mono (Nat.zero_le _)).msub h b2 (fun i j => ?_) (fun i j => ?_) (by omega)
  rotate_left
  · rw [Matrix.add_apply]
    have : (1e-250 : ℝ) ≤ 1e-50 := by norm_num
    linarith [mgM_floor P i j, pKSK i j]
  · exact (add_le_add (mgM_le hP (by norm_num) i j) (cKSK i j)).trans (by norm_num)
  obtain ⟨x', ex, hx'⟩ := plain_v a3 (by omega)
  obtain ⟨P', eP, hP'⟩ := plain_m b3 (by omega)
  refine ⟨x', P', ?_, fun k => ?_, fun p q => ?_⟩
  · rw [ukfUpdate_fit, hg, eP, ex]
  · refine (hx' k).trans (le_of_eq ?_); push_cast; ring
  · refine (hP' p q).trans (le_of_eq ?_); push_cast; ring

/-- C144. With nonnegative weights no predicted variance falls below that of the process noise, in every rounding mode. -/
theorem C144_variance_floor (h : Rounds53 r) (hi : ∀ x, r (r x) = r x) (hn : n ≤ 10 ^ 9) (W : Fin (2 * n + 1) → ℝ)
    (Y : Matrix (Fin n) (Fin (2 * n + 1)) ℝ) (Q : Matrix (Fin n) (Fin n) ℝ) (hW0 : ∀ i, 0 ≤ W i) (hQd : ∀ i, r (Q i i) = Q i i)
    (hW : ∀ i, |W i| ≤ 1e15) (hY : ∀ i j, |Y i j| ≤ 1e20) (hQ : ∀ i j, |Q i j| ≤ 1e40) (xo : Fin n → Dbl r) (Po : Matrix (Fin n) (Fin n) (Dbl r)) :
    ∃ (x : Fin n → ℝ) (P : Matrix (Fin n) (Fin n) ℝ),
      filterUkfPredict ⟨2 * n + 1, dV W⟩ ⟨n, 2 * n + 1, dM Y⟩ ⟨n, n, dM Q⟩ ⟨n, xo⟩ ⟨n, n, Po⟩ = .ok (true, ⟨n, dV x⟩, ⟨n, n, dM P⟩) ∧
      ∀ i, Q i i ≤ P i i := by
  obtain ⟨x, P, e, -, -⟩ := C144_predict h hn W Y Q hW hY hQ xo Po
  refine ⟨x, P, e, fun k => ?_⟩
  have hN : ((2 * n + 1 : ℕ) : ℝ) ≤ 3e9 := by
    have : ((2 * n + 1 : ℕ) : ℝ) ≤ ((2 * 10 ^ 9 + 1 : ℕ) : ℝ) := by exact_mod_cast (by omega)
    exact this.trans (by norm_num)
  rw [ukfPredict_fit] at e
  obtain ⟨a, -⟩ := sums_rl (r := r) h hN hW hY hQ
  have z50 : (0 : ℝ) ≤ 1e-50 := by norm_num
  have cA : ∀ i, mgM Y k i + pmeanMag W Y k ≤ 1e46 := fun i =>
    (add_le_add (mgM_le hY (by norm_num) k i) (pmeanMag_le hN hW hY k)).trans (by norm_num)
  have fA : ∀ i, 1e-50 ≤ mgM Y k i + pmeanMag W Y k := fun i => by linarith [mgM_floor Y k i, pmeanMag_nonneg (W := W) (A := Y) k]
  have cW := mgV_le hW (by norm_num)
  have d1 : ∀ i, Rl (dM Y k i - meanC (dV W) (dM Y) k : Dbl r) (Y k i - pmean W Y k) (2 * n + 3) (mgM Y k i + pmeanMag W Y k) := fun i =>
    (((dM_rl Y k i).mono (Nat.zero_le _)).sub h (a k) (le_trans (by norm_num) (fA i)) ((cA i).trans (by norm_num)) (by omega)).mono (by omega)
  have c1 : ∀ i, mgV W i * (mgM Y k i + pmeanMag W Y k) ≤ 1e61 := fun i =>
    (mul_le_mul (cW i) (cA i) (z50.trans (fA i)) (by norm_num)).trans (by norm_num)
  have f1 : ∀ i, 1e-100 ≤ mgV W i * (mgM Y k i + pmeanMag W Y k) := fun i => floor_mul (mgV_floor W i) (fA i) z50 z50 (by norm_num)
  have d2 : ∀ i, Rl (dV W i * (dM Y k i - meanC (dV W) (dM Y) k) : Dbl r) (W i * (Y k i - pmean W Y k)) (2 * n + 4)
      (mgV W i * (mgM Y k i + pmeanMag W Y k)) := fun i =>
    ((dV_rl W i).mul h (d1 i) (le_trans (by norm_num) (f1 i)) ((c1 i).trans (by norm_num)) (by omega)).mono (by omega)
  have f2 : ∀ i, 1e-250 ≤ mgV W i * (mgM Y k i + pmeanMag W Y k) * (mgM Y k i + pmeanMag W Y k) := fun i =>
    floor_mul (f1 i) (fA i) (by norm_num) z50 (by norm_num)
  have d3 : ∀ i, Rl (dV W i * (dM Y k i - meanC (dV W) (dM Y) k) * (dM Y k i - meanC (dV W) (dM Y) k) : Dbl r)
      (W i * (Y k i - pmean W Y k) * (Y k i - pmean W Y k)) (4 * n + 8)
      (mgV W i * (mgM Y k i + pmeanMag W Y k) * (mgM Y k i + pmeanMag W Y k)) := fun i =>
    ((d2 i).mul h (d1 i) (f2 i) ((mul_le_mul (c1 i) (cA i) (z50.trans (fA i)) (by norm_num)).trans (by norm_num)) (by omega)).mono (by omega)
  have inj : ∀ {v w : ℝ}, Dbl.rd r (.fin v) = .fin w → w = r v := fun {v w} e1 => by
    rw [Dbl.rd] at e1
    split_ifs at e1
    · injection e1 with e1; injection e1 with e1; exact e1.symm
    · injection e1 with e1; cases e1
    · injection e1 with e1; cases e1
  have pos : ∀ i t, dV W i * (dM Y k i - meanC (dV W) (dM Y) k) * (dM Y k i - meanC (dV W) (dM Y) k) = (.fin t : Dbl r) → 0 ≤ t := fun i t et => by
    obtain ⟨d, ed, -⟩ := (d1 i).near
    obtain ⟨s, es, -⟩ := (d2 i).near
    rw [es, ed] at et
    rw [ed] at es
    have e1 := inj es
    have e2 := inj et
    rw [e2]
    apply h.nonneg
    rcases le_total 0 d with hd | hd
    · exact mul_nonneg (by rw [e1]; exact h.nonneg (mul_nonneg (hW0 i) hd)) hd
    · exact mul_nonneg_of_nonpos_of_nonpos (by rw [e1]; exact (h.mono (mul_nonpos_of_nonneg_of_nonpos (hW0 i) hd)).trans_eq h.zero) hd
  have es : ∀ f : Fin (2 * n + 1) → ℝ, ((List.finRange (2 * n + 1)).map f).sum = ∑ i, f i := fun f => by rw [Fin.sum_univ_def]
  obtain ⟨w, ew, hw⟩ := foldl_ge h hi (List.finRange (2 * n + 1)) d3 f2 pos (le_refl _) ((dM_rl Q k k).mono (Nat.zero_le _))
    (by rw [es]; exact (pspreadMag_le hN hW hY hQ k k).trans (by norm_num)) (by rw [List.length_finRange]; omega) rfl (hQd k) le_rfl
  rw [← scatterC_apply] at ew
  have e3 : (true, (⟨n, meanC (dV W) (dM Y)⟩ : DVec (Dbl r)), (⟨n, n, scatterC (dV W) (dM Y) (meanC (dV W) (dM Y)) (dM Y) (meanC (dV W) (dM Y)) (dM Q)⟩ : DMat (Dbl r)))
      = (true, ⟨n, dV x⟩, ⟨n, n, dM P⟩) := Except.ok.inj e
  simp only [Prod.mk.injEq, true_and, DMat.mk.injEq, heq_eq_eq] at e3
  rw [e3.2] at ew
  have : P k k = w := by
    have e4 : (.fin (P k k) : Dbl r) = .fin w := ew
    injection e4 with e4; injection e4
  rw [this]; exact hw

/-! ## C145: what is left of symmetry and nonnegativity -/

omit [Machine] in
/-- matrices that differ by little have quadratic forms that differ by little -/
theorem quad_near {A B M : Matrix (Fin n) (Fin n) ℝ} {c : ℝ} (b : ∀ i j, |A i j - B i j| ≤ c * M i j) (v : Fin n → ℝ) :
    |v ⬝ᵥ (A *ᵥ v) - v ⬝ᵥ (B *ᵥ v)| ≤ c * ∑ i, ∑ j, |v i| * M i j * |v j| := by
  have e1 : v ⬝ᵥ (A *ᵥ v) - v ⬝ᵥ (B *ᵥ v) = ∑ i, ∑ j, v i * ((A i j - B i j) * v j) := by
    simp only [dotProduct, Matrix.mulVec, Finset.mul_sum, ← Finset.sum_sub_distrib]
    refine Finset.sum_congr rfl fun i _ => Finset.sum_congr rfl fun j _ => ?_
    ring
  rw [e1]
  refine (Finset.abs_sum_le_sum_abs _ _).trans ?_
  rw [Finset.mul_sum]
  refine Finset.sum_le_sum fun i _ => (Finset.abs_sum_le_sum_abs _ _).trans ?_
  rw [Finset.mul_sum]
  refine Finset.sum_le_sum fun j _ => ?_
  rw [abs_mul, abs_mul]
  have := mul_le_mul_of_nonneg_left (mul_le_mul_of_nonneg_right (b i j) (abs_nonneg (v j))) (abs_nonneg (v i))
  linarith

omit [Machine] in
theorem sym_near {A B M : Matrix (Fin n) (Fin n) ℝ} {c : ℝ} (b : ∀ i j, |A i j - B i j| ≤ c * M i j) (hB : ∀ i j, B i j = B j i) (i j : Fin n) :
    |A i j - A j i| ≤ c * (M i j + M j i) := by
  have h1 := b i j
  have h2 := b j i
  rw [← hB i j, abs_sub_comm] at h2
  have h3 := abs_add_le (A i j - B i j) (B i j - A j i)
  rw [sub_add_sub_cancel] at h3
  rw [mul_add]
  exact h3.trans (add_le_add h1 h2)

omit [Machine] in
theorem pspread_symm {N : ℕ} (W : Fin N → ℝ) (A : Matrix (Fin n) (Fin N) ℝ) {Q : Matrix (Fin n) (Fin n) ℝ} (hQ : Q.IsSymm) (p q : Fin n) :
    pspread W A Q p q = pspread W A Q q p := by
  show Q p q + _ = Q q p + _
  have : Q p q = Q q p := congrFun (congrFun hQ q) p
  rw [this]
  congr 1
  exact Finset.sum_congr rfl fun i _ => by ring

omit [Machine] in
theorem pspread_quad {N : ℕ} (W : Fin N → ℝ) (A : Matrix (Fin n) (Fin N) ℝ) (Q : Matrix (Fin n) (Fin n) ℝ) (v : Fin n → ℝ) :
    v ⬝ᵥ (pspread W A Q *ᵥ v) = v ⬝ᵥ (Q *ᵥ v) + ∑ i, W i * (∑ p, v p * (A p i - pmean W A p)) ^ 2 := by
  have e : ∑ i, W i * (∑ p, v p * (A p i - pmean W A p)) ^ 2
      = ∑ p, ∑ q, v p * ((∑ i, W i * (A p i - pmean W A p) * (A q i - pmean W A q)) * v q) := by
    simp only [sq, Finset.mul_sum, Finset.sum_mul]
    rw [Finset.sum_comm]
    refine Finset.sum_congr rfl fun p _ => ?_
    rw [Finset.sum_comm]
    exact Finset.sum_congr rfl fun q _ => Finset.sum_congr rfl fun i _ => by ring
  rw [e]
  simp only [dotProduct, Matrix.mulVec, Finset.mul_sum, ← Finset.sum_add_distrib, pspread, of_apply]
  refine Finset.sum_congr rfl fun p _ => Finset.sum_congr rfl fun q _ => ?_
  ring

omit [Machine] in
theorem pspread_nonneg {N : ℕ} {W : Fin N → ℝ} (hW : ∀ i, 0 ≤ W i) (A : Matrix (Fin n) (Fin N) ℝ) {Q : Matrix (Fin n) (Fin n) ℝ} (hQ : IsCov Q)
    (v : Fin n → ℝ) : 0 ≤ v ⬝ᵥ (pspread W A Q *ᵥ v) := by
  rw [pspread_quad]
  exact add_nonneg (hQ.2 v) (Finset.sum_nonneg fun i _ => mul_nonneg (hW i) (sq_nonneg _))

/-- C145, what does hold of the prediction. (Full claim: with nonnegative weights and a sound process noise the predicted covariance is symmetric and
nonnegative.) On doubles it is so up to rounding: the two entries of each pair differ by at most the sum of their rounding bounds, and no direction has a
variance below minus the rounding bound. Missing: exact symmetry, see the refutation below. -/
theorem C145_predict_partial (h : Rounds53 r) (hn : n ≤ 10 ^ 9) (W : Fin (2 * n + 1) → ℝ) (Y : Matrix (Fin n) (Fin (2 * n + 1)) ℝ)
    (Q : Matrix (Fin n) (Fin n) ℝ) (hW0 : ∀ i, 0 ≤ W i) (hQc : IsCov Q) (hW : ∀ i, |W i| ≤ 1e15) (hY : ∀ i j, |Y i j| ≤ 1e20)
    (hQ : ∀ i j, |Q i j| ≤ 1e40) (xo : Fin n → Dbl r) (Po : Matrix (Fin n) (Fin n) (Dbl r)) :
    ∃ (x : Fin n → ℝ) (P : Matrix (Fin n) (Fin n) ℝ),
      filterUkfPredict ⟨2 * n + 1, dV W⟩ ⟨n, 2 * n + 1, dM Y⟩ ⟨n, n, dM Q⟩ ⟨n, xo⟩ ⟨n, n, Po⟩ = .ok (true, ⟨n, dV x⟩, ⟨n, n, dM P⟩) ∧
      (∀ p q, |P p q - P q p| ≤ (6 * n + 9) / 2 ^ 51 * (pspreadMag W Y Q p q + pspreadMag W Y Q q p)) ∧
      ∀ v : Fin n → ℝ, -((6 * n + 9) / 2 ^ 51 * ∑ p, ∑ q, |v p| * pspreadMag W Y Q p q * |v q|) ≤ v ⬝ᵥ (P *ᵥ v) := by
  obtain ⟨x, P, e, -, b⟩ := C144_predict h hn W Y Q hW hY hQ xo Po
  refine ⟨x, P, e, sym_near b (pspread_symm W Y hQc.1), fun v => ?_⟩
  have h1 := (abs_le.1 (quad_near b v)).1
  have h2 := pspread_nonneg hW0 Y hQc v
  linarith

/-- C145, what does hold of the update. (Full claim: the updated covariance is symmetric and lies between zero and the one before.) With whatever finite
gain was computed, on doubles it is symmetric up to rounding, and no direction's variance grows by more than the rounding bound. Missing: exact symmetry,
and nonnegativity, see the refutation below. -/
theorem C145_update_partial (h : Rounds53 r) (hn : n ≤ 10 ^ 9) (hm : m ≤ 10 ^ 9) (L : LinSolver (Dbl r)) (x : Fin n → ℝ) (P : Matrix (Fin n) (Fin n) ℝ)
    (Y : Matrix (Fin n) (Fin (2 * n + 1)) ℝ) (W : Fin (2 * n + 1) → ℝ) (Z : Matrix (Fin m) (Fin (2 * n + 1)) ℝ) (z : Fin m → ℝ)
    (R : Matrix (Fin m) (Fin m) ℝ) (K : Matrix (Fin n) (Fin m) ℝ) (hg : UkfGainIs (r := r) L x Y W Z R K) (hPs : P.IsSymm) (hRc : IsCov R)
    (hW0 : ∀ i, 0 ≤ W i) (hx : ∀ i, |x i| ≤ 1e40) (hP : ∀ i j, |P i j| ≤ 1e40) (hW : ∀ i, |W i| ≤ 1e15) (hZ : ∀ i j, |Z i j| ≤ 1e20)
    (hz : ∀ i, |z i| ≤ 1e20) (hR : ∀ i j, |R i j| ≤ 1e40) (hK : ∀ i j, |K i j| ≤ 1e20) (xo : Fin n → Dbl r) (Po : Matrix (Fin n) (Fin n) (Dbl r)) :
    ∃ (x' : Fin n → ℝ) (P' : Matrix (Fin n) (Fin n) ℝ),
      filterUkfUpdate L ⟨n, dV x⟩ ⟨n, n, dM P⟩ ⟨n, 2 * n + 1, dM Y⟩ ⟨2 * n + 1, dV W⟩ ⟨m, 2 * n + 1, dM Z⟩ ⟨m, dV z⟩ ⟨m, m, dM R⟩ ⟨n, xo⟩ ⟨n, n, Po⟩
        = .ok (true, ⟨n, dV x'⟩, ⟨n, n, dM P'⟩) ∧
      (let M := mgM P + mgM K * pspreadMag W Z R * (mgM K)ᵀ
       (∀ p q, |P' p q - P' q p| ≤ (6 * n + 2 * m + 12) / 2 ^ 51 * (M p q + M q p)) ∧
        ∀ v : Fin n → ℝ, v ⬝ᵥ (P' *ᵥ v) ≤ v ⬝ᵥ (P *ᵥ v) + (6 * n + 2 * m + 12) / 2 ^ 51 * ∑ p, ∑ q, |v p| * M p q * |v q|) := by
  obtain ⟨x', P', e, -, b⟩ := C144_update h hn hm L x P Y W Z z R K hg hx hP hW hZ hz hR hK xo Po
  have sS : (pspread W Z R)ᵀ = pspread W Z R := by ext i j; exact pspread_symm W Z hRc.1 j i
  have sE : (P - K * pspread W Z R * Kᵀ)ᵀ = P - K * pspread W Z R * Kᵀ := by
    rw [Matrix.transpose_sub, hPs, Matrix.transpose_mul, Matrix.transpose_mul, Matrix.transpose_transpose, sS, Matrix.mul_assoc]
  refine ⟨x', P', e, sym_near b fun i j => (congrFun (congrFun sE j) i).symm ▸ rfl, fun v => ?_⟩
  have h1 := (abs_le.1 (quad_near b v)).2
  have h2 := pspread_nonneg hW0 Z hRc (Kᵀ *ᵥ v)
  have h3 : v ⬝ᵥ ((P - K * pspread W Z R * Kᵀ) *ᵥ v) = v ⬝ᵥ (P *ᵥ v) - (Kᵀ *ᵥ v) ⬝ᵥ (pspread W Z R *ᵥ (Kᵀ *ᵥ v)) := by
    rw [Matrix.sub_mulVec, dotProduct_sub]
    congr 1
    rw [← Matrix.mulVec_mulVec, ← Matrix.mulVec_mulVec, Matrix.dotProduct_mulVec, ← Matrix.mulVec_transpose]
  rw [h3] at h1
  linarith

section witness
omit [Machine] in
theorem subE {a b c : ℝ} (h : ieeeEven (a - b) = c) (hc : |c| ≤ 1e200) : (.fin a : E) - .fin b = .fin c := by
  show Dbl.rd ieeeEven (XR.fin a - XR.fin b) = _
  rw [XR.fin_sub, Dbl.rd_fin (by rw [h]; exact hc.trans_lt Dbl.big), h]

/-- C145 (refutation of symmetry). Two states, nonnegative weights that sum to one, sigma points `0, ±(5, 7), ±(1, 0)`, no process noise: in double
precision (rounding to nearest) the two off-diagonal entries of the predicted covariance differ, because `(W 5) 7` and `(W 7) 5` round differently. -/
theorem C145_symmetry_fails (xo : Fin 2 → E) (Po : Matrix (Fin 2) (Fin 2) E) :
    ∃ (W : Fin 5 → ℝ) (Y : Matrix (Fin 2) (Fin 5) ℝ) (x : Fin 2 → E) (P : Matrix (Fin 2) (Fin 2) E) (a b : ℝ),
      (∀ i, 0 ≤ W i) ∧ ∑ i, W i = 1 ∧ (∀ i, ieeeEven (W i) = W i) ∧
      filterUkfPredict ⟨5, dV W⟩ ⟨2, 5, dM Y⟩ ⟨2, 2, dM 0⟩ ⟨2, xo⟩ ⟨2, 2, Po⟩ = .ok (true, ⟨2, x⟩, ⟨2, 2, P⟩) ∧
      P 0 1 = .fin a ∧ P 1 0 = .fin b ∧ a ≠ b := by
  obtain ⟨w, hw⟩ : ∃ w : ℝ, w = 4503599627370501 / 2 ^ 55 := ⟨_, rfl⟩
  obtain ⟨f, hf⟩ : ∃ f : ℝ, f = 5629499534213126 / 2 ^ 53 := ⟨_, rfl⟩
  obtain ⟨g, hg⟩ : ∃ g : ℝ, g = 7881299347898377 / 2 ^ 53 := ⟨_, rfl⟩
  obtain ⟨s, hs⟩ : ∃ s : ℝ, s = 4925812092436485 / 2 ^ 50 := ⟨_, rfl⟩
  obtain ⟨t, ht⟩ : ∃ t : ℝ, t = 4925812092436486 / 2 ^ 50 := ⟨_, rfl⟩
  have kw : ieeeEven w = w := keepE 4503599627370501 (-55) _ (by rw [hw]; norm_num) (by norm_num) (by norm_num)
  have kw0 : ieeeEven (1 - 4 * w) = 1 - 4 * w := keepE 4503599627370491 (-53) _ (by rw [hw]; norm_num) (by norm_num) (by norm_num)
  refine ⟨![1 - 4 * w, w, w, w, w], !![0, 5, -5, 1, -1; 0, 7, -7, 0, 0], _, _, 2 * s, 2 * t, ?_, ?_, ?_, ukfPredict_fit (n := 2) _ _ _ _ _, ?_, ?_, ?_⟩
  · intro i; fin_cases i <;> simp <;> rw [hw] <;> norm_num
  · simp [Fin.sum_univ_succ]; ring
  · intro i; fin_cases i <;> simp [kw, kw0]
  all_goals
    have k0 : ieeeEven 0 = 0 := ieeeEven_rounds.zero
  rotate_left 2
  · rw [hs, ht]; norm_num
  all_goals
    have n0 : |(0 : ℝ)| ≤ 1e200 := by norm_num
    have z1 : ∀ a : ℝ, (.fin 0 : E) * .fin a = .fin 0 := fun a => mulE (by rw [zero_mul, k0]) n0
    have z2 : ∀ a : ℝ, (.fin a : E) * .fin 0 = .fin 0 := fun a => mulE (by rw [mul_zero, k0]) n0
    have i1 : ∀ a : ℝ, ieeeEven a = a → |a| ≤ 1e200 → (.fin 0 : E) + .fin a = .fin a := fun a h h' => addE (by rw [zero_add, h]) h'
    have i2 : ∀ a : ℝ, ieeeEven a = a → |a| ≤ 1e200 → (.fin a : E) + .fin 0 = .fin a := fun a h h' => addE (by rw [add_zero, h]) h'
    have i3 : ∀ a : ℝ, ieeeEven a = a → |a| ≤ 1e200 → (.fin a : E) - .fin 0 = .fin a := fun a h h' => subE (by rw [sub_zero, h]) h'
    have c0 : ∀ a : ℝ, (.fin a : E) + .fin (-a) = .fin 0 := fun a => addE (by rw [add_neg_cancel, k0]) n0
    have kn : ∀ a : ℝ, ieeeEven a = a → ieeeEven (-a) = -a := fun a h => by rw [ieeeEven_neg, h]
    have k1 : ieeeEven 1 = 1 := ieeeEven_rounds.one
    have k5 : ieeeEven 5 = 5 := keepE 5 0 _ (by norm_num) (by norm_num) (by norm_num)
    have k7 : ieeeEven 7 = 7 := keepE 7 0 _ (by norm_num) (by norm_num) (by norm_num)
    have kf : ieeeEven f = f := keepE 5629499534213126 (-53) _ (by rw [hf]; norm_num) (by norm_num) (by norm_num)
    have kg : ieeeEven g = g := keepE 7881299347898377 (-53) _ (by rw [hg]; norm_num) (by norm_num) (by norm_num)
    have ks : ieeeEven s = s := keepE 4925812092436485 (-50) _ (by rw [hs]; norm_num) (by norm_num) (by norm_num)
    have ks2 : ieeeEven (2 * s) = 2 * s := keepE 4925812092436485 (-49) _ (by rw [hs]; norm_num) (by norm_num) (by norm_num)
    have kt : ieeeEven t = t := keepE 4925812092436486 (-50) _ (by rw [ht]; norm_num) (by norm_num) (by norm_num)
    have kt2 : ieeeEven (2 * t) = 2 * t := keepE 4925812092436486 (-49) _ (by rw [ht]; norm_num) (by norm_num) (by norm_num)
    have r5 : ieeeEven (w * 5) = f := by
      rw [even_eq 5629499534213126 (-53) (by norm_num), hf]
      · norm_num
      · rw [hw]; norm_num
      · rw [hw]; norm_num
      · rw [hw, abs_lt]; norm_num
    have r7 : ieeeEven (w * 7) = g := by
      rw [even_eq 7881299347898377 (-53) (by norm_num), hg]
      · norm_num
      · rw [hw]; norm_num
      · rw [hw]; norm_num
      · rw [hw, abs_lt]; norm_num
    have rs : ieeeEven (f * 7) = s := by
      rw [even_eq 4925812092436485 (-50) (by norm_num), hs]
      · norm_num
      · rw [hf]; norm_num
      · rw [hf]; norm_num
      · rw [hf, abs_lt]; norm_num
    have rt : ieeeEven (g * 5) = t := by
      rw [even_eq 4925812092436486 (-50) (by norm_num), ht]
      · norm_num
      · rw [hg]; norm_num
      · rw [hg]; norm_num
      · rw [hg, abs_lt]; norm_num
    have nw : |w| ≤ 1e200 := by rw [hw, abs_of_pos] <;> norm_num
    have nf : |f| ≤ 1e200 := by rw [hf, abs_of_pos] <;> norm_num
    have ng : |g| ≤ 1e200 := by rw [hg, abs_of_pos] <;> norm_num
    have ns : |s| ≤ 1e200 := by rw [hs, abs_of_pos] <;> norm_num
    have ns2 : |2 * s| ≤ 1e200 := by rw [hs, abs_of_pos] <;> norm_num
    have nt : |t| ≤ 1e200 := by rw [ht, abs_of_pos] <;> norm_num
    have nt2 : |2 * t| ≤ 1e200 := by rw [ht, abs_of_pos] <;> norm_num
    have n1 : |(1 : ℝ)| ≤ 1e200 := by norm_num
    have n5 : |(5 : ℝ)| ≤ 1e200 := by norm_num
    have n7 : |(7 : ℝ)| ≤ 1e200 := by norm_num
    have q5 : (.fin w : E) * .fin 5 = .fin f := mulE r5 nf
    have q5' : (.fin w : E) * .fin (-5) = .fin (-f) := mulE (by rw [mul_neg, ieeeEven_neg, r5]) (by rw [abs_neg]; exact nf)
    have q7 : (.fin w : E) * .fin 7 = .fin g := mulE r7 ng
    have q7' : (.fin w : E) * .fin (-7) = .fin (-g) := mulE (by rw [mul_neg, ieeeEven_neg, r7]) (by rw [abs_neg]; exact ng)
    have q1 : (.fin w : E) * .fin 1 = .fin w := mulE (by rw [mul_one, kw]) nw
    have q1' : (.fin w : E) * .fin (-1) = .fin (-w) := mulE (by rw [mul_neg, mul_one, kn _ kw]) (by rw [abs_neg]; exact nw)
    have p1 : (.fin f : E) * .fin 7 = .fin s := mulE rs ns
    have p1' : (.fin (-f) : E) * .fin (-7) = .fin s := mulE (by rw [neg_mul_neg, rs]) ns
    have p2 : (.fin g : E) * .fin 5 = .fin t := mulE rt nt
    have p2' : (.fin (-g) : E) * .fin (-5) = .fin t := mulE (by rw [neg_mul_neg, rt]) nt
    have d1 : (.fin s : E) + .fin s = .fin (2 * s) := addE (by rw [← two_mul, ks2]) ns2
    have d2 : (.fin t : E) + .fin t = .fin (2 * t) := addE (by rw [← two_mul, kt2]) nt2
    have fr : List.finRange 5 = [0, 1, 2, 3, 4] := rfl
    have m0 : meanC (dV ![1 - 4 * w, w, w, w, w]) (dM !![0, 5, -5, 1, -1; 0, 7, -7, 0, 0]) 0 = (.fin 0 : E) := by
      rw [meanC_apply, fr]
      simp [dV, dM, litE, z2, q5, q5', q1, q1', c0, i1 _ k0 n0, i1 _ kf nf, i1 _ kw nw]
    have m1 : meanC (dV ![1 - 4 * w, w, w, w, w]) (dM !![0, 5, -5, 1, -1; 0, 7, -7, 0, 0]) 1 = (.fin 0 : E) := by
      rw [meanC_apply, fr]
      simp [dV, dM, litE, z2, q7, q7', c0, i1 _ k0 n0, i1 _ kg ng]
    rw [scatterC_apply]
    erw [fr]
    rw [m0, m1]
    have l5 := i3 _ (kn _ k5) (by rw [abs_neg]; exact n5)
    have l7 := i3 _ (kn _ k7) (by rw [abs_neg]; exact n7)
    have l1 := i3 _ (kn _ k1) (by rw [abs_neg]; exact n1)
    simp [dV, dM, z1, z2, q5, q5', q7, q7', q1, q1', p1, p1', p2, p2', d1, d2, i1 _ k0 n0, i3 _ k0 n0, i3 _ k5 n5, i3 _ k7 n7, i3 _ k1 n1,
      l1, l5, l7, i1 _ ks ns, i1 _ kt nt, i2 _ ks2 ns2, i2 _ kt2 nt2]

/-- C145 (refutation of nonnegativity). One state with mean 0 and variance 2, the three-point rule with weights `0, 1/2, 1/2` and sigma points `0, ±√2`
rounded to double, the state itself measured with a tiny positive noise: in double precision (rounding to nearest, Eigen's inverse) the updated variance is
negative. -/
theorem C145_nonnegative_fails (z xo : Fin 1 → E) (Po : Matrix (Fin 1) (Fin 1) E) :
    ∃ (R : ℝ) (x' : Fin 1 → E) (P' : Matrix (Fin 1) (Fin 1) ℝ), 0 < R ∧
      (let Y : Matrix (Fin 1) (Fin 3) ℝ := !![0, ieeeEven √2, -ieeeEven √2]
       filterUkfUpdate LinSolver.eigen ⟨1, dV ![0]⟩ ⟨1, 1, dM !![2]⟩ ⟨1, 3, dM Y⟩ ⟨3, dV ![0, 1 / 2, 1 / 2]⟩ ⟨1, 3, dM Y⟩ ⟨1, z⟩ ⟨1, 1, dM !![R]⟩ ⟨1, xo⟩
          ⟨1, 1, Po⟩ = .ok (true, ⟨1, x'⟩, ⟨1, 1, dM P'⟩)) ∧ P' 0 0 < 0 := by
  obtain ⟨a, ha⟩ : ∃ a : ℝ, a = 6369051672525773 / 2 ^ 52 := ⟨_, rfl⟩
  obtain ⟨u, hu⟩ : ∃ u : ℝ, u = 1 / 2 ^ 52 := ⟨_, rfl⟩
  have k0 : ieeeEven 0 = 0 := ieeeEven_rounds.zero
  have k1 : ieeeEven 1 = 1 := ieeeEven_rounds.one
  have ea : ieeeEven √2 = a := by
    have s1 : (6369051672525772.55 : ℝ) / 2 ^ 52 < √2 := Real.lt_sqrt_of_sq_lt (by norm_num)
    have s2 : √2 < (6369051672525773.4 : ℝ) / 2 ^ 52 := (Real.sqrt_lt' (by norm_num)).2 (by norm_num)
    rw [even_eq 6369051672525773 (-52) (by norm_num), ha]
    · norm_num
    · refine le_trans (by norm_num) s1.le
    · refine s2.trans (by norm_num)
    · rw [abs_lt]; norm_num at s1 s2 ⊢; constructor <;> linarith
  rw [ea]
  have n0 : |(0 : ℝ)| ≤ 1e200 := by norm_num
  have n1 : |(1 : ℝ)| ≤ 1e200 := by norm_num
  have na : |a| ≤ 1e200 := by rw [ha, abs_of_pos] <;> norm_num
  have nh : |a / 2| ≤ 1e200 := by rw [ha, abs_of_pos] <;> norm_num
  have nu : |1 + u| ≤ 1e200 := by rw [hu, abs_of_pos] <;> norm_num
  have nu2 : |2 + 2 * u| ≤ 1e200 := by rw [hu, abs_of_pos] <;> norm_num
  have z1 : ∀ a : ℝ, (.fin 0 : E) * .fin a = .fin 0 := fun a => mulE (by rw [zero_mul, k0]) n0
  have z2 : ∀ a : ℝ, (.fin a : E) * .fin 0 = .fin 0 := fun a => mulE (by rw [mul_zero, k0]) n0
  have i1 : ∀ a : ℝ, ieeeEven a = a → |a| ≤ 1e200 → (.fin 0 : E) + .fin a = .fin a := fun a h h' => addE (by rw [zero_add, h]) h'
  have i2 : ∀ a : ℝ, ieeeEven a = a → |a| ≤ 1e200 → (.fin a : E) + .fin 0 = .fin a := fun a h h' => addE (by rw [add_zero, h]) h'
  have i3 : ∀ a : ℝ, ieeeEven a = a → |a| ≤ 1e200 → (.fin a : E) - .fin 0 = .fin a := fun a h h' => subE (by rw [sub_zero, h]) h'
  have c0 : ∀ a : ℝ, (.fin a : E) + .fin (-a) = .fin 0 := fun a => addE (by rw [add_neg_cancel, k0]) n0
  have ka : ieeeEven a = a := keepE 6369051672525773 (-52) _ (by rw [ha]; norm_num) (by norm_num) (by norm_num)
  have kh : ieeeEven (a / 2) = a / 2 := keepE 6369051672525773 (-53) _ (by rw [ha]; norm_num) (by norm_num) (by norm_num)
  have ku : ieeeEven (1 + u) = 1 + u := keepE 4503599627370497 (-52) _ (by rw [hu]; norm_num) (by norm_num) (by norm_num)
  have ku2 : ieeeEven (2 + 2 * u) = 2 + 2 * u := keepE 4503599627370497 (-51) _ (by rw [hu]; norm_num) (by norm_num) (by norm_num)
  have q1 : (.fin (1 / 2) : E) * .fin a = .fin (a / 2) := mulE (by rw [one_div_mul_eq_div, kh]) nh
  have q2 : (.fin (1 / 2) : E) * .fin (-a) = .fin (-(a / 2)) := mulE (by rw [mul_neg, one_div_mul_eq_div, ieeeEven_neg, kh]) (by rw [abs_neg]; exact nh)
  have rp : ieeeEven (a / 2 * a) = 1 + u := by
    rw [even_eq 4503599627370497 (-52) (by norm_num), hu]
    · norm_num
    · rw [ha]; norm_num
    · rw [ha]; norm_num
    · rw [ha, abs_lt]; norm_num
  have p1 : (.fin (a / 2) : E) * .fin a = .fin (1 + u) := mulE rp nu
  have p2 : (.fin (-(a / 2)) : E) * .fin (-a) = .fin (1 + u) := mulE (by rw [neg_mul_neg, rp]) nu
  have d1 : (.fin (1 + u) : E) + .fin (1 + u) = .fin (2 + 2 * u) := addE (by rw [show 1 + u + (1 + u) = 2 + 2 * u by ring, ku2]) nu2
  have e1 : (.fin (1 / 2 ^ 70) : E) + .fin 0 = .fin (1 / 2 ^ 70) :=
    i2 _ (keepE 1 (-70) _ (by norm_num) (by norm_num) (by norm_num)) (by rw [abs_of_pos] <;> norm_num)
  have e2 : (.fin (1 / 2 ^ 70) : E) + .fin (1 + u) = .fin (1 + u) := by
    refine addE ?_ nu
    rw [even_eq 4503599627370497 (-52) (by norm_num), hu]
    · norm_num
    · rw [hu]; norm_num
    · rw [hu]; norm_num
    · rw [hu, abs_lt]; norm_num
  have l0 : (Flt.lit 1 : E) = .fin 1 := by
    show Dbl.rd ieeeEven (.fin ((1 : ℚ) : ℝ)) = _
    rw [Rat.cast_one, Dbl.rd_fin (by rw [k1]; exact n1.trans_lt Dbl.big), k1]
  have l1 : (.fin 1 : E) / .fin (2 + 2 * u) = .fin (1 / 2 - u / 2) := by
    have hne : 2 + 2 * u ≠ 0 := by rw [hu]; norm_num
    have hr : ieeeEven (1 / (2 + 2 * u)) = 1 / 2 - u / 2 := by
      rw [even_eq 9007199254740990 (-54) (by norm_num), hu]
      · norm_num
      · rw [hu]; norm_num
      · rw [hu]; norm_num
      · rw [hu, abs_lt]; norm_num
    show Dbl.rd ieeeEven (XR.fin 1 / XR.fin (2 + 2 * u)) = _
    have hc : |1 / 2 - u / 2| ≤ 1e200 := by rw [hu, abs_of_pos] <;> norm_num
    rw [XR.fin_div _ _ hne, Dbl.rd_fin (by rw [hr]; exact hc.trans_lt Dbl.big), hr]
  have l2 : (.fin (2 + 2 * u) : E) * .fin (1 / 2 - u / 2) = .fin 1 := by
    refine mulE ?_ n1
    rw [even_eq 9007199254740992 (-53) (by norm_num)]
    · norm_num
    · rw [hu]; norm_num
    · rw [hu]; norm_num
    · rw [hu, abs_lt]; norm_num
  have l3 : (.fin 1 : E) * .fin (2 + 2 * u) = .fin (2 + 2 * u) := mulE (by rw [one_mul, ku2]) nu2
  have l4 : (.fin (2 + 2 * u) : E) * .fin 1 = .fin (2 + 2 * u) := mulE (by rw [mul_one, ku2]) nu2
  have l5 : (.fin 2 : E) - .fin (2 + 2 * u) = .fin (-(2 * u)) :=
    subE (by rw [show 2 - (2 + 2 * u) = -(2 * u) by ring, ieeeEven_neg, keepE 1 (-51) (2 * u) (by rw [hu]; norm_num) (by norm_num) (by norm_num)])
      (by rw [abs_neg, hu, abs_of_pos] <;> norm_num)
  have fr : List.finRange (2 * 1 + 1) = [0, 1, 2] := rfl
  have m0 : meanC (dV ![0, 1 / 2, 1 / 2]) (dM !![0, a, -a]) = (dV ![0] : Fin 1 → E) := by
    funext i
    rw [Fin.fin_one_eq_zero i, meanC_apply]
    erw [fr]
    simp only [List.foldl_cons, List.foldl_nil]
    simp [-one_div, dV, dM, litE, z1, q1, q2, c0, i1 _ k0 n0, i1 _ kh nh]
  have l6 := i3 (-a) (by rw [ieeeEven_neg, ka]) (by rw [abs_neg]; exact na)
  have hT : scatterC (dV ![0, 1 / 2, 1 / 2]) (dM !![0, a, -a]) (dV ![0]) (dM !![0, a, -a]) (dV ![0]) mzero = (dM !![2 + 2 * u] : Matrix (Fin 1) (Fin 1) E) := by
    ext i j
    rw [Fin.fin_one_eq_zero i, Fin.fin_one_eq_zero j, scatterC_apply]
    erw [fr]
    have hz : (mzero : Matrix (Fin 1) (Fin 1) E) 0 0 = .fin 0 := litE
    rw [hz]
    simp [-one_div, dV, dM, z1, q1, q2, p1, p2, d1, l6, i3 _ k0 n0, i3 _ ka na, i1 _ k0 n0, i1 _ ku nu]
  have hS : scatterC (dV ![0, 1 / 2, 1 / 2]) (dM !![0, a, -a]) (dV ![0]) (dM !![0, a, -a]) (dV ![0]) (dM !![1 / 2 ^ 70])
      = (dM !![2 + 2 * u] : Matrix (Fin 1) (Fin 1) E) := by
    ext i j
    rw [Fin.fin_one_eq_zero i, Fin.fin_one_eq_zero j, scatterC_apply]
    erw [fr]
    simp [-one_div, dV, dM, z1, q1, q2, p1, p2, d1, l6, i3 _ k0 n0, i3 _ ka na, e1, e2]
  have hI : (LinSolver.eigen : LinSolver E).inv (dM !![2 + 2 * u]) = dM !![1 / 2 - u / 2] := by
    show luInverse _ = _
    rw [luInverse_one ieeeEven_rounds, l0]
    ext i j
    rw [Fin.fin_one_eq_zero i, Fin.fin_one_eq_zero j]
    exact l1
  have mm : ∀ A B : Matrix (Fin 1) (Fin 1) E, mmul A B = of fun _ _ => A 0 0 * B 0 0 := fun A B => by
    ext i j; rw [Fin.fin_one_eq_zero i, Fin.fin_one_eq_zero j]; exact fsum_one fun l => A 0 l * B l 0
  have e3 : msub (dM !![2]) (mmul (mmul (mmul (scatterC (dV ![0, 1 / 2, 1 / 2]) (dM !![0, a, -a]) (dV ![0]) (dM !![0, a, -a])
        (meanC (dV ![0, 1 / 2, 1 / 2]) (dM !![0, a, -a])) mzero) ((LinSolver.eigen : LinSolver E).inv (scatterC (dV ![0, 1 / 2, 1 / 2]) (dM !![0, a, -a])
        (meanC (dV ![0, 1 / 2, 1 / 2]) (dM !![0, a, -a])) (dM !![0, a, -a]) (meanC (dV ![0, 1 / 2, 1 / 2]) (dM !![0, a, -a])) (dM !![1 / 2 ^ 70]))))
        (scatterC (dV ![0, 1 / 2, 1 / 2]) (dM !![0, a, -a]) (meanC (dV ![0, 1 / 2, 1 / 2]) (dM !![0, a, -a])) (dM !![0, a, -a])
          (meanC (dV ![0, 1 / 2, 1 / 2]) (dM !![0, a, -a])) (dM !![1 / 2 ^ 70])))
        (mtr (mmul (scatterC (dV ![0, 1 / 2, 1 / 2]) (dM !![0, a, -a]) (dV ![0]) (dM !![0, a, -a])
        (meanC (dV ![0, 1 / 2, 1 / 2]) (dM !![0, a, -a])) mzero) ((LinSolver.eigen : LinSolver E).inv (scatterC (dV ![0, 1 / 2, 1 / 2]) (dM !![0, a, -a])
        (meanC (dV ![0, 1 / 2, 1 / 2]) (dM !![0, a, -a])) (dM !![0, a, -a]) (meanC (dV ![0, 1 / 2, 1 / 2]) (dM !![0, a, -a])) (dM !![1 / 2 ^ 70]))))))
      = (dM !![-(2 * u)] : Matrix (Fin 1) (Fin 1) E) := by
    rw [m0, hT, hS, hI]
    ext i j
    rw [Fin.fin_one_eq_zero i, Fin.fin_one_eq_zero j]
    show dM !![2] 0 0 - mmul _ _ 0 0 = _
    simp [-one_div, mm, dM, mtr, l2, l3, l4, l5]
  have := (ukfUpdate_fit (LinSolver.eigen : LinSolver E) (dV ![0]) (dM !![2]) (dM !![0, a, -a]) (dV ![0, 1 / 2, 1 / 2]) (dM !![0, a, -a]) z
    (dM !![1 / 2 ^ 70]) xo Po).trans (congrArg (fun A => Except.ok (true, _, (⟨1, 1, A⟩ : DMat E))) e3)
  refine ⟨1 / 2 ^ 70, _, !![-(2 * u)], by norm_num, this, ?_⟩
  simp; rw [hu]; norm_num

/-- the hypotheses of `C144_predict`, `C144_variance_floor` and `C145_predict_partial` are met by two states with unequal weights and correlated noise -/
example (xo : Fin 2 → E) (Po : Matrix (Fin 2) (Fin 2) E) :
    ∃ (x : Fin 2 → ℝ) (P : Matrix (Fin 2) (Fin 2) ℝ),
      filterUkfPredict ⟨5, dV ![1 / 2, 1 / 8, 1 / 8, 1 / 8, 1 / 8]⟩ ⟨2, 5, dM !![0, 5, -5, 1, -1; 1, 7, -7, 0, 0]⟩ ⟨2, 2, dM !![2, 1; 1, 2]⟩ ⟨2, xo⟩ ⟨2, 2, Po⟩
        = .ok (true, ⟨2, dV x⟩, ⟨2, 2, dM P⟩) ∧ ∀ i, (!![2, 1; 1, 2] : Matrix (Fin 2) (Fin 2) ℝ) i i ≤ P i i := by
  refine C144_variance_floor (n := 2) ieeeEven_rounds (fun x => ?_) (by norm_num) ![1 / 2, 1 / 8, 1 / 8, 1 / 8, 1 / 8] _ _ ?_ ?_ ?_ ?_ ?_ xo Po
  · obtain ⟨m, e, hm, he, hx⟩ := ieee_isDouble roundEven_int x
    rw [← ieeeEven] at hx
    rw [hx]; exact ieeeEven_rounds.keeps m e hm he
  · intro i; fin_cases i <;> norm_num
  · intro i; fin_cases i <;> exact keepE 2 0 _ (by norm_num) (by norm_num) (by norm_num)
  · intro i; fin_cases i <;> simp [abs_of_pos] <;> norm_num
  · intro i j; fin_cases i <;> fin_cases j <;> simp <;> norm_num
  · intro i j; fin_cases i <;> fin_cases j <;> simp <;> norm_num

/-- the hypotheses of `C144_update` and `C145_update_partial` are met: one state with sigma points `0, ±2`, measured with noise 4, has the gain 1/2 -/
example : UkfGainIs (r := ieeeEven) (n := 1) (m := 1) LinSolver.eigen ![0] !![0, 2, -2] ![0, 1 / 2, 1 / 2] !![0, 2, -2] !![4] !![1 / 2] := by
  have k0 : ieeeEven 0 = 0 := ieeeEven_rounds.zero
  have kz : ∀ a : ℤ, |a| ≤ 100 → ieeeEven a = a := fun a h => keepE a 0 _ (by simp) (by omega) (by norm_num)
  have n0 : |(0 : ℝ)| ≤ 1e200 := by norm_num
  have z1 : ∀ a : ℝ, (.fin 0 : E) * .fin a = .fin 0 := fun a => mulE (by rw [zero_mul, k0]) n0
  have c : ∀ a b : ℝ, ∀ s : ℤ, a + b = s → |s| ≤ 100 → (.fin a : E) + .fin b = .fin s := fun a b s h h' => by
    refine addE (by rw [h, kz s h']) ?_
    have : |(s : ℝ)| ≤ 100 := by exact_mod_cast h'
    exact this.trans (by norm_num)
  have d : ∀ a b : ℝ, ∀ s : ℤ, a - b = s → |s| ≤ 100 → (.fin a : E) - .fin b = .fin s := fun a b s h h' => by
    refine subE (by rw [h, kz s h']) ?_
    have : |(s : ℝ)| ≤ 100 := by exact_mod_cast h'
    exact this.trans (by norm_num)
  have p : ∀ a b : ℝ, ∀ s : ℤ, a * b = s → |s| ≤ 100 → (.fin a : E) * .fin b = .fin s := fun a b s h h' => by
    refine mulE (by rw [h, kz s h']) ?_
    have : |(s : ℝ)| ≤ 100 := by exact_mod_cast h'
    exact this.trans (by norm_num)
  have fr : List.finRange (2 * 1 + 1) = [0, 1, 2] := rfl
  have q1 : (.fin (1 / 2) : E) * .fin 2 = .fin 1 := by simpa using p (1 / 2) 2 1 (by norm_num) (by norm_num)
  have q2 : (.fin (1 / 2) : E) * .fin (-2) = .fin (-1) := by simpa using p (1 / 2) (-2) (-1) (by norm_num) (by norm_num)
  have q3 : (.fin (-1) : E) * .fin (-2) = .fin 2 := by simpa using p (-1) (-2) 2 (by norm_num) (by norm_num)
  have q4 : (.fin 1 : E) * .fin 2 = .fin 2 := by simpa using p 1 2 2 (by norm_num) (by norm_num)
  have s0 : (.fin 0 : E) + .fin 0 = .fin 0 := by simpa using c 0 0 0 (by norm_num) (by norm_num)
  have s1 : (.fin 0 : E) + .fin 1 = .fin 1 := by simpa using c 0 1 1 (by norm_num) (by norm_num)
  have s2 : (.fin 1 : E) + .fin (-1) = .fin 0 := by simpa using c 1 (-1) 0 (by norm_num) (by norm_num)
  have s3 : (.fin 0 : E) + .fin 2 = .fin 2 := by simpa using c 0 2 2 (by norm_num) (by norm_num)
  have s4 : (.fin 2 : E) + .fin 2 = .fin 4 := by simpa using c 2 2 4 (by norm_num) (by norm_num)
  have s5 : (.fin 4 : E) + .fin 0 = .fin 4 := by simpa using c 4 0 4 (by norm_num) (by norm_num)
  have s6 : (.fin 4 : E) + .fin 2 = .fin 6 := by simpa using c 4 2 6 (by norm_num) (by norm_num)
  have s7 : (.fin 6 : E) + .fin 2 = .fin 8 := by simpa using c 6 2 8 (by norm_num) (by norm_num)
  have t0 : (.fin 0 : E) - .fin 0 = .fin 0 := by simpa using d 0 0 0 (by norm_num) (by norm_num)
  have t1 : (.fin 2 : E) - .fin 0 = .fin 2 := by simpa using d 2 0 2 (by norm_num) (by norm_num)
  have t2 : (.fin (-2) : E) - .fin 0 = .fin (-2) := by simpa using d (-2) 0 (-2) (by norm_num) (by norm_num)
  have hm : meanC (dV ![0, 1 / 2, 1 / 2]) (dM !![0, 2, -2]) = (dV ![0] : Fin 1 → E) := by
    funext i
    rw [Fin.fin_one_eq_zero i, meanC_apply]
    erw [fr]
    simp [-one_div, dV, dM, litE, z1, q1, q2, s0, s1, s2]
  have hT : scatterC (dV ![0, 1 / 2, 1 / 2]) (dM !![0, 2, -2]) (dV ![0]) (dM !![0, 2, -2]) (dV ![0]) mzero = (dM !![4] : Matrix (Fin 1) (Fin 1) E) := by
    ext i j
    rw [Fin.fin_one_eq_zero i, Fin.fin_one_eq_zero j, scatterC_apply]
    erw [fr]
    have hz : (mzero : Matrix (Fin 1) (Fin 1) E) 0 0 = .fin 0 := litE
    rw [hz]
    simp [-one_div, dV, dM, z1, q1, q2, q3, q4, t0, t1, t2, s0, s3, s4]
  have hS : scatterC (dV ![0, 1 / 2, 1 / 2]) (dM !![0, 2, -2]) (dV ![0]) (dM !![0, 2, -2]) (dV ![0]) (dM !![4]) = (dM !![8] : Matrix (Fin 1) (Fin 1) E) := by
    ext i j
    rw [Fin.fin_one_eq_zero i, Fin.fin_one_eq_zero j, scatterC_apply]
    erw [fr]
    simp [-one_div, dV, dM, z1, q1, q2, q3, q4, t0, t1, t2, s5, s6, s7]
  have l0 : (Flt.lit 1 : E) = .fin 1 := by
    show Dbl.rd ieeeEven (.fin ((1 : ℚ) : ℝ)) = _
    rw [Rat.cast_one, Dbl.rd_fin] <;> rw [ieeeEven_rounds.one]
    rw [abs_one]; exact one_lt_pow₀ (by norm_num) (by norm_num)
  have l1 : (.fin 1 : E) / .fin 8 = .fin (1 / 8) := by
    have hr : ieeeEven (1 / 8) = 1 / 8 := keepE 1 (-3) _ (by norm_num) (by norm_num) (by norm_num)
    have hc : |(1 / 8 : ℝ)| ≤ 1e200 := by rw [abs_of_pos] <;> norm_num
    show Dbl.rd ieeeEven (XR.fin 1 / XR.fin 8) = _
    rw [XR.fin_div _ _ (by norm_num), Dbl.rd_fin (by rw [hr]; exact hc.trans_lt Dbl.big), hr]
  have hI : (LinSolver.eigen : LinSolver E).inv (dM !![8]) = dM !![1 / 8] := by
    show luInverse _ = _
    rw [luInverse_one ieeeEven_rounds, l0]
    ext i j
    rw [Fin.fin_one_eq_zero i, Fin.fin_one_eq_zero j]
    exact l1
  have l2 : (.fin 4 : E) * .fin (1 / 8) = .fin (1 / 2) :=
    mulE (by rw [show (4 : ℝ) * (1 / 8) = 1 / 2 by norm_num]; exact keepE 1 (-1) _ (by norm_num) (by norm_num) (by norm_num))
      (by rw [abs_of_pos] <;> norm_num)
  show mmul (scatterC (dV ![0, 1 / 2, 1 / 2]) (dM !![0, 2, -2]) (dV ![0]) (dM !![0, 2, -2]) (meanC (dV ![0, 1 / 2, 1 / 2]) (dM !![0, 2, -2])) mzero)
    ((LinSolver.eigen : LinSolver E).inv (scatterC (dV ![0, 1 / 2, 1 / 2]) (dM !![0, 2, -2]) (meanC (dV ![0, 1 / 2, 1 / 2]) (dM !![0, 2, -2])) (dM !![0, 2, -2])
      (meanC (dV ![0, 1 / 2, 1 / 2]) (dM !![0, 2, -2])) (dM !![4]))) = _
  rw [hm, hT, hS, hI]
  ext i j
  rw [Fin.fin_one_eq_zero i, Fin.fin_one_eq_zero j]
  exact (fsum_one fun l => (dM !![4] : Matrix (Fin 1) (Fin 1) E) 0 l * (dM !![1 / 8] : Matrix (Fin 1) (Fin 1) E) l 0).trans l2
end witness

end NavFuse.Props
