import Verif.Props.Solvers
import Verif.Props.Init
import Verif.Props.NavUtils
import Verif.Props.LlaRange
import Verif.Props.Quaternion

/-! # Exactly when C26, C27, C29 and C112 hold

These claims are false for some inputs.  Here the sets of inputs for which they are true are determined exactly. -/

namespace NavFuse.Props
open Matrix Kalman Spec KA XR Gravity NavUtils Rotations Attitude Align

variable {n m : ℕ}

/-! ## C112: a singular innovation covariance always spoils the update -/

theorem eval_notfin {ι : Type} (f : ι → XR) (t : SumTree ι) (i : ι) (hi : i ∈ t.leaves) (h : ¬ (f i).Finite) : ¬ (t.eval f).Finite := by
  induction t with
  | leaf j => rw [SumTree.leaves, List.mem_singleton] at hi; rw [SumTree.eval, ← hi]; exact h
  | node s t hs ht =>
    rw [SumTree.leaves, List.mem_append] at hi
    rw [SumTree.eval]
    rcases hi with hi | hi
    · exact notfin_add (hs hi) _
    · exact nf_add_right (ht hi) _

theorem fsum_notfin {k : ℕ} (f : Fin k → XR) (i : Fin k) (h : ¬ (f i).Finite) : ¬ (fsum f).Finite := by
  cases k with
  | zero => exact i.elim0
  | succ k => exact eval_notfin f _ i (((Flt.order XR).perm k).mem_iff.2 (List.mem_finRange i)) h

theorem not_inj_schur {A : Matrix (Fin (n + 1)) (Fin (n + 1)) ℝ} (h : ¬ Inj A) (h0 : A 0 0 ≠ 0) : ¬ Inj (schur A) := by
  intro hs
  apply h
  intro x hx
  have e : x = Fin.cons (x 0) (Fin.tail x) := (Fin.cons_self_tail x).symm
  rw [e] at hx
  have h1 := fun i => (mulVec_cons A (x 0) (Fin.tail x) i).symm.trans (congrFun hx i)
  have ht : Fin.tail x = 0 := hs _ <| by
    funext i
    rw [schur_mulVec]
    have a := h1 0; have b := h1 i.succ
    simp only [Pi.zero_apply] at a b ⊢
    have : ∑ j, A 0 j.succ * Fin.tail x j = -(A 0 0 * x 0) := by linarith
    rw [this]
    field_simp
    linarith
  have hx0 : x 0 = 0 := by
    have a := h1 0
    rw [ht] at a
    simpa [h0] using a
  rw [e, ht, hx0]
  funext i
  refine Fin.cases rfl (fun _ => rfl) i

theorem not_inj_swap {A : Matrix (Fin (n + 1)) (Fin (n + 1)) ℝ} {p : Fin (n + 1)} (h : ¬ Inj A) : ¬ Inj (swapRows A p) := by
  intro hs
  apply h
  intro x hx
  apply hs
  rw [swapRows_mulVec, hx]
  rfl

/-- elimination of a singular matrix ends in a division by zero, whatever the right-hand side -/
theorem luSolve_singular {k : ℕ} (A : Matrix (Fin k) (Fin k) ℝ) (b : Fin k → XR) (h : ¬ Inj A) : ∃ i, ¬ (luSolve (finM A) b i).Finite := by
  induction k with
  | zero => exact absurd (fun x _ => Subsingleton.elim _ _) h
  | succ k ih =>
    by_cases h0 : A (Equiv.swap 0 (argmax fun i => |A i 0|) 0) 0 = 0
    · refine ⟨0, ?_⟩
      rw [luSolve]
      simp only [finM_apply, X_abs, argmax_X, of_apply, Fin.cons_zero, h0]
      exact div_zero_not_finite _
    · have hd : ∀ x, fin x / fin (A (Equiv.swap 0 (argmax fun i => |A i 0|) 0) 0) = fin (x / A (Equiv.swap 0 (argmax fun i => |A i 0|) 0) 0) :=
        fun x => fin_div _ _ h0
      have c' : Flt.eq (fin |A (Equiv.swap 0 (argmax fun i => |A i 0|) 0) 0|) (fin 0) = false := by
        rw [X_eq, Bool.eq_false_iff, ne_eq, R_eq, abs_eq_zero]; exact h0
      obtain ⟨i, hi⟩ := ih (schur (swapRows A (argmax fun i => |A i 0|))) (fun i => b (Equiv.swap 0 (argmax fun i => |A i 0|) i.succ)
        - fin (A (Equiv.swap 0 (argmax fun i => |A i 0|) i.succ) 0 / A (Equiv.swap 0 (argmax fun i => |A i 0|) 0) 0)
          * b (Equiv.swap 0 (argmax fun i => |A i 0|) 0)) (not_inj_schur (not_inj_swap h) h0)
      refine ⟨i.succ, ?_⟩
      rw [luSolve]
      simp only [finM_apply, X_abs, argmax_X, of_apply, X_lit, Rat.cast_zero, c', Bool.false_eq_true, if_false, hd, fin_mul, fin_sub, Fin.cons_succ]
      exact hi

theorem not_inj_of_singular {A : Matrix (Fin n) (Fin n) ℝ} (h : ¬ IsUnit A.det) : ¬ Inj A := by
  rw [isUnit_iff_ne_zero, not_not, ← exists_mulVec_eq_zero_iff] at h
  obtain ⟨v, hv, e⟩ := h
  exact fun hi => hv (hi v e)

/-- C112 for every singular innovation covariance: no entry of the estimate or of the covariance is a number, and the call reports success. -/
theorem C112_every_singular_fails (x : Fin n → ℝ) (P : Matrix (Fin n) (Fin n) ℝ) (z : Fin m → ℝ) (H : Matrix (Fin m) (Fin n) ℝ)
    (R : Matrix (Fin m) (Fin m) ℝ) (hS : ¬ IsUnit (H * P * Hᵀ + R).det) (xo : Fin n → XR) (Po : Matrix (Fin n) (Fin n) XR) :
    ∃ (y : Fin n → XR) (Y : Matrix (Fin n) (Fin n) XR),
      filterUpdate LinSolver.eigen ⟨n, finV x⟩ ⟨n, n, finM P⟩ ⟨m, finV z⟩ ⟨m, n, finM H⟩ ⟨m, m, finM R⟩ ⟨n, xo⟩ ⟨n, n, Po⟩ = .ok (true, ⟨n, y⟩, ⟨n, n, Y⟩)
      ∧ (∀ i, ¬ (y i).Finite) ∧ ∀ i j, ¬ (Y i j).Finite := by
  have m0 : 0 < m := by
    rcases Nat.eq_zero_or_pos m with rfl | h
    · exact absurd (by simp) hS
    · exact h
  have hi : ∀ j, ∃ i, ¬ (luInverse (finM (H * P * Hᵀ + R)) i j).Finite := fun j => luSolve_singular _ _ (not_inj_of_singular hS)
  have hK : ∀ i j, ¬ (gainC LinSolver.eigen (finM P) (finM H) (finM R) i j).Finite := fun i j => by
    obtain ⟨l, hl⟩ := hi j
    simp only [gainC, xsimp, LinSolver.eigen]
    exact fsum_notfin _ l (nf_mul_right hl _)
  have hKm : ∀ {k : ℕ} (A : Matrix (Fin m) (Fin k) XR) i j, ¬ (mmul (gainC LinSolver.eigen (finM P) (finM H) (finM R)) A i j).Finite := fun A i j =>
    fsum_notfin _ ⟨0, m0⟩ (nf_mul_left (hK _ _) _)
  refine ⟨_, _, update_fit .., fun i => ?_, fun i j => ?_⟩
  · exact nf_add_right (fsum_notfin _ ⟨0, m0⟩ (nf_mul_left (hK _ _) _)) _
  · exact nf_add_right (fsum_notfin _ ⟨0, m0⟩ (nf_mul_left (hKm _ _ _) _)) _

/-- C112, exactly: for finite data and at least one state, the update has finite results if and only if the innovation covariance is invertible. -/
theorem C112_characterised (hn : 0 < n) (x : Fin n → ℝ) (P : Matrix (Fin n) (Fin n) ℝ) (z : Fin m → ℝ) (H : Matrix (Fin m) (Fin n) ℝ)
    (R : Matrix (Fin m) (Fin m) ℝ) (xo : Fin n → XR) (Po : Matrix (Fin n) (Fin n) XR) :
    (∃ (y : Fin n → ℝ) (Y : Matrix (Fin n) (Fin n) ℝ), filterUpdate LinSolver.eigen ⟨n, finV x⟩ ⟨n, n, finM P⟩ ⟨m, finV z⟩ ⟨m, n, finM H⟩ ⟨m, m, finM R⟩
      ⟨n, xo⟩ ⟨n, n, Po⟩ = .ok (true, ⟨n, finV y⟩, ⟨n, n, finM Y⟩)) ↔ IsUnit (H * P * Hᵀ + R).det := by
  refine ⟨fun ⟨y, Y, e⟩ => ?_, fun h => ?_⟩
  · by_contra hS
    obtain ⟨y', Y', e', hy, -⟩ := C112_every_singular_fails x P z H R hS xo Po
    rw [e] at e'
    simp only [Except.ok.injEq, Prod.mk.injEq, DVec.mk.injEq, heq_eq_eq, true_and] at e'
    exact hy ⟨0, hn⟩ (by rw [← e'.1]; exact ⟨_, rfl⟩)
  · obtain ⟨K, -, e⟩ := C112_update_finite_partial x P z H R h xo Po
    exact ⟨_, _, e⟩

/-- two exact copies of one measurement of two uncertain states -/
example : ¬ IsUnit ((!![1, 0; 1, 0] : Matrix (Fin 2) (Fin 2) ℝ) * (1 : Matrix (Fin 2) (Fin 2) ℝ) * (!![1, 0; 1, 0] : Matrix (Fin 2) (Fin 2) ℝ)ᵀ + 0).det := by
  simp [Matrix.det_fin_two, vecMul, dotProduct, Fin.sum_univ_two]

/-! ## C29 -/

/-- C29 on every rotation matrix that is not regular: all four components are NaN and the call reports success. -/
theorem C29_irregular_fails (R : M3 ℝ) (h : IsRot R) (hr : ¬ Regular R) (q0 : Fin 4 → XR) :
    computeQuaternionFromDcm ⟨3, 3, finM R⟩ ⟨4, q0⟩ = .ok (true, ⟨4, fun _ => nan⟩) := by
  rw [Regular, not_or, not_not] at hr
  obtain ⟨hr, h3⟩ := hr
  have e0 : (0.25 : ℝ) * (1 + R 0 0 + R 1 1 + R 2 2) = prodM R 0 0 / 4 := by simp [prodM]; ring
  have e1 : (0.25 : ℝ) * (1 + R 0 0 - R 1 1 - R 2 2) = prodM R 1 1 / 4 := by simp [prodM]; ring
  have e2 : (0.25 : ℝ) * (1 - R 0 0 + R 1 1 - R 2 2) = prodM R 2 2 / 4 := by simp [prodM]; ring
  have e3 : (0.25 : ℝ) * (1 - R 0 0 - R 1 1 + R 2 2) = prodM R 3 3 / 4 := by simp [prodM]; ring
  have hl : ∀ x y : ℝ, x / 4 < y / 4 ↔ x < y := fun x y => by constructor <;> intro h <;> linarith
  have b : ∀ k : Fin 4, k ≠ 3 → ¬ ∀ i, i ≠ k → prodM R i i < prodM R k k := fun k hk hi => hr ⟨k, hk, hi⟩
  have b0 : ¬ (prodM R 1 1 < prodM R 0 0 ∧ prodM R 2 2 < prodM R 0 0 ∧ prodM R 3 3 < prodM R 0 0) := fun h => b 0 (by decide) fun i hi => by
    fin_cases i <;> first | exact absurd rfl hi | exact h.1 | exact h.2.1 | exact h.2.2
  have b1 : ¬ (prodM R 0 0 < prodM R 1 1 ∧ prodM R 2 2 < prodM R 1 1 ∧ prodM R 3 3 < prodM R 1 1) := fun h => b 1 (by decide) fun i hi => by
    fin_cases i <;> first | exact absurd rfl hi | exact h.1 | exact h.2.1 | exact h.2.2
  have b2 : ¬ (prodM R 0 0 < prodM R 2 2 ∧ prodM R 1 1 < prodM R 2 2 ∧ prodM R 3 3 < prodM R 2 2) := fun h => b 2 (by decide) fun i hi => by
    fin_cases i <;> first | exact absurd rfl hi | exact h.1 | exact h.2.1 | exact h.2.2
  have z : ∀ i, prodM R 3 i = 0 := fun i => by
    have := prodM_rank_one h 3 i i
    rw [h3, zero_mul] at this
    exact mul_self_eq_zero.1 this
  have z0 := z 0; have z1 := z 1; have z2 := z 2
  simp only [prodM] at z0 z1 z2
  simp at z0 z1 z2
  rw [quat_eval]
  suffices hq : quatG (finM R) = fun _ => nan by rw [hq]
  ext i
  simp only [quatG, xsimp, e0, e1, e2, e3, Bool.and_eq_true, rsimp, hl, and_assoc, b0, b1, b2, if_false]
  simp only [h3, zero_div, X_sqrt _ (le_refl 0), Real.sqrt_zero, xsimp, mul_zero]
  fin_cases i <;> simp [xsimp, z0, z1, z2, pos_div_zero]

/-- C29, exactly: a rotation matrix has a finite quaternion if and only if it is regular. -/
theorem C29_characterised (R : M3 ℝ) (h : IsRot R) (q0 : Fin 4 → XR) :
    (∃ q : Fin 4 → ℝ, computeQuaternionFromDcm ⟨3, 3, finM R⟩ ⟨4, q0⟩ = .ok (true, ⟨4, finV q⟩)) ↔ Regular R := by
  refine ⟨fun ⟨q, e⟩ => ?_, fun hr => ?_⟩
  · by_contra hr
    rw [C29_irregular_fails R h hr q0] at e
    simp only [Except.ok.injEq, Prod.mk.injEq, DVec.mk.injEq, heq_eq_eq, true_and] at e
    exact absurd (congrFun e 0) (by simp [finV])
  · obtain ⟨q, e, -⟩ := C29_round_trip_partial R h hr q0 (finM 0)
    exact ⟨q, e⟩

/-- the half turn about the diagonal of the first two axes is not regular either -/
example : IsRot (!![0, 1, 0; 1, 0, 0; 0, 0, -1] : M3 ℝ) ∧ ¬ Regular !![0, 1, 0; 1, 0, 0; 0, 0, -1] := by
  refine ⟨⟨?_, ?_⟩, ?_⟩
  · ext i j
    fin_cases i <;> fin_cases j <;> simp [Matrix.mul_apply, Fin.sum_univ_three]
  · simp [Matrix.det_fin_three]
  · rintro (⟨k, hk, h⟩ | h)
    · have e1 : prodM (!![0, 1, 0; 1, 0, 0; 0, 0, -1] : M3 ℝ) 1 1 = 2 := by simp [prodM]; norm_num
      have e2 : prodM (!![0, 1, 0; 1, 0, 0; 0, 0, -1] : M3 ℝ) 2 2 = 2 := by simp [prodM]; norm_num
      have e0 : prodM (!![0, 1, 0; 1, 0, 0; 0, 0, -1] : M3 ℝ) 0 0 = 0 := by simp [prodM]
      fin_cases k
      · have := h 1 (by decide); simp only [Fin.zero_eta, e0, e1] at this; linarith
      · have := h 2 (by decide); simp only [Fin.mk_one, e1, e2] at this; linarith
      · have := h 1 (by decide); simp only [Fin.reduceFinMk, e1, e2] at this; linarith
      · exact hk rfl
    · exact h (by simp [prodM])

/-! ## C26 and C27 -/

theorem latXR_nonneg_iff {p z : ℝ} (hp : 0 ≤ p) (hne : p ≠ 0 ∨ z ≠ 0) :
    0 ≤ latXR p z ↔ ecc2 * (p / semiMajor) ^ 2 ≤ Real.sqrt ((p / semiMajor) ^ 2 + (z / polarC) ^ 2) ^ 3 := by
  have hb := polarC_pos; have ha := semiMajor_pos; have he := ecc2_pos
  rw [latXR, cos_thR hne]
  have e : Real.sqrt ((polarC * p) ^ 2 + (semiMajor * z) ^ 2) = semiMajor * polarC * Real.sqrt ((p / semiMajor) ^ 2 + (z / polarC) ^ 2) := by
    rw [← Real.sqrt_sq (show 0 ≤ semiMajor * polarC by positivity), ← Real.sqrt_mul (by positivity)]
    congr 1
    field_simp
  have hD := Real.sqrt_pos.2 (D_pos hne)
  rw [e] at hD ⊢
  have hs : 0 < Real.sqrt ((p / semiMajor) ^ 2 + (z / polarC) ^ 2) := pos_of_mul_pos_right hD (by positivity)
  generalize Real.sqrt ((p / semiMajor) ^ 2 + (z / polarC) ^ 2) = s at *
  have e2 : ecc2 * semiMajor * (polarC * p / (semiMajor * polarC * s)) ^ 3 = p * (ecc2 * (p / semiMajor) ^ 2) / s ^ 3 := by
    field_simp
  rw [e2, sub_nonneg, div_le_iff₀ (by positivity)]
  rcases hp.eq_or_lt with h | h
  · rw [← h]; simp; positivity
  · exact mul_le_mul_iff_right₀ h

/-- C26, exactly: the latitude is in range if and only if the position is not the centre of the earth and lies outside a surface (of up to 43 km, on the
equatorial plane) around it. -/
theorem C26_characterised (r : V3 ℝ) :
    (∃ lat lon : ℝ, ∃ alt : XR, ecef2Lla (finV r) = (true, fin lat, fin lon, alt) ∧ |lat| ≤ Real.pi / 2)
      ↔ r ≠ 0 ∧ ecc2 * (axisDist r / semiMajor) ^ 2 ≤ Real.sqrt ((axisDist r / semiMajor) ^ 2 + (r 2 / polarC) ^ 2) ^ 3 := by
  have hl : (∃ lat lon : ℝ, ∃ alt : XR, ecef2Lla (finV r) = (true, fin lat, fin lon, alt) ∧ |lat| ≤ Real.pi / 2) ↔ 0 ≤ latXR (axisDist r) (r 2) := by
    rw [ecef2Lla_X]
    constructor
    · rintro ⟨lat, lon, alt, e, h⟩
      simp only [Prod.mk.injEq, XR.fin.injEq, true_and] at e
      rw [← e.1, latR, Complex.abs_arg_le_pi_div_two_iff] at h
      exact h
    · intro h
      refine ⟨_, _, _, rfl, ?_⟩
      rw [latR, Complex.abs_arg_le_pi_div_two_iff]
      exact h
  rw [hl]
  have hz : axisDist r = 0 ↔ r 0 = 0 ∧ r 1 = 0 := by
    rw [axisDist, Real.sqrt_eq_zero (by positivity)]
    constructor
    · intro h
      exact ⟨by nlinarith [sq_nonneg (r 0), sq_nonneg (r 1)], by nlinarith [sq_nonneg (r 0), sq_nonneg (r 1)]⟩
    · rintro ⟨h1, h2⟩; rw [h1, h2]; norm_num
  by_cases hr : r = 0
  · subst hr
    have h0 : axisDist 0 = 0 := hz.2 ⟨rfl, rfl⟩
    simp only [h0, ne_eq, not_true, false_and, iff_false, not_le, Pi.zero_apply, latXR, thR, mul_zero]
    have : (⟨0, 0⟩ : ℂ) = 0 := rfl
    rw [this, Complex.arg_zero, Real.cos_zero]
    have := mul_pos ecc2_pos semiMajor_pos
    linarith
  · rw [latXR_nonneg_iff (show 0 ≤ axisDist r from Real.sqrt_nonneg _)]
    · exact ⟨fun h => ⟨hr, h⟩, fun h => h.2⟩
    · by_contra hh
      push Not at hh
      obtain ⟨h0, h1⟩ := hz.1 hh.1
      exact hr (by ext i; fin_cases i; exacts [h0, h1, hh.2])

/-- C27 (mirror), exactly: it fails on the equatorial plane within `e² a` (43 km) of the centre and holds everywhere else. -/
theorem C27_characterised (r : V3 ℝ) :
    (∃ lat lon : ℝ, ∃ alt : XR, ecef2Lla (finV r) = (true, fin lat, fin lon, alt) ∧ ecef2Lla (finV (mirror r)) = (true, fin (-lat), fin lon, alt))
      ↔ r 2 ≠ 0 ∨ ecc2 * semiMajor ≤ axisDist r := by
  have hea := mul_pos ecc2_pos semiMajor_pos
  by_cases h2 : r 2 = 0
  · have hm : mirror r = r := by ext i; fin_cases i <;> simp [mirror, h2]
    have hlat : latR (axisDist r) (r 2) = 0 ↔ ecc2 * semiMajor ≤ axisDist r := by
      have ht : thR (axisDist r) 0 = 0 := by
        rw [thR, mul_zero]
        exact Complex.arg_ofReal_of_nonneg (mul_nonneg polarC_pos.le (Real.sqrt_nonneg _))
      rw [h2, latR, latXR, latYR, ht, Real.cos_zero, Real.sin_zero, Complex.arg_eq_zero_iff]
      simp
    rw [hm, ecef2Lla_X]
    constructor
    · rintro ⟨lat, lon, alt, e, e'⟩
      simp only [Prod.mk.injEq, XR.fin.injEq, true_and] at e e'
      exact Or.inr (hlat.1 (by have h := e.1.trans (show lat = 0 by linarith [e.1, e'.1]); exact h))
    · rintro (h | h)
      · exact absurd h2 h
      · have := hlat.2 h
        refine ⟨_, _, _, rfl, ?_⟩
        show (true, fin (latR (axisDist r) (r 2)), _, _) = (true, fin (-latR (axisDist r) (r 2)), _, _)
        rw [this, neg_zero]
  · exact ⟨fun _ => Or.inl h2, fun _ => C27_mirror_partial r (Or.inl h2)⟩

/-- both sets are met: 30 km from the axis on the equatorial plane, and 50 km -/
example : ¬ ((![3e4, 0, 0] : V3 ℝ) 2 ≠ 0 ∨ ecc2 * semiMajor ≤ axisDist ![3e4, 0, 0]) ∧ ((![5e4, 0, 0] : V3 ℝ) 2 ≠ 0 ∨ ecc2 * semiMajor ≤ axisDist ![5e4, 0, 0]) := by
  have h : ∀ x : ℝ, 0 ≤ x → axisDist ![x, 0, 0] = x := fun x hx => by simp [axisDist, Real.sqrt_sq hx]
  rw [h _ (by norm_num), h _ (by norm_num), ecc2_eq]
  have e : ∀ x : ℝ, (![x, 0, 0] : V3 ℝ) 2 = 0 := fun _ => rfl
  rw [e, e]
  norm_num [semiMajor, flattening]

end NavFuse.Props
