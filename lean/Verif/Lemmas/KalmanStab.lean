import Verif.Lemmas.Riccati
import Verif.Props.GainDbl
import Mathlib.Algebra.Order.Chebyshev

/-! How errors of the covariance propagate through a cycle of the Kalman filter in Joseph form, for covariances that are not quite symmetric. -/

set_option linter.unusedSectionVars false

namespace NavFuse.Props
open Matrix Kalman Spec KA

variable {n m : ℕ} {q b : ℝ}

/-- symmetric part -/
noncomputable def symP (A : Matrix (Fin n) (Fin n) ℝ) : Matrix (Fin n) (Fin n) ℝ := (1 / 2 : ℝ) • (A + Aᵀ)
/-- skew part -/
noncomputable def skw (A : Matrix (Fin n) (Fin n) ℝ) : Matrix (Fin n) (Fin n) ℝ := (1 / 2 : ℝ) • (A - Aᵀ)

theorem sym_add_skw (A : Matrix (Fin n) (Fin n) ℝ) : symP A + skw A = A := by
  ext i j; simp [symP, skw]; ring

theorem quad_tr (A : Matrix (Fin n) (Fin n) ℝ) (v : Fin n → ℝ) : quad Aᵀ v = quad A v := by
  rw [quad, quad, dot_mulVec', transpose_transpose, dotProduct_comm]

theorem quad_smul' (c : ℝ) (A : Matrix (Fin n) (Fin n) ℝ) (v : Fin n → ℝ) : quad (c • A) v = c * quad A v := by
  rw [quad, quad, smul_mulVec, dotProduct_smul, smul_eq_mul]

theorem quad_sym (A : Matrix (Fin n) (Fin n) ℝ) (v : Fin n → ℝ) : quad (symP A) v = quad A v := by
  rw [symP, quad_smul', quad_plus, quad_tr]; ring

theorem sym_isSymm (A : Matrix (Fin n) (Fin n) ℝ) : (symP A).IsSymm := by
  rw [IsSymm, symP, transpose_smul, transpose_add, transpose_transpose, add_comm]

theorem sym_isCov {A : Matrix (Fin n) (Fin n) ℝ} (h : ∀ v, 0 ≤ quad A v) : IsCov (symP A) :=
  ⟨sym_isSymm A, fun v => by have := h v; rwa [← quad_sym] at this⟩

theorem vv_nonneg (v : Fin n → ℝ) : 0 ≤ v ⬝ᵥ v := Finset.sum_nonneg fun _ _ => mul_self_nonneg _

theorem sum_abs_le (w : Fin n → ℝ) : ∑ i, |w i| ≤ Real.sqrt n * Real.sqrt (w ⬝ᵥ w) := by
  rw [← Real.sqrt_mul (by positivity)]
  refine Real.le_sqrt_of_sq_le ?_
  have := sq_sum_le_card_mul_sum_sq (s := Finset.univ) (f := fun i => |w i|)
  simpa [dotProduct, ← _root_.sq] using this

/-- a bilinear form with small entries -/
theorem bil_small {E : Matrix (Fin n) (Fin n) ℝ} {e : ℝ} (hE : ∀ i j, |E i j| ≤ e) (u v : Fin n → ℝ) :
    |u ⬝ᵥ (E *ᵥ v)| ≤ n * e * (Real.sqrt (u ⬝ᵥ u) * Real.sqrt (v ⬝ᵥ v)) := by
  have s := sum_abs_le (n := n)
  have h1 : |u ⬝ᵥ (E *ᵥ v)| ≤ e * ((∑ i, |u i|) * ∑ j, |v j|) := by
    simp only [dotProduct, mulVec]
    refine (Finset.abs_sum_le_sum_abs _ _).trans ?_
    rw [Finset.sum_mul, Finset.mul_sum]
    refine Finset.sum_le_sum fun i _ => ?_
    rw [abs_mul]
    have : |∑ j, E i j * v j| ≤ e * ∑ j, |v j| := by
      rw [Finset.mul_sum]
      refine (Finset.abs_sum_le_sum_abs _ _).trans (Finset.sum_le_sum fun j _ => ?_)
      rw [abs_mul]
      exact mul_le_mul_of_nonneg_right (hE i j) (abs_nonneg _)
    calc |u i| * |∑ j, E i j * v j| ≤ |u i| * (e * ∑ j, |v j|) := mul_le_mul_of_nonneg_left this (abs_nonneg _)
      _ = _ := by ring
  rcases n.eq_zero_or_pos with rfl | n0
  · simp
  have e0 : 0 ≤ e := (abs_nonneg _).trans (hE ⟨0, n0⟩ ⟨0, n0⟩)
  have h2 := mul_le_mul (s u) (s v) (Finset.sum_nonneg fun _ _ => abs_nonneg _) (by positivity)
  refine h1.trans ((mul_le_mul_of_nonneg_left h2 e0).trans (le_of_eq ?_))
  have : Real.sqrt n * Real.sqrt n = n := Real.mul_self_sqrt (by positivity)
  calc e * (Real.sqrt n * Real.sqrt (u ⬝ᵥ u) * (Real.sqrt n * Real.sqrt (v ⬝ᵥ v)))
      = e * (Real.sqrt n * Real.sqrt n) * (Real.sqrt (u ⬝ᵥ u) * Real.sqrt (v ⬝ᵥ v)) := by ring
    _ = _ := by rw [this]; ring

theorem quad_small {E : Matrix (Fin n) (Fin n) ℝ} {e : ℝ} (hE : ∀ i j, |E i j| ≤ e) (v : Fin n → ℝ) : |quad E v| ≤ n * e * (v ⬝ᵥ v) := by
  have := bil_small hE v v
  rwa [Real.mul_self_sqrt (vv_nonneg v)] at this

/-- the skew part is small compared with the covariance -/
def SkewLe (A : Matrix (Fin n) (Fin n) ℝ) (d : ℝ) : Prop := ∀ u v, |u ⬝ᵥ (skw A *ᵥ v)| ≤ d * (Real.sqrt (quad A u) * Real.sqrt (quad A v))

theorem skw_conj (F : Matrix (Fin n) (Fin n) ℝ) (A : Matrix (Fin n) (Fin n) ℝ) : skw (F * A * Fᵀ) = F * skw A * Fᵀ := by
  simp only [skw, transpose_mul, transpose_transpose, Matrix.mul_smul, Matrix.smul_mul, Matrix.mul_sub, Matrix.sub_mul, Matrix.mul_assoc]

theorem skw_conj' (F : Matrix (Fin n) (Fin m) ℝ) (A : Matrix (Fin m) (Fin m) ℝ) (hA : A.IsSymm) : skw (F * A * Fᵀ) = 0 := by
  have hA' : Aᵀ = A := hA
  simp [skw, transpose_mul, hA', Matrix.mul_assoc]

theorem skw_add (A B : Matrix (Fin n) (Fin n) ℝ) : skw (A + B) = skw A + skw B := by
  ext i j; simp [skw]; ring

theorem skw_symm {A : Matrix (Fin n) (Fin n) ℝ} (hA : A.IsSymm) : skw A = 0 := by
  have hA' : Aᵀ = A := hA
  simp [skw, hA']

theorem skw_small {E : Matrix (Fin n) (Fin n) ℝ} {e : ℝ} (hE : ∀ i j, |E i j| ≤ e) (i j : Fin n) : |skw E i j| ≤ e := by
  have h1 := hE i j
  have h2 := hE j i
  simp only [skw, Matrix.smul_apply, Matrix.sub_apply, transpose_apply, smul_eq_mul]
  rw [abs_le] at *
  constructor <;> linarith

/-- the variance that a cycle with any gain hands on -/
theorem quad_cycle (F Q P E : Matrix (Fin n) (Fin n) ℝ) (H : Matrix (Fin m) (Fin n) ℝ) (R : Matrix (Fin m) (Fin m) ℝ) (K : Matrix (Fin n) (Fin m) ℝ) (v : Fin n → ℝ) :
    quad (F * joseph P H R K * Fᵀ + Q + E) v = quad P ((1 - K * H)ᵀ *ᵥ (Fᵀ *ᵥ v)) + quad R (Kᵀ *ᵥ (Fᵀ *ᵥ v)) + quad Q v + quad E v := by
  rw [quad_plus, quad_plus, quad_conj, joseph, quad_plus, quad_conj, quad_conj]

/-- one cycle: what is left of the old variance, and the variance that is there in any case -/
theorem cycle_floor {F Q P E : Matrix (Fin n) (Fin n) ℝ} {H : Matrix (Fin m) (Fin n) ℝ} {R : Matrix (Fin m) (Fin m) ℝ} {K : Matrix (Fin n) (Fin m) ℝ} {e : ℝ}
    (hR : IsCov R) (hQ : ∀ v, q * (v ⬝ᵥ v) ≤ quad Q v) (q0 : 0 < q) (qb : q ≤ b) (hE : ∀ i j, |E i j| ≤ e) (he : n * e ≤ q / 2)
    (hP : ∀ v, 0 ≤ quad P v) (hb : ∀ v, quad (F * joseph P H R K * Fᵀ + Q + E) v ≤ 2 * b * (v ⬝ᵥ v)) (v : Fin n → ℝ) :
    q / 2 * (v ⬝ᵥ v) ≤ quad (F * joseph P H R K * Fᵀ + Q + E) v
      ∧ quad P ((F * (1 - K * H))ᵀ *ᵥ v) ≤ (1 - q / (4 * b)) * quad (F * joseph P H R K * Fᵀ + Q + E) v := by
  have b0 : 0 < b := q0.trans_le qb
  have t : (1 - K * H)ᵀ *ᵥ (Fᵀ *ᵥ v) = (F * (1 - K * H))ᵀ *ᵥ v := by rw [transpose_mul, mulVec_mulVec]
  have h1 := quad_cycle F Q P E H R K v
  rw [t] at h1
  have h2 := hQ v
  have h3 := (abs_le.1 (quad_small hE v)).1
  have h4 : 0 ≤ quad R (Kᵀ *ᵥ (Fᵀ *ᵥ v)) := hR.2 _
  have h5 := hP ((F * (1 - K * H))ᵀ *ᵥ v)
  have h6 := mul_le_mul_of_nonneg_right he (vv_nonneg v)
  have h7 : q / (4 * b) * quad (F * joseph P H R K * Fᵀ + Q + E) v ≤ q / 2 * (v ⬝ᵥ v) := by
    refine (mul_le_mul_of_nonneg_left (hb v) (by positivity)).trans (le_of_eq ?_)
    field_simp; ring
  constructor <;> linarith

/-- one cycle: the skew part -/
theorem skew_step {F Q P E : Matrix (Fin n) (Fin n) ℝ} {H : Matrix (Fin m) (Fin n) ℝ} {R : Matrix (Fin m) (Fin m) ℝ} {K : Matrix (Fin n) (Fin m) ℝ} {d e : ℝ}
    (hQs : Q.IsSymm) (hR : IsCov R) (hQ : ∀ v, q * (v ⬝ᵥ v) ≤ quad Q v) (q0 : 0 < q) (qb : q ≤ b) (d0 : 0 ≤ d) (hE : ∀ i j, |E i j| ≤ e) (he : n * e ≤ q / 2)
    (e0 : 0 ≤ e) (hP : ∀ v, 0 ≤ quad P v) (hd : SkewLe P d) (hb : ∀ v, quad (F * joseph P H R K * Fᵀ + Q + E) v ≤ 2 * b * (v ⬝ᵥ v)) :
    SkewLe (F * joseph P H R K * Fᵀ + Q + E) ((1 - q / (4 * b)) * d + 2 * (n * e) / q) := by
  set P' := F * joseph P H R K * Fᵀ + Q + E with hP'
  have b0 : 0 < b := q0.trans_le qb
  set A := F * (1 - K * H) with hA
  have c0 : 0 ≤ 1 - q / (4 * b) := by
    rw [sub_nonneg, div_le_one (by positivity)]; linarith
  have key := cycle_floor (F := F) (K := K) (H := H) hR hQ q0 qb hE he hP hb
  rw [← hP', ← hA] at key
  have sk : skw P' = A * skw P * Aᵀ + skw E := by
    rw [hP', skw_add, skw_add, skw_symm hQs, add_zero, skw_conj, joseph, skw_add, skw_conj, skw_conj' K R hR.1, add_zero, hA, transpose_mul]
    simp only [Matrix.mul_assoc]
  intro u v
  have hu := key u
  have hv := key v
  rw [sk, add_mulVec, dotProduct_add]
  have e1 : u ⬝ᵥ ((A * skw P * Aᵀ) *ᵥ v) = (Aᵀ *ᵥ u) ⬝ᵥ (skw P *ᵥ (Aᵀ *ᵥ v)) := by
    rw [← mulVec_mulVec, ← mulVec_mulVec, dot_mulVec']
  have h1 := hd (Aᵀ *ᵥ u) (Aᵀ *ᵥ v)
  rw [← e1] at h1
  have h2 := bil_small (skw_small hE) u v
  have h3 : Real.sqrt (quad P (Aᵀ *ᵥ u)) * Real.sqrt (quad P (Aᵀ *ᵥ v)) ≤ (1 - q / (4 * b)) * (Real.sqrt (quad P' u) * Real.sqrt (quad P' v)) := by
    have a1 := Real.sqrt_le_sqrt hu.2
    have a2 := Real.sqrt_le_sqrt hv.2
    rw [Real.sqrt_mul c0] at a1 a2
    refine (mul_le_mul a1 a2 (Real.sqrt_nonneg _) (by positivity)).trans (le_of_eq ?_)
    have := Real.mul_self_sqrt c0
    calc _ = Real.sqrt (1 - q / (4 * b)) * Real.sqrt (1 - q / (4 * b)) * (Real.sqrt (quad P' u) * Real.sqrt (quad P' v)) := by ring
      _ = _ := by rw [this]
  have h4 : Real.sqrt (u ⬝ᵥ u) * Real.sqrt (v ⬝ᵥ v) ≤ 2 / q * (Real.sqrt (quad P' u) * Real.sqrt (quad P' v)) := by
    have g : ∀ w, q / 2 * (w ⬝ᵥ w) ≤ quad P' w → Real.sqrt (w ⬝ᵥ w) ≤ Real.sqrt (2 / q) * Real.sqrt (quad P' w) := fun w hw => by
      rw [← Real.sqrt_mul (by positivity)]
      refine Real.sqrt_le_sqrt ?_
      rw [div_mul_eq_mul_div, le_div_iff₀ q0]
      linarith
    refine (mul_le_mul (g u hu.1) (g v hv.1) (Real.sqrt_nonneg _) (by positivity)).trans (le_of_eq ?_)
    have := Real.mul_self_sqrt (show 0 ≤ 2 / q by positivity)
    calc _ = Real.sqrt (2 / q) * Real.sqrt (2 / q) * (Real.sqrt (quad P' u) * Real.sqrt (quad P' v)) := by ring
      _ = _ := by rw [this]
  refine (abs_add_le _ _).trans ((add_le_add (h1.trans (mul_le_mul_of_nonneg_left h3 d0)) (h2.trans (mul_le_mul_of_nonneg_left h4 (by positivity)))).trans (le_of_eq ?_))
  ring

/-- one cycle: the variances.  `K` may be any gain; its distance from the best one for the current (symmetrised) covariance enters to second order. -/
theorem var_step {F Q P P' E : Matrix (Fin n) (Fin n) ℝ} {H : Matrix (Fin m) (Fin n) ℝ} {R : Matrix (Fin m) (Fin m) ℝ} {K : Matrix (Fin n) (Fin m) ℝ} {s e g : ℝ}
    (hR : IsPosCov R) (hQ : ∀ v, q * (v ⬝ᵥ v) ≤ quad Q v) (q0 : 0 < q) (b0 : 0 < b) (s0 : 0 ≤ s) (s1 : s ≤ 1) (hE : ∀ i j, |E i j| ≤ e)
    (hP : IsCov P) (hP' : ∀ v, 0 ≤ quad P' v) (hs : ∀ v, |quad P' v - quad P v| ≤ s * quad P v) (hB : ∀ v, quad (ric F Q H R P) v ≤ b * (v ⬝ᵥ v))
    (hg : ∀ v, quad (innov (symP P') H R) ((K - gain (symP P') H R)ᵀ *ᵥ (Fᵀ *ᵥ v)) ≤ g * (v ⬝ᵥ v)) (g0 : 0 ≤ g) (e0 : 0 ≤ e) (v : Fin n → ℝ) :
    |quad (F * joseph P' H R K * Fᵀ + Q + E) v - quad (ric F Q H R P) v| ≤ ((1 - q / b) * s + (n * e + g) / q) * quad (ric F Q H R P) v := by
  have hX := sym_isCov hP'
  set X := symP P' with hXd
  have hR' := isPosCov_iff.1 hR
  have hRc : ∀ w, 0 ≤ quad R w := (isCov_iff.2 hR'.posSemidef).2
  have hEv := abs_le.1 (quad_small hE v)
  have qx : ∀ w, quad X w = quad P' w := fun w => quad_sym P' w
  have hc := quad_cycle F Q P' E H R K v
  -- the floor of the exact covariance
  have fl : q * (v ⬝ᵥ v) ≤ quad (ric F Q H R P) v := by
    have h1 := quad_cycle F Q P 0 H R (gain P H R) v
    rw [add_zero] at h1
    have h2 : quad (ric F Q H R P) v = _ := h1
    have h3 : 0 ≤ quad P ((1 - gain P H R * H)ᵀ *ᵥ (Fᵀ *ᵥ v)) := hP.2 _
    have h4 := hRc ((gain P H R)ᵀ *ᵥ (Fᵀ *ᵥ v))
    have h5 : quad (0 : Matrix (Fin n) (Fin n) ℝ) v = 0 := by simp [quad]
    have h6 := hQ v
    rw [h5] at h2
    linarith
  have small : (n * e + g) * (v ⬝ᵥ v) ≤ (n * e + g) / q * quad (ric F Q H R P) v := by
    refine le_trans (le_of_eq ?_) (mul_le_mul_of_nonneg_left fl (by positivity))
    field_simp
  have small2 : n * e * (v ⬝ᵥ v) ≤ (n * e + g) * (v ⬝ᵥ v) := mul_le_mul_of_nonneg_right (by linarith) (vv_nonneg v)
  rw [abs_le]
  constructor
  · -- no gain does better than the best one
    have h1 := (ric_le_gain (F := F) (Q := Q) (H := H) hR hP K).2 v
    have h2 := quad_cycle F Q P 0 H R K v
    rw [add_zero] at h2
    have h5 : quad (0 : Matrix (Fin n) (Fin n) ℝ) v = 0 := by simp [quad]
    rw [h5] at h2
    have h3 : quad (ric F Q H R P) v ≤ quad (F * joseph P H R K * Fᵀ + Q) v := h1
    rw [h2] at h3
    have h4 := (abs_le.1 (hs ((1 - K * H)ᵀ *ᵥ (Fᵀ *ᵥ v)))).1
    have h6 := hRc (Kᵀ *ᵥ (Fᵀ *ᵥ v))
    have h7 := mul_le_mul_of_nonneg_left h3 (show 0 ≤ 1 - s by linarith)
    have h8 := hQ v
    have h9 : q / b * quad (ric F Q H R P) v ≤ q * (v ⬝ᵥ v) := by
      rw [div_mul_eq_mul_div, div_le_iff₀ b0, mul_assoc q, mul_comm (v ⬝ᵥ v)]
      exact mul_le_mul_of_nonneg_left (hB v) q0.le
    have h10 := mul_le_mul_of_nonneg_left (h9.trans h8) s0
    have h11 := mul_nonneg s0 h6
    rw [hc]
    have e1 : ((1 - q / b) * s + (n * e + g) / q) * quad (ric F Q H R P) v
        = s * quad (ric F Q H R P) v - s * (q / b * quad (ric F Q H R P) v) + (n * e + g) / q * quad (ric F Q H R P) v := by ring
    rw [e1]
    nlinarith [mul_nonneg g0 (vv_nonneg v)]
  · have h1 := gap_step (F := F) (Q := Q) (H := H) (P := P) (P' := X) hQ hR q0.le b0 hX hB s0 (fun w => by
      rw [qx]; exact (le_abs_self _).trans (hs w)) v
    have hS := innov_pd (isCov_iff.1 hX) H hR'
    have h2 : quad (joseph X H R K) (Fᵀ *ᵥ v) = quad (joseph X H R (gain X H R)) (Fᵀ *ᵥ v)
        + quad (innov X H R) ((K - gain X H R)ᵀ *ᵥ (Fᵀ *ᵥ v)) := by
      rw [joseph_gap hX.1 (psd_tr hS.posSemidef) (pd_det hS) K, ← joseph_opt hX.1 (psd_tr hS.posSemidef) (pd_det hS), quad_plus, quad_conj]
    have h3 : quad (joseph X H R K) (Fᵀ *ᵥ v) = quad P' ((1 - K * H)ᵀ *ᵥ (Fᵀ *ᵥ v)) + quad R (Kᵀ *ᵥ (Fᵀ *ᵥ v)) := by
      rw [joseph, quad_plus, quad_conj, quad_conj, qx]
    have h4 : quad (ric F Q H R X) v = quad (joseph X H R (gain X H R)) (Fᵀ *ᵥ v) + quad Q v := by
      rw [ric, quad_plus, quad_conj]
    have h5 := hg v
    rw [hc]
    have e1 : ((1 - q / b) * s + (n * e + g) / q) * quad (ric F Q H R P) v
        = s * (1 - q / b) * quad (ric F Q H R P) v + (n * e + g) / q * quad (ric F Q H R P) v := by ring
    rw [e1]
    have e2 : (n * e + g) * (v ⬝ᵥ v) = n * e * (v ⬝ᵥ v) + g * (v ⬝ᵥ v) := by ring
    linarith

/-- entries of a nearly symmetric covariance -/
theorem sym_entry_le {A : Matrix (Fin n) (Fin n) ℝ} {c : ℝ} (h0 : ∀ v, 0 ≤ quad A v) (hc : ∀ v, quad A v ≤ c * (v ⬝ᵥ v)) (i j : Fin n) : |symP A i j| ≤ c := by
  have hs : symP A j i = symP A i j := congrFun (congrFun (sym_isSymm A) i) j
  have d : ∀ k, symP A k k ≤ c := fun k => by
    have := hc (Pi.single k 1)
    rw [← quad_sym] at this
    simpa [quad, mulVec_single_one, single_one_dotProduct] using this
  have h1 := h0 (Pi.single i 1 + Pi.single j 1)
  have h2 := h0 (Pi.single i 1 - Pi.single j 1)
  rw [← quad_sym] at h1 h2
  simp only [quad, mulVec_add, mulVec_sub, add_dotProduct, sub_dotProduct, dotProduct_add, dotProduct_sub, mulVec_single_one, single_one_dotProduct, col_apply, hs] at h1 h2
  have di := d i
  have dj := d j
  rw [abs_le]
  constructor <;> linarith

theorem skw_entry_le {A : Matrix (Fin n) (Fin n) ℝ} {c d : ℝ} (c0 : 0 ≤ c) (hc : ∀ v, quad A v ≤ c * (v ⬝ᵥ v)) (d0 : 0 ≤ d) (hd : SkewLe A d)
    (i j : Fin n) : |skw A i j| ≤ d * c := by
  have h := hd (Pi.single i 1) (Pi.single j 1)
  simp only [mulVec_single_one, single_one_dotProduct, col_apply] at h
  have g : ∀ k, Real.sqrt (quad A (Pi.single k 1)) ≤ Real.sqrt c := fun k => Real.sqrt_le_sqrt (by simpa using hc (Pi.single k 1))
  refine h.trans (mul_le_mul_of_nonneg_left ?_ d0)
  have := mul_le_mul (g i) (g j) (Real.sqrt_nonneg _) (Real.sqrt_nonneg _)
  rwa [Real.mul_self_sqrt c0] at this

theorem entry_le {A : Matrix (Fin n) (Fin n) ℝ} {c d : ℝ} (c0 : 0 ≤ c) (h0 : ∀ v, 0 ≤ quad A v) (hc : ∀ v, quad A v ≤ c * (v ⬝ᵥ v)) (d0 : 0 ≤ d) (hd : SkewLe A d)
    (i j : Fin n) : |A i j| ≤ (1 + d) * c := by
  have h1 := sym_entry_le h0 hc i j
  have h2 := skw_entry_le c0 hc d0 hd i j
  have h3 := abs_add_le (symP A i j) (skw A i j)
  rw [← Matrix.add_apply, sym_add_skw] at h3
  linarith

/-- the difference of two gains -/
theorem gain_diff {A B : Matrix (Fin n) (Fin n) ℝ} {H : Matrix (Fin m) (Fin n) ℝ} {R : Matrix (Fin m) (Fin m) ℝ} (hA : IsUnit (innov A H R).det)
    (hB : IsUnit (innov B H R).det) : gain A H R - gain B H R = (1 - gain B H R * H) * (A - B) * Hᵀ * (innov A H R)⁻¹ := by
  have h1 := gain_mul_innov hA
  have h2 := gain_mul_innov hB
  have key : (gain A H R - gain B H R) * innov A H R = (1 - gain B H R * H) * (A - B) * Hᵀ := by
    rw [Matrix.sub_mul, h1]
    have h3 : gain B H R * R = B * Hᵀ - gain B H R * (H * B * Hᵀ) := by
      rw [← h2, innov, Matrix.mul_add, add_sub_cancel_left]
    rw [innov, Matrix.mul_add, h3]
    mat_ring
  rw [← key, Matrix.mul_assoc, mul_nonsing_inv _ hA, Matrix.mul_one]

/-- entries of a gain -/
theorem gain_le {A : Matrix (Fin n) (Fin n) ℝ} {H : Matrix (Fin m) (Fin n) ℝ} {R : Matrix (Fin m) (Fin m) ℝ} {p η ρ : ℝ} (hm : 0 < m) (ρ0 : 0 < ρ)
    (hA : ∀ v, 0 ≤ quad A v) (hR : ∀ v : Fin m → ℝ, ρ * (v ⬝ᵥ v) ≤ quad R v) (Ap : ∀ i j, |A i j| ≤ p) (Hη : ∀ i j, |H i j| ≤ η) (i : Fin n) (j : Fin m) :
    |gain A H R i j| ≤ m * (n * (p * η) * (m / ρ)) := by
  have m0 : (0 : ℝ) < m := by exact_mod_cast hm
  have l := innovation_low (H := H) hm ρ0 hA hR
  refine mul_entry_le (mul_entry_le Ap fun i j => Hη j i) (fun i j => ?_) i j
  have := l.inv_le (by positivity) i j
  rwa [one_div_div] at this

/-- the gain computed from a covariance that is close to another one -/
theorem gain_near {A B D : Matrix (Fin n) (Fin n) ℝ} {H : Matrix (Fin m) (Fin n) ℝ} {R : Matrix (Fin m) (Fin m) ℝ} {p η ρ δ : ℝ} (hm : 0 < m) (ρ0 : 0 < ρ)
    (hA : ∀ v, 0 ≤ quad A v) (hB : ∀ v, 0 ≤ quad B v) (hR : ∀ v : Fin m → ℝ, ρ * (v ⬝ᵥ v) ≤ quad R v) (Bp : ∀ i j, |B i j| ≤ p) (Hη : ∀ i j, |H i j| ≤ η)
    (hD : D = A - B) (Dδ : ∀ i j, |D i j| ≤ δ) (i : Fin n) (j : Fin m) :
    |gain A H R i j - gain B H R i j| ≤ m * (n * (n * ((1 + m * (m * (n * (p * η) * (m / ρ)) * η)) * δ) * η) * (m / ρ)) := by
  have m0 : (0 : ℝ) < m := by exact_mod_cast hm
  have lA := innovation_low (H := H) hm ρ0 hA hR
  have lB := innovation_low (H := H) hm ρ0 hB hR
  rw [← Matrix.sub_apply, gain_diff (lA.regular (by positivity)) (lB.regular (by positivity)), ← hD]
  refine mul_entry_le (mul_entry_le (mul_entry_le (fun i j => ?_) Dδ) fun i j => Hη j i) (fun i j => ?_) i j
  · have h1 := mul_entry_le (gain_le hm ρ0 hB hR Bp Hη) Hη i j
    have h3 : |(1 : Matrix (Fin n) (Fin n) ℝ) i j| ≤ 1 := by rw [one_apply]; split_ifs <;> simp
    rw [Matrix.sub_apply]
    exact (abs_sub _ _).trans (add_le_add h3 h1)
  · have := lA.inv_le (by positivity) i j
    rwa [one_div_div] at this

/-- the loss from a gain that is not the best one -/
theorem loss_le {F : Matrix (Fin n) (Fin n) ℝ} {D : Matrix (Fin n) (Fin m) ℝ} {S : Matrix (Fin m) (Fin m) ℝ} {φ γ σ : ℝ} (hF : ∀ i j, |F i j| ≤ φ)
    (hD : ∀ i j, |D i j| ≤ γ) (hS : ∀ i j, |S i j| ≤ σ) (v : Fin n → ℝ) :
    quad S (Dᵀ *ᵥ (Fᵀ *ᵥ v)) ≤ n * (m * (m * (n * (φ * γ) * σ) * (n * (φ * γ)))) * (v ⬝ᵥ v) := by
  have e : quad S (Dᵀ *ᵥ (Fᵀ *ᵥ v)) = quad ((F * D) * S * (F * D)ᵀ) v := by
    rw [quad_conj, transpose_mul, mulVec_mulVec]
  rw [e]
  have hFD := mul_entry_le hF hD
  exact (le_abs_self _).trans (quad_small (mul_entry_le (mul_entry_le hFD hS) fun i j => hFD j i) v)

/-- one cycle: an error `d` of the estimate, measured by the current covariance, when the cycle adds an error with entries at most `t` -/
theorem est_step {F Q P E : Matrix (Fin n) (Fin n) ℝ} {H : Matrix (Fin m) (Fin n) ℝ} {R : Matrix (Fin m) (Fin m) ℝ} {K : Matrix (Fin n) (Fin m) ℝ} {e w t : ℝ}
    (hR : IsCov R) (hQ : ∀ v, q * (v ⬝ᵥ v) ≤ quad Q v) (q0 : 0 < q) (qb : q ≤ b) (hE : ∀ i j, |E i j| ≤ e) (he : n * e ≤ q / 2)
    (hP : ∀ v, 0 ≤ quad P v) (hb : ∀ v, quad (F * joseph P H R K * Fᵀ + Q + E) v ≤ 2 * b * (v ⬝ᵥ v)) (w0 : 0 ≤ w) (t0 : 0 ≤ t) {d a : Fin n → ℝ}
    (hd : ∀ u, |u ⬝ᵥ d| ≤ w * Real.sqrt (quad P u)) (ha : ∀ i, |a i| ≤ t) (u : Fin n → ℝ) :
    |u ⬝ᵥ ((F * (1 - K * H)) *ᵥ d + a)| ≤ ((1 - q / (8 * b)) * w + t * Real.sqrt (2 * n / q)) * Real.sqrt (quad (F * joseph P H R K * Fᵀ + Q + E) u) := by
  obtain ⟨k1, k2⟩ := cycle_floor (F := F) (K := K) (H := H) hR hQ q0 qb hE he hP hb u
  set v' := quad (F * joseph P H R K * Fᵀ + Q + E) u
  have b0 : 0 < b := q0.trans_le qb
  have x1 : q / b ≤ 1 := (div_le_one b0).2 qb
  have x0 : 0 < q / b := by positivity
  have e4 : q / (4 * b) = q / b / 4 := by field_simp
  have e8 : q / (8 * b) = q / b / 8 := by field_simp
  have c8 : 0 ≤ 1 - q / (8 * b) := by rw [e8]; linarith
  have h1 : |u ⬝ᵥ ((F * (1 - K * H)) *ᵥ d)| ≤ w * ((1 - q / (8 * b)) * Real.sqrt v') := by
    rw [dot_mulVec']
    refine (hd _).trans (mul_le_mul_of_nonneg_left ?_ w0)
    rw [← Real.sqrt_sq c8, ← Real.sqrt_mul (by positivity)]
    have v0 : 0 ≤ v' := le_trans (mul_nonneg (by linarith) (vv_nonneg u)) k1
    refine Real.sqrt_le_sqrt (k2.trans (mul_le_mul_of_nonneg_right ?_ v0))
    rw [e4, e8]; nlinarith
  have h2 : |u ⬝ᵥ a| ≤ t * (Real.sqrt (2 * n / q) * Real.sqrt v') := by
    have g1 : |u ⬝ᵥ a| ≤ t * ∑ i, |u i| := by
      rw [Finset.mul_sum]
      refine (Finset.abs_sum_le_sum_abs _ _).trans (Finset.sum_le_sum fun i _ => ?_)
      rw [abs_mul, mul_comm]
      exact mul_le_mul_of_nonneg_right (ha i) (abs_nonneg _)
    refine g1.trans (mul_le_mul_of_nonneg_left ((sum_abs_le u).trans ?_) t0)
    rw [← Real.sqrt_mul (by positivity), ← Real.sqrt_mul (by positivity)]
    refine Real.sqrt_le_sqrt ?_
    have : u ⬝ᵥ u ≤ 2 / q * v' := by
      rw [div_mul_eq_mul_div, le_div_iff₀ q0]; linarith
    refine (mul_le_mul_of_nonneg_left this (by positivity)).trans (le_of_eq (by ring))
  rw [dotProduct_add]
  refine (abs_add_le _ _).trans ((add_le_add h1 h2).trans (le_of_eq (by ring)))

/-- entries of a symmetric part with small variances -/
theorem sym_small {D : Matrix (Fin n) (Fin n) ℝ} {c : ℝ} (h : ∀ v, |quad D v| ≤ c * (v ⬝ᵥ v)) (i j : Fin n) : |symP D i j| ≤ c := by
  have hs : symP D j i = symP D i j := congrFun (congrFun (sym_isSymm D) i) j
  have h1 := h (Pi.single i 1 + Pi.single j 1)
  have h2 := h (Pi.single i 1 - Pi.single j 1)
  rw [← quad_sym] at h1 h2
  simp only [quad, mulVec_add, mulVec_sub, add_dotProduct, sub_dotProduct, dotProduct_add, dotProduct_sub, mulVec_single_one, single_one_dotProduct, col_apply, hs] at h1 h2
  simp only [Pi.single_apply] at h1 h2
  rw [abs_le] at *
  by_cases e : i = j
  · subst e
    simp only [if_true] at h1 h2
    constructor <;> linarith
  · simp only [if_neg e, if_neg (Ne.symm e), if_true] at h1 h2
    constructor <;> linarith

end NavFuse.Props
