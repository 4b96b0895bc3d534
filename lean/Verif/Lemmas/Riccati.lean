import Verif.Props.KalmanForget
import Mathlib.Topology.Algebra.Order.LiminfLimsup
import Mathlib.Topology.Order.MonotoneConvergence
import Mathlib.Analysis.SpecificLimits.Basic

/-! The covariance recursion of a filter with constant models. -/

set_option linter.unusedSectionVars false

namespace NavFuse.Props
open Matrix Kalman Spec KA Filter Topology

variable {n m : ℕ} {q b : ℝ}

/-- one cycle of a filter with constant models: process a measurement, predict -/
def cycle (F Q : Matrix (Fin n) (Fin n) ℝ) (H : Matrix (Fin m) (Fin n) ℝ) (R : Matrix (Fin m) (Fin m) ℝ) (z : Fin m → ℝ) : List (FilterOp n) :=
  [.update m z H R, .predict F Q]

/-- one cycle for each of the measurements -/
def cycles (F Q : Matrix (Fin n) (Fin n) ℝ) (H : Matrix (Fin m) (Fin n) ℝ) (R : Matrix (Fin m) (Fin m) ℝ) (zs : List (Fin m → ℝ)) : List (FilterOp n) :=
  zs.flatMap (cycle F Q H R)

/-- the covariance after a cycle -/
noncomputable def ric (F Q : Matrix (Fin n) (Fin n) ℝ) (H : Matrix (Fin m) (Fin n) ℝ) (R : Matrix (Fin m) (Fin m) ℝ) (P : Matrix (Fin n) (Fin n) ℝ) :
    Matrix (Fin n) (Fin n) ℝ := F * joseph P H R (gain P H R) * Fᵀ + Q

section
variable {F Q : Matrix (Fin n) (Fin n) ℝ} {H : Matrix (Fin m) (Fin n) ℝ} {R : Matrix (Fin m) (Fin m) ℝ}

theorem ric_isCov (hQ : IsCov Q) (hR : IsPosCov R) {P : Matrix (Fin n) (Fin n) ℝ} (hP : IsCov P) : IsCov (ric F Q H R P) := by
  rw [isCov_iff] at *
  rw [isPosCov_iff] at hR
  exact (psd_conj (joseph_psd hP H hR.posSemidef _) F).add hQ

theorem iter_isCov (hQ : IsCov Q) (hR : IsPosCov R) {P : Matrix (Fin n) (Fin n) ℝ} (hP : IsCov P) (k : ℕ) : IsCov ((ric F Q H R)^[k] P) := by
  induction k generalizing P with
  | zero => exact hP
  | succ k ih => exact ih (ric_isCov hQ hR hP)

theorem covLe_refl (A : Matrix (Fin n) (Fin n) ℝ) : CovLe A A := by
  rw [covLe_iff, sub_self]; exact PosSemidef.zero

theorem isCov_of_le {A B : Matrix (Fin n) (Fin n) ℝ} (hA : IsCov A) (h : CovLe A B) : IsCov B := by
  rw [isCov_iff] at *
  rw [covLe_iff] at h
  have := hA.add h
  rwa [add_sub_cancel] at this

/-- entries from variances -/
theorem entry_quad {C : Matrix (Fin n) (Fin n) ℝ} (hC : C.IsSymm) (i j : Fin n) :
    C i j = (quad C (Pi.single i 1 + Pi.single j 1) - quad C (Pi.single i 1) - quad C (Pi.single j 1)) / 2 := by
  have hs : C j i = C i j := congrFun (congrFun hC i) j
  simp only [quad, mulVec_add, add_dotProduct, dotProduct_add, mulVec_single_one, single_one_dotProduct, col_apply]
  rw [hs]; ring

theorem covLe_antisymm {A B : Matrix (Fin n) (Fin n) ℝ} (h : CovLe A B) (h' : CovLe B A) (hA : A.IsSymm) (hB : B.IsSymm) : A = B := by
  have e : ∀ v, quad A v = quad B v := fun v => le_antisymm (h.2 v) (h'.2 v)
  ext i j
  rw [entry_quad hA, entry_quad hB, e, e, e]

/-- a larger covariance before a cycle gives a larger one after it -/
theorem ric_mono (hR : IsPosCov R) {P P' : Matrix (Fin n) (Fin n) ℝ} (hP : IsCov P) (h : CovLe P P') : CovLe (ric F Q H R P) (ric F Q H R P') := by
  have hR' := isPosCov_iff.1 hR
  refine covLe_add (covLe_conj ?_ F) (covLe_refl Q)
  exact covLe_trans (joseph_min (isCov_iff.1 hP) H hR' (gain P' H R)) (covLe_joseph h (covLe_refl R) H _)

theorem iter_mono (hQ : IsCov Q) (hR : IsPosCov R) {P P' : Matrix (Fin n) (Fin n) ℝ} (hP : IsCov P) (h : CovLe P P') (k : ℕ) :
    CovLe ((ric F Q H R)^[k] P) ((ric F Q H R)^[k] P') := by
  induction k generalizing P P' with
  | zero => exact h
  | succ k ih => exact ih (ric_isCov hQ hR hP) (ric_mono hR hP h)

theorem runFilter_app (L : LinSolver ℝ) (os os' : List (FilterOp n)) (s : DVec ℝ × DMat ℝ) :
    runFilter L (os ++ os') s = (runFilter L os s >>= fun t => runFilter L os' t) := by
  induction os generalizing s with
  | nil => rfl
  | cons o os ih =>
    simp only [List.cons_append, runFilter]
    cases o.exec L s with
    | error e => rfl
    | ok t => exact ih t

theorem run_cycle {L : LinSolver ℝ} (hL : L.Correct) (hR : IsPosCov R) (z : Fin m → ℝ) (x : Fin n → ℝ) {P : Matrix (Fin n) (Fin n) ℝ} (hP : IsCov P) :
    ∃ x', runFilter L (cycle F Q H R z) (⟨n, x⟩, ⟨n, n, P⟩) = .ok (⟨n, x'⟩, ⟨n, n, ric F Q H R P⟩) := by
  rw [isCov_iff] at hP
  rw [isPosCov_iff] at hR
  refine ⟨F *ᵥ (x + gain P H R *ᵥ (z - H *ᵥ x)), ?_⟩
  simp [cycle, runFilter, FilterOp.exec, update_R hL x hP z H hR x P, predict_R, osimp, ric]

/-- the covariance after a number of cycles does not depend on estimates and measurements -/
theorem run_cycles {L : LinSolver ℝ} (hL : L.Correct) (hQ : IsCov Q) (hR : IsPosCov R) (zs : List (Fin m → ℝ)) (x : Fin n → ℝ)
    {P : Matrix (Fin n) (Fin n) ℝ} (hP : IsCov P) :
    ∃ x', runFilter L (cycles F Q H R zs) (⟨n, x⟩, ⟨n, n, P⟩) = .ok (⟨n, x'⟩, ⟨n, n, (ric F Q H R)^[zs.length] P⟩) := by
  induction zs generalizing x P with
  | nil => exact ⟨x, rfl⟩
  | cons z zs ih =>
    obtain ⟨x1, h1⟩ := run_cycle (F := F) (Q := Q) (H := H) hL hR z x hP
    obtain ⟨x2, h2⟩ := ih x1 (ric_isCov (F := F) (H := H) hQ hR hP)
    refine ⟨x2, ?_⟩
    rw [cycles, List.flatMap_cons, runFilter_app, h1]
    exact h2

/-- with the gain of the smaller covariance -/
theorem ric_le_gain (hR : IsPosCov R) {P' : Matrix (Fin n) (Fin n) ℝ} (hP' : IsCov P') (G : Matrix (Fin n) (Fin m) ℝ) :
    CovLe (ric F Q H R P') (F * joseph P' H R G * Fᵀ + Q) :=
  covLe_add (covLe_conj (joseph_min (isCov_iff.1 hP') H (isPosCov_iff.1 hR) G) F) (covLe_refl Q)

theorem quad_minus (A B : Matrix (Fin n) (Fin n) ℝ) (v : Fin n → ℝ) : quad (A - B) v = quad A v - quad B v := by
  rw [quad, quad, quad, sub_mulVec, dotProduct_sub]

/-- the gap between two covariances after a cycle -/
theorem gap_step (hQ : ∀ v, q * (v ⬝ᵥ v) ≤ quad Q v) (hR : IsPosCov R) (hq : 0 ≤ q) (hb : 0 < b) {P P' : Matrix (Fin n) (Fin n) ℝ} (hP' : IsCov P')
    (hB : ∀ v, quad (ric F Q H R P) v ≤ b * (v ⬝ᵥ v)) {c : ℝ} (hc : 0 ≤ c) (hg : ∀ v, quad P' v - quad P v ≤ c * quad P v) (v : Fin n → ℝ) :
    quad (ric F Q H R P') v - quad (ric F Q H R P) v ≤ c * (1 - q / b) * quad (ric F Q H R P) v := by
  set G := gain P H R with hG
  have h1 := (ric_le_gain (F := F) (Q := Q) (H := H) hR hP' G).2 v
  have h2 : ∀ X : Matrix (Fin n) (Fin n) ℝ, quad (F * joseph X H R G * Fᵀ + Q) v
      = quad X ((1 - G * H)ᵀ *ᵥ (Fᵀ *ᵥ v)) + quad R (Gᵀ *ᵥ (Fᵀ *ᵥ v)) + quad Q v := fun X => by
    rw [quad_plus, quad_conj, joseph, quad_plus, quad_conj, quad_conj]
  have h3 := hg ((1 - G * H)ᵀ *ᵥ (Fᵀ *ᵥ v))
  have h4 : quad (ric F Q H R P) v = quad P ((1 - G * H)ᵀ *ᵥ (Fᵀ *ᵥ v)) + quad R (Gᵀ *ᵥ (Fᵀ *ᵥ v)) + quad Q v := h2 P
  have h5 : quad (ric F Q H R P') v ≤ quad P' ((1 - G * H)ᵀ *ᵥ (Fᵀ *ᵥ v)) + quad R (Gᵀ *ᵥ (Fᵀ *ᵥ v)) + quad Q v := by rw [← h2]; exact h1
  have h6 : 0 ≤ quad R (Gᵀ *ᵥ (Fᵀ *ᵥ v)) := (isCov_iff.2 (isPosCov_iff.1 hR).posSemidef).2 _
  have h7 := hQ v
  have h8 := hB v
  have h9 : q / b * quad (ric F Q H R P) v ≤ q * (v ⬝ᵥ v) := by
    rw [div_mul_eq_mul_div, div_le_iff₀ hb, mul_assoc q, mul_comm (v ⬝ᵥ v)]
    exact mul_le_mul_of_nonneg_left h8 hq
  have h10 : quad P ((1 - G * H)ᵀ *ᵥ (Fᵀ *ᵥ v)) ≤ (1 - q / b) * quad (ric F Q H R P) v := by
    have : (1 - q / b) * quad (ric F Q H R P) v = quad (ric F Q H R P) v - q / b * quad (ric F Q H R P) v := by ring
    rw [this]; linarith
  have h11 := mul_le_mul_of_nonneg_left h10 hc
  rw [mul_assoc]
  linarith

/-- the gap shrinks geometrically -/
theorem gap_iter (hQc : IsCov Q) (hQ : ∀ v, q * (v ⬝ᵥ v) ≤ quad Q v) (hR : IsPosCov R) (hq : 0 ≤ q) (hb : 0 < b) (hqb : q ≤ b)
    {P P' : Matrix (Fin n) (Fin n) ℝ} (hP' : IsCov P')
    (hB : ∀ k v, quad ((ric F Q H R)^[k] P) v ≤ b * (v ⬝ᵥ v)) {c : ℝ} (hc : 0 ≤ c) (hg : ∀ v, quad P' v - quad P v ≤ c * quad P v) (k : ℕ) (v : Fin n → ℝ) :
    quad ((ric F Q H R)^[k] P') v - quad ((ric F Q H R)^[k] P) v ≤ c * (1 - q / b) ^ k * quad ((ric F Q H R)^[k] P) v := by
  have hρ : 0 ≤ 1 - q / b := by rw [sub_nonneg, div_le_one hb]; exact hqb
  induction k generalizing P P' c with
  | zero => simpa using hg v
  | succ k ih =>
    have := ih (ric_isCov (F := F) (H := H) hQc hR hP') (fun k v => hB (k + 1) v) (mul_nonneg hc hρ) (gap_step hQ hR hq hb hP' (hB 1) hc hg)
    rw [pow_succ' (1 - q / b), ← mul_assoc]
    exact this

/-- a covariance that some constant gain does not increase bounds the run -/
theorem iter_le (hQ : IsCov Q) (hR : IsPosCov R) {M : Matrix (Fin n) (Fin n) ℝ} (hM : IsCov M) {G : Matrix (Fin n) (Fin m) ℝ}
    (hG : CovLe (F * joseph M H R G * Fᵀ + Q) M) {P : Matrix (Fin n) (Fin n) ℝ} (hP : IsCov P) (h : CovLe P M) (k : ℕ) :
    CovLe ((ric F Q H R)^[k] P) M := by
  induction k generalizing P with
  | zero => exact h
  | succ k ih =>
    exact ih (ric_isCov hQ hR hP) (covLe_trans (ric_mono hR hP h) (covLe_trans (ric_le_gain hR hM G) hG))

theorem zero_isCov : IsCov (0 : Matrix (Fin n) (Fin n) ℝ) := isCov_iff.2 PosSemidef.zero

theorem covLe_zero {P : Matrix (Fin n) (Fin n) ℝ} (hP : IsCov P) : CovLe 0 P := by
  rw [covLe_iff, sub_zero]; exact isCov_iff.1 hP

/-- from zero, covariances increase -/
theorem iter_incr (hQ : IsCov Q) (hR : IsPosCov R) {k l : ℕ} (h : k ≤ l) : CovLe ((ric F Q H R)^[k] 0) ((ric F Q H R)^[l] 0) := by
  obtain ⟨d, rfl⟩ := Nat.exists_eq_add_of_le h
  rw [Function.iterate_add_apply]
  exact iter_mono hQ hR zero_isCov (covLe_zero (iter_isCov hQ hR zero_isCov d)) k

/-- the first cycle, compared with the one from zero -/
theorem ric_first (hR : IsPosCov R) {P : Matrix (Fin n) (Fin n) ℝ} (hP : IsCov P) (v : Fin n → ℝ) :
    quad (ric F Q H R P) v ≤ quad (F * P * Fᵀ) v + quad Q v ∧ ric F Q H R 0 = Q := by
  constructor
  · have := (ric_le_gain (F := F) (Q := Q) (H := H) hR hP 0).2 v
    rw [← quad_plus]
    simpa [joseph, quad] using this
  · simp [ric, joseph, gain]

/-- every matrix is bounded by a multiple of the identity -/
theorem quad_bounded (hq : 0 < q) (C : Matrix (Fin n) (Fin n) ℝ) : ∃ s, (∀ v, quad C v ≤ s * (q * (v ⬝ᵥ v))) ∧ 0 ≤ s := by
  refine ⟨(∑ i, ∑ j, |C i j|) / q, fun v => ?_, by positivity⟩
  have hi : ∀ i, |v i| ^ 2 ≤ v ⬝ᵥ v := fun i => by
    rw [sq_abs, sq]; exact Finset.single_le_sum (f := fun i => v i * v i) (fun i _ => mul_self_nonneg _) (Finset.mem_univ i)
  have : quad C v ≤ (∑ i, ∑ j, |C i j|) * (v ⬝ᵥ v) := by
    rw [quad, Finset.sum_mul]
    refine Finset.sum_le_sum fun i _ => ?_
    rw [mulVec, dotProduct, Finset.mul_sum, Finset.sum_mul]
    refine Finset.sum_le_sum fun j _ => ?_
    calc v i * (C i j * v j) ≤ |v i * (C i j * v j)| := le_abs_self _
      _ = |C i j| * (|v i| * |v j|) := by rw [abs_mul, abs_mul]; ring
      _ ≤ _ := mul_le_mul_of_nonneg_left (by nlinarith [hi i, hi j, sq_nonneg (|v i| - |v j|)]) (abs_nonneg _)
  calc _ ≤ _ := this
    _ = _ := by field_simp

/-- limits of variances give a limit of the matrices -/
theorem limit_exists {A : ℕ → Matrix (Fin n) (Fin n) ℝ} (hA : ∀ k, IsCov (A k)) (f : (Fin n → ℝ) → ℝ)
    (hf : ∀ v, Tendsto (fun k => quad (A k) v) atTop (𝓝 (f v))) : ∃ P : Matrix (Fin n) (Fin n) ℝ, IsCov P ∧ ∀ v, quad P v = f v := by
  let P : Matrix (Fin n) (Fin n) ℝ := of fun i j => (f (Pi.single i 1 + Pi.single j 1) - f (Pi.single i 1) - f (Pi.single j 1)) / 2
  have he : ∀ i j, Tendsto (fun k => A k i j) atTop (𝓝 (P i j)) := fun i j => by
    have : (fun k => A k i j) = fun k => (quad (A k) (Pi.single i 1 + Pi.single j 1) - quad (A k) (Pi.single i 1) - quad (A k) (Pi.single j 1)) / 2 := by
      funext k; exact entry_quad (hA k).1 i j
    rw [this]
    exact (((hf _).sub (hf _)).sub (hf _)).div_const 2
  have hq : ∀ v, quad P v = f v := fun v => by
    refine tendsto_nhds_unique ?_ (hf v)
    simp only [quad, mulVec, dotProduct]
    exact tendsto_finsetSum _ fun i _ => (tendsto_finsetSum _ fun j _ => (he i j).mul_const _).const_mul _
  refine ⟨P, ⟨?_, fun v => ?_⟩, hq⟩
  · ext i j
    refine tendsto_nhds_unique (he j i) ?_
    have : (fun k => A k j i) = fun k => A k i j := funext fun k => congrFun (congrFun (hA k).1 i) j
    rw [this]; exact he i j
  · have : quad P v = f v := hq v
    rw [quad] at this
    rw [this]
    exact ge_of_tendsto' (hf v) fun k => (hA k).2 v

end

end NavFuse.Props
